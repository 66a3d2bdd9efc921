import Verif.Model.Operations

/-! # What operations on copies have to do -/

namespace Verif.Operations

open Verif.Py Verif.Geom

/-- The objects a file consists of: those it lists, and what these refer to. -/
inductive Reach (h : Heap) (roots : List ℕ) : ℕ → Prop
  | root {i : ℕ} : i ∈ roots → Reach h roots i
  | aperture {i j : ℕ} : Reach h roots i → (h i).aperture = some j → Reach h roots j
  | part {i j : ℕ} : Reach h roots i → j ∈ (h i).parts → Reach h roots j

/-- The same object with other references. -/
def renamed (φ : ℕ → ℕ) (o : Obj) : Obj := { o with aperture := o.aperture.map φ, parts := o.parts.map φ }

/-- `φ` takes the objects met from `roots` to different objects that look the same and refer to each other the same
way. -/
def Alike (φ : ℕ → ℕ) (roots : List ℕ) (h h' : Heap) : Prop :=
  Set.InjOn φ {i | Reach h roots i} ∧ ∀ i, Reach h roots i → h' (φ i) = renamed φ (h i)

/-- The objects in `apertures`. -/
def Apertures.refs : Apertures → List ℕ
  | .list l | .view l => l

/-- The objects a file lists. -/
def GFile.roots (f : GFile) : List ℕ := f.primitives ++ f.apertures.refs

/-- Objects refer to objects that exist. -/
def World.Closed (w : World) : Prop :=
  ∀ i < w.next, (∀ j, (w.heap i).aperture = some j → j < w.next) ∧ ∀ j ∈ (w.heap i).parts, j < w.next

/-- `g` in memory `w'` is a copy of the file `f` as `method` makes it of `f` itself, shares nothing with what was there
before, and what was there before is as it was. -/
def CopiedBy (method : GFile → Heap → GFile × Heap) (w : World) (f : GFile) (w' : World) (g : GFile) : Prop :=
  (∀ i < w.next, w'.heap i = w.heap i) ∧
  (∀ i, Reach w'.heap g.roots i → w.next ≤ i ∧ i < w'.next) ∧
  g.program = (method f w.heap).1.program ∧
  ∃ φ, g.primitives = f.primitives.map φ ∧ g.apertures = .list (f.apertures.refs.map φ) ∧
    Alike φ f.roots (method f w.heap).2 w'.heap

/-- The tools a drill file uses. -/
def drillTools (f : Excellon.XFile) : Set ℕ :=
  {r | (∃ x ∈ f.statements, x.kind = .tool r) ∨ (∃ t ∈ f.tools, t.2 = r) ∨ ∃ x ∈ f.hits, x.tool = some r}

/-- The statement with tool `φ r` instead of `r`. -/
def stmtRenamed (φ : ℕ → ℕ) (x : Excellon.Stmt) : Excellon.Stmt :=
  match x.kind with
  | .tool r => { x with kind := .tool (φ r) }
  | _ => x

/-- The hit with tool `φ r` instead of `r`. -/
def hitRenamed (φ : ℕ → ℕ) : Excellon.Hit → Excellon.Hit
  | .hole t p => .hole (t.map φ) p
  | .slot t a b k => .slot (t.map φ) a b k

/-- `g` is a copy of the drill file `g'` with tools of its own, made in the memory of `f`, where nothing else changed. -/
def DrillCopy (f g' g : Excellon.XFile) : Prop :=
  ∃ φ, Set.InjOn φ (drillTools f) ∧ (∀ r ∈ drillTools f, f.heap.length ≤ φ r ∧ g.heap[φ r]? = g'.heap[r]?) ∧
    (∀ r < f.heap.length, g.heap[r]? = f.heap[r]?) ∧ g.statements = g'.statements.map (stmtRenamed φ) ∧
    g.tools = g'.tools.map (fun t => (t.1, φ t.2)) ∧ g.hits = g'.hits.map (hitRenamed φ) ∧ g.cam = g'.cam

/-- Both give related results, or both raise the same exception. -/
def Rel {α β : Type} (R : α → β → Prop) : PyR α → PyR β → Prop
  | .ok a, .ok b => R a b
  | .error x, .error y => x = y
  | _, _ => False

end Verif.Operations
