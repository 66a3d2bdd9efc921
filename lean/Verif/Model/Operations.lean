import Verif.Model.Prim
import Verif.Model.GerberFile
import Verif.Model.Excellon
import Verif.Model.Ipc

/-! # Operations on copies of files (gerber/operations.py)

`copy.deepcopy` makes an object for every object it meets, remembers which (`memo`), and then fills in the copied
attributes.  `Copying` holds the primitives in memory, the first free address and the memo.

Simplifications: statements are values, since no two files and no two places of a file share one, and so are numbers,
tuples and stored boxes; `fuel` is the recursion limit. -/

namespace Verif.Operations

open Verif.Py Verif.Geom

/-- (operations.py:39) -/
structure Copying where
  heap : Heap
  next : ℕ
  memo : List (ℕ × ℕ)

/-- Copying the items of a list (`_deepcopy_list`) (operations.py:39). -/
def copyList {σ : Type} (copy : σ → ℕ → PyR (ℕ × σ)) : σ → List ℕ → PyR (List ℕ × σ)
  | s, [] => .ok ([], s)
  | s, i :: l => do
    let (j, s) ← copy s i
    let (js, s) ← copyList copy s l
    .ok (j :: js, s)

/-- `copy.deepcopy(x, memo)` of a primitive: one that was met before is not copied again (operations.py:39). -/
def copyObj : ℕ → Copying → ℕ → PyR (ℕ × Copying)
  | 0, _, _ => .error .recursionError
  | n + 1, s, i =>
    match dictGet s.memo i with
    | some j => .ok (j, s)
    | none => do
      let (ap, t) ← copyList (copyObj n) { s with next := s.next + 1, memo := (i, s.next) :: s.memo }
        (s.heap i).aperture.toList
      let (ps, t) ← copyList (copyObj n) t (s.heap i).parts
      .ok (s.next, { t with heap := Function.update t.heap s.next { s.heap i with aperture := ap.head?, parts := ps } })

/-! ## Gerber files -/

/-- The attribute `apertures` of a `GerberFile`: what the caller passes.  The parser passes `self.apertures.values()`
(rs274x.py:277), a view of its dictionary. -/
inductive Apertures
  | list (refs : List ℕ)
  | view (refs : List ℕ)

/-- A `GerberFile` (rs274x.py:103-106). -/
structure GFile where
  program : Gerber.Program
  primitives : List ℕ
  apertures : Apertures

/-- Memory: the primitives of all files, and the first free address (operations.py:39-41). -/
structure World where
  heap : Heap
  next : ℕ

/-- The end of `GerberParser.parse_raw` (rs274x.py:277). -/
def parsed (program : Gerber.Program) (primitives apertures : List ℕ) : GFile := ⟨program, primitives, .view apertures⟩

/-- `copy.deepcopy(cam_file)` of a `GerberFile`.  Views of dictionaries can not be copied: TypeError
(operations.py:39). -/
def copyGerber (fuel : ℕ) (w : World) (f : GFile) : PyR (GFile × World) := do
  let (ps, s) ← copyList (copyObj fuel) ⟨w.heap, w.next, []⟩ f.primitives
  match f.apertures with
  | .view _ => .error .typeError
  | .list l => do
    let (as, s) ← copyList (copyObj fuel) s l
    .ok (⟨f.program, ps, .list as⟩, ⟨s.heap, s.next⟩)

/-- `GerberFile.to_inch` (rs274x.py:155-161). -/
noncomputable def GFile.toInch (fuel : ℕ) (f : GFile) (h : Heap) : GFile × Heap :=
  if f.program.units ≠ "inch" then
    ({ f with program := f.program.toInch }, f.primitives.foldl (Geom.toInch fuel) h)
  else (f, h)

/-- `GerberFile.to_metric` (rs274x.py:163-169). -/
noncomputable def GFile.toMetric (fuel : ℕ) (f : GFile) (h : Heap) : GFile × Heap :=
  if f.program.units ≠ "metric" then
    ({ f with program := f.program.toMetric }, f.primitives.foldl (Geom.toMetric fuel) h)
  else (f, h)

/-- `GerberFile.offset` (rs274x.py:171-175). -/
noncomputable def GFile.offset (dx dy : ℚ) (fuel : ℕ) (f : GFile) (h : Heap) : GFile × Heap :=
  ({ f with program := f.program.offset dx dy }, f.primitives.foldl (Geom.offset dx dy fuel) h)

/-- A method called on a copy (operations.py:39-41). -/
def onCopy (fuel : ℕ) (method : GFile → Heap → GFile × Heap) (w : World) (f : GFile) : PyR (GFile × World) := do
  let (g, w) ← copyGerber fuel w f
  .ok ((method g w.heap).1, ⟨(method g w.heap).2, w.next⟩)

/-- `to_inch` (operations.py:26-41). -/
noncomputable def toInch (fuel : ℕ) : World → GFile → PyR (GFile × World) := onCopy fuel (GFile.toInch fuel)

/-- `to_metric` (operations.py:44-59). -/
noncomputable def toMetric (fuel : ℕ) : World → GFile → PyR (GFile × World) := onCopy fuel (GFile.toMetric fuel)

/-- `offset` (operations.py:62-83). -/
noncomputable def offset (fuel : ℕ) (dx dy : ℚ) : World → GFile → PyR (GFile × World) :=
  onCopy fuel (GFile.offset dx dy fuel)

/-! ## Drill files -/

/-- What `deepcopy` has made of the tools so far (operations.py:39). -/
structure ToolCopying where
  heap : List Excellon.Tool
  memo : List (ℕ × ℕ)

/-- `copy.deepcopy(tool, memo)` (operations.py:39). -/
def copyTool (s : ToolCopying) (r : ℕ) : PyR (ℕ × ToolCopying) :=
  match dictGet s.memo r with
  | some j => .ok (j, s)
  | none => do
    let t ← pyIdx s.heap r
    .ok (s.heap.length, ⟨s.heap ++ [t], (r, s.heap.length) :: s.memo⟩)

/-- Copying something that may refer to a tool (operations.py:39). -/
def copyUse {α : Type} (tool : α → Option ℕ) (set : α → ℕ → α) (s : ToolCopying) (x : α) : PyR (α × ToolCopying) :=
  match tool x with
  | none => .ok (x, s)
  | some r => do
    let (j, s) ← copyTool s r
    .ok (set x j, s)

/-- Copying a list of such things (operations.py:39). -/
def copyUses {α : Type} (tool : α → Option ℕ) (set : α → ℕ → α) : ToolCopying → List α → PyR (List α × ToolCopying)
  | s, [] => .ok ([], s)
  | s, x :: l => do
    let (y, s) ← copyUse tool set s x
    let (ys, s) ← copyUses tool set s l
    .ok (y :: ys, s)

/-- The tool a statement is, if it is one (excellon_statements.py:74). -/
def stmtTool (x : Excellon.Stmt) : Option ℕ :=
  match x.kind with
  | .tool r => some r
  | _ => none

/-- The statement with another tool (operations.py:39). -/
def setStmtTool (x : Excellon.Stmt) (j : ℕ) : Excellon.Stmt :=
  match x.kind with
  | .tool _ => { x with kind := .tool j }
  | _ => x

/-- The hit with another tool (operations.py:39). -/
def setHitTool (x : Excellon.Hit) (j : ℕ) : Excellon.Hit :=
  match x with
  | .hole (some _) p => .hole (some j) p
  | .slot (some _) a b k => .slot (some j) a b k
  | x => x

/-- `copy.deepcopy(cam_file)` of an `ExcellonFile` (attributes in the order of excellon.py:200-205).  The copy lives in
the same memory as the source. -/
def copyDrill (f : Excellon.XFile) : PyR Excellon.XFile := do
  let (ss, s) ← copyUses stmtTool setStmtTool ⟨f.heap, []⟩ f.statements
  let (ts, s) ← copyUses (fun t => some t.2) (fun t j => (t.1, j)) s f.tools
  let (hs, s) ← copyUses Excellon.Hit.tool setHitTool s f.hits
  .ok { f with statements := ss, heap := s.heap, tools := ts, hits := hs }

/-- `to_inch` (operations.py:26-41). -/
def drillToInch (f : Excellon.XFile) : PyR Excellon.XFile := do (← copyDrill f).toInch

/-- `to_metric` (operations.py:44-59). -/
def drillToMetric (f : Excellon.XFile) : PyR Excellon.XFile := do (← copyDrill f).toMetric

/-- `offset` (operations.py:62-83). -/
def drillOffset (dx dy : ℚ) (f : Excellon.XFile) : PyR Excellon.XFile := do (← copyDrill f).offset dx dy

/-! ## Netlists -/

/-- `to_inch` (operations.py:26-41) of a netlist. -/
def netlistToInch (n : Ipc.Netlist) : PyR Ipc.Netlist := .ok n.toInch

/-- `to_metric` (operations.py:44-59) of a netlist. -/
def netlistToMetric (n : Ipc.Netlist) : PyR Ipc.Netlist := .ok n.toMetric

/-- `offset` (operations.py:62-83) of a netlist: neither `IPCNetlist` nor `CamFile` has such a method. -/
def netlistOffset (_dx _dy : ℚ) (_n : Ipc.Netlist) : PyR Ipc.Netlist := .error .attributeError

/-! ## Stubs -/

/-- `scale` (operations.py:86-106): `pass`, the result is `None`. -/
def scale {F : Type} (_x _y : ℚ) (_f : F) : Option F := none

/-- `rotate` (operations.py:109-126): `pass`. -/
def rotate {F : Type} (_angle : ℚ) (_f : F) : Option F := none

end Verif.Operations
