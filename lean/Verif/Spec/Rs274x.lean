import Verif.Model.Rs274x

/-! # What is expected of rendered primitives (for C22, C23) -/

namespace Verif.Rs274x
open Verif.Py Verif.Cam Verif.Gerber

variable {G : Type}

/-- A missing attribute means no hole, as does zero. -/
def HoleAttr.toHole (h : HoleAttr) : Hole :=
  ⟨h.diameter.getD 0, h.width.getD 0, h.height.getD 0⟩

/-- No hole, a round hole or a rectangular hole. -/
def HoleAttr.Regular (h : HoleAttr) : Prop :=
  h.toHole = {} ∨ (∃ d > 0, h.toHole = { diameter := d }) ∨
    ∃ w > 0, ∃ v > 0, h.toHole = { width := w, height := v }

/-- The shape as the interpreter represents it. -/
def RShape.toShape : RShape G → Shape G
  | .circle d h => .circle d h.toHole
  | .rect w v h => .rect w v h.toHole
  | .obround w v h => .obround w v h.toHole
  | .polygon n r rot h => .polygon n r rot h.toHole
  | .group g => .group g

/-- Shapes that can be flashed faithfully. -/
def RShape.Flashable : RShape G → Prop
  | .circle _ h => h.Regular
  | .rect _ _ h => h.Regular
  | .obround _ _ h => h.Regular
  | .polygon _ _ _ h => h.Regular
  | .group _ => True

/-- Shapes that can be drawn with faithfully: holes of rectangles and obrounds are lost, polygons are
refused. -/
def RShape.Drawable : RShape G → Prop
  | .circle _ h => h.Regular
  | .rect _ _ h => h.toHole = {}
  | .obround _ _ h => h.toHole = {}
  | .polygon _ _ _ _ => False
  | .group _ => True

def REdge.start : REdge G → Pt
  | .line a _ _ _ => a
  | .arc a _ _ _ _ _ _ => a

def REdge.end_ : REdge G → Pt
  | .line _ b _ _ => b
  | .arc _ b _ _ _ _ _ => b

def REdge.aperture : REdge G → Option (RShape G)
  | .line _ _ k _ => k
  | .arc _ _ _ _ k _ _ => k

def REdge.polarity : REdge G → Option String
  | .line _ _ _ p => p
  | .arc _ _ _ _ _ _ p => p

/-- Everything but a line of length zero. -/
def REdge.visible : REdge G → Bool
  | .line a b _ _ => a ≠ b
  | .arc _ _ _ _ _ _ _ => true

/-- The edge `e` shows `r`: same ends, centre, direction and quadrant mode, the aperture of `r` if it has
one, and the given polarity and units. -/
def EdgeShown (units polarity : String) (r : REdge G) (e : Edge G) : Prop :=
  ∃ ap : Aperture G, (∀ k, r.aperture = some k → ap = ⟨k.toShape, some units⟩) ∧
    e = match r with
      | .line a b _ _ => .line a b ap polarity units
      | .arc a b c dir _ quad _ => .arc a b (some c) dir ap quad polarity units

/-- The primitive `q` shows `p`. -/
def Shown (units : String) : RPrim G → Prim G → Prop
  | .edge r, q => ∃ e, q = .edge e ∧ EdgeShown units (r.polarity.getD "dark") r e
  | .flash k pos pol, q => q = .flash k.toShape pos (pol.getD "dark") units
  | .region rs pol, q => ∃ es, q = .region es (pol.getD "dark") units ∧
      List.Forall₂ (EdgeShown units (pol.getD "dark")) rs es

/-- The primitive without lines of length zero; nothing if nothing is left. -/
def RPrim.visible : RPrim G → Option (RPrim G)
  | .edge r => if r.visible then some (.edge r) else none
  | .flash k pos pol => some (.flash k pos pol)
  | .region rs pol =>
    if rs.filter REdge.visible = [] then none else some (.region (rs.filter REdge.visible) pol)

/-- Edges which the backend can render: the aperture can be drawn with; for arcs, direction and quadrant
mode are known ones, and in single-quadrant mode the interpreter finds the centre again. -/
def REdge.OK (env : EvalEnv G) (r : REdge G) : Prop :=
  (∀ k, r.aperture = some k → k.Drawable) ∧
  match r with
  | .line _ _ _ _ => True
  | .arc a b c dir _ quad _ =>
    (dir = "clockwise" ∨ dir = "counterclockwise") ∧
    (quad = "multi-quadrant" ∨
      quad = "single-quadrant" ∧ env.center dir a b (c.1 - a.1, c.2 - a.2) = some c)

/-- Every edge begins where the one before it ends. -/
def Contiguous (rs : List (REdge G)) : Prop := rs.IsChain fun r r' => r.end_ = r'.start

/-- Primitives which the backend can render faithfully. -/
def RPrim.OK (env : EvalEnv G) (o : Options) : RPrim G → Prop
  | .edge r => r.OK env ∧ r.aperture ≠ none
  | .flash k _ _ => k.Flashable
  | .region rs pol => (∀ r ∈ rs, r.OK env) ∧ Contiguous rs ∧
      (∀ r ∈ rs, r.polarity = none ∨ r.polarity = pol) ∧
      (o.explicitRegionMoveEnd = true → (rs.filter REdge.visible).length ≠ 1)

/-- What is assumed of macros: the interpreter builds the same group from the text that the backend
writes, groups taken for equal are equal, and the name given to a macro is not that of a standard shape. -/
structure MacrosOK (env : EvalEnv G) (menv : MacroEnv G) (units : String) : Prop where
  build : ∀ g text built, menv.macroOf g = .ok (text, built) → env.build text units [] = .ok g
  equiv : ∀ g g', menv.equiv g g' = true → g = g'
  name : ∀ g t, menv.macroOf g = .ok t → menv.hash g ∉ [['C'], ['R'], ['O'], ['P']]

/-- The groups among the shapes of a primitive. -/
def RShape.groups : RShape G → List G
  | .group g => [g]
  | _ => []

def REdge.groups : REdge G → List G
  | .line _ _ k _ => k.elim [] RShape.groups
  | .arc _ _ _ _ k _ _ => k.elim [] RShape.groups

def RPrim.groups : RPrim G → List G
  | .edge r => r.groups
  | .flash k _ _ => k.groups
  | .region rs _ => rs.flatMap REdge.groups

/-- The aperture code that a statement defines. -/
def definedCode : Stmt → Option ℕ
  | .ad d _ _ => some d
  | _ => none

/-- The aperture code that a statement selects. -/
def selectedCode : Stmt → Option ℕ
  | .aperture d _ => some d
  | _ => none

end Verif.Rs274x
