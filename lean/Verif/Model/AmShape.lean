import Verif.Model.AmPrim
import Verif.Model.Vertices

/-! # Shapes of macro primitives (`to_primitive`, gerber/am_statements.py; `AMGroup`, `Outline`,
gerber/primitives.py)

Real numbers instead of doubles.  Of the primitives made, shape, place, rotation and polarity are modelled; the
units given to them are those of the group.  `None` is the empty list of primitives. -/

namespace Verif.Am

open Verif.Py Verif.Gerber Verif.Geom

/-- The primitives macro primitives are turned into (am_statements.py:220-221). -/
inductive Shape
  /-- `Circle(position, diameter)` -/
  | circle (position : RPt) (diameter : ℝ)
  /-- `Outline(lines)`; every line with the same round aperture of diameter 0 -/
  | outline (lines : List (RPt × RPt))
  /-- `Polygon(position, sides, radius, 0, rotation=rotation)` -/
  | polygon (position : RPt) (sides : ℤ) (radius rotation : ℝ)

/-- A primitive with its `level_polarity` ('dark' or 'clear', am_statements.py:77-81). -/
structure Drawn where
  dark : Bool
  shape : Shape

/-- `Outline.__init__` (primitives.py:1362-1368). -/
noncomputable def mkOutline (lines : List (RPt × RPt)) : PyR Shape :=
  open Classical in
  match lines.head?, lines.getLast? with
  | some a, some b => if a.1 ≠ b.2 then .error .valueError else .ok (.outline lines)
  | _, _ => .error .indexError

/-- The loops that make all lines start at one point (am_statements.py:325-330, 938-943 and 820-824): inside
the loop `prev_point` is never changed. -/
def fan (start : RPt) (points : List RPt) : List (RPt × RPt) := points.map fun p => (start, p)

/-- The loop of `AMOutlinePrimitive.to_primitive` (am_statements.py:441-448). -/
def chain (start : RPt) : List RPt → List (RPt × RPt)
  | [] => []
  | p :: ps => (start, p) :: chain p ps

/-- `AMVectorLinePrimitive.to_primitive` (am_statements.py:312-332). -/
noncomputable def vectorLineShape (on : Bool) (width : ℝ) (s e : RPt) (rotation : ℝ) : PyR (List Drawn) :=
  match lineVertices s e (.rectangle width width 0) with
  | .error x => .error x
  | .ok none => .error .typeError
  | .ok (some vs) => match vs.getLast? with
    | none => .error .indexError
    | some v => do
      let o ← mkOutline (fan (rotatePoint v rotation (0, 0)) (vs.map fun p => rotatePoint p rotation (0, 0)))
      return [⟨on, o⟩]

/-- `AMOutlinePrimitive.to_primitive` (am_statements.py:435-453).  The check at 450 is the one of `Outline`. -/
noncomputable def outlineShape (on : Bool) (start : RPt) (points : List RPt) (rotation : ℝ) : PyR (List Drawn) := do
  let o ← mkOutline (chain (rotatePoint start rotation (0, 0)) (points.map fun p => rotatePoint p rotation (0, 0)))
  return [⟨on, o⟩]

/-- `math.asin` (am_statements.py:798-799). -/
noncomputable def asin (x : ℝ) : PyR ℝ :=
  open Classical in if x < -1 ∨ 1 < x then .error .valueError else .ok (Real.arcsin x)

/-- Division of floats (am_statements.py:798-799). -/
noncomputable def fdiv (x y : ℝ) : PyR ℝ :=
  open Classical in if y = 0 then .error .zeroDivisionError else .ok (x / y)

/-- `_approximate_arc_cw` (am_statements.py:753-788). -/
noncomputable def approximateArc (startAngle endAngle radius : ℝ) (center : RPt) : List RPt :=
  (List.range 11).map fun i : ℕ =>
    (center.1 + Real.cos (startAngle + (endAngle - startAngle) / 10 * i) * radius,
     center.2 + Real.sin (startAngle + (endAngle - startAngle) / 10 * i) * radius)

/-- `AMThermalPrimitive.to_primitive` (am_statements.py:790-830). -/
noncomputable def thermalShape (position : RPt) (outer inner gap rotation : ℝ) : PyR (List Drawn) := do
  let innerOffset ← (fdiv (gap / 2) (inner / 2)) >>= asin
  let outerOffset ← (fdiv (gap / 2) (outer / 2)) >>= asin
  let rot := radians rotation
  let points := approximateArc (innerOffset + rot) (Real.pi / 2 - innerOffset + rot) (inner / 2) position ++
    (approximateArc (outerOffset + rot) (Real.pi / 2 - outerOffset + rot) (outer / 2) position).reverse
  let points := points ++ points.take 1
  [0, 90, 180, 270].mapM fun r : ℝ => do
    let turned := points.map fun p => rotatePoint p r position
    let o ← mkOutline (fan (turned.headD (0, 0)) turned.tail)
    return ⟨true, o⟩

/-- `AMCenterLinePrimitive.to_primitive` (am_statements.py:923-945). -/
noncomputable def centerLineShape (on : Bool) (width height : ℝ) (center : RPt) (rotation : ℝ) :
    PyR (List Drawn) := do
  let x := center.1
  let y := center.2
  let points : List RPt := [(x - width / 2, y + height / 2), (x - width / 2, y - height / 2),
    (x + width / 2, y - height / 2), (x + width / 2, y + height / 2)]
  let o ← mkOutline (fan (rotatePoint (x + width / 2, y + height / 2) rotation center)
    (points.map fun p => rotatePoint p rotation center))
  return [⟨on, o⟩]

/-- `to_primitive` of the primitive classes (am_statements.py:83-86, 141-145, 220-221, 312-332, 435-453, 549-550,
663-665, 790-830, 923-945); lower-left lines and unknown primitives have only the method of the base class, which
prints a message and returns `None`. -/
noncomputable def toPrimitive : AmPrim → PyR (List Drawn)
  | .comment _ => .ok []
  | .circle on d p => .ok [⟨on, .circle (toR p) d⟩]
  | .vectorLine _ on w s e r => vectorLineShape on w (toR s) (toR e) r
  | .outline on s ps r => outlineShape on (toR s) (ps.map toR) r
  | .polygon on n p d r => .ok [⟨on, .polygon (toR p) n (d / 2) r⟩]
  | .moire .. => .ok []
  | .thermal p o i g r => thermalShape (toR p) o i g r
  | .centerLine on w h c r => centerLineShape on w h (toR c) r
  | .lowerLeft .. => .ok []
  | .unsupported _ => .ok []

/-- The primitives of an `AMGroup` (primitives.py:1259-1276). -/
noncomputable def groupShapes (prims : List AmPrim) : PyR (List Drawn) := do
  let parts ← prims.mapM toPrimitive
  return parts.flatten

/-- The corners of the area filled for an outline: the backends go to the start of the first line and then to
the end of every line (render/cairo_backend.py:276-286). -/
def filled (lines : List (RPt × RPt)) : List RPt := (lines.head?.map Prod.fst).toList ++ lines.map Prod.snd

end Verif.Am
