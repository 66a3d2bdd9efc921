import Verif.Model.AmPrim

/-! # Macros written for groups (`AMGroupContext`, gerber/render/rs274x_backend.py:17-81) -/

namespace Verif.Am

open Verif.Py Verif.Gerber

/-- The objects in a group.  Numbers are exact; only the attributes that are used are kept
(render/rs274x_backend.py:40-52). -/
inductive Part
  | circle (diameter : ℚ) (position : ℚ × ℚ)
  | rectangle (width height rotation : ℚ) (position : ℚ × ℚ)
  /-- `width` is `aperture.width`; circles and polygons have no such attribute -/
  | line (start end_ : ℚ × ℚ) (width : Option ℚ)
  | outline (lines : List ((ℚ × ℚ) × (ℚ × ℚ)))
  | polygon (sides : ℤ) (position : ℚ × ℚ) (radius rotation : ℚ)
  /-- an object of another class -/
  | other
  deriving DecidableEq

/-- `round(v, 6)` (am_statements.py:377-380). -/
def round6 (v : ℚ) : ℚ := (if v < 0 then -(rne (-v * 10 ^ 6) : ℚ) else rne (v * 10 ^ 6)) / 10 ^ 6

/-- (am_statements.py:377-380) -/
def roundPt (p : ℚ × ℚ) : ℚ × ℚ := (round6 p.1, round6 p.2)

/-- `from_primitive` of the macro primitives (am_statements.py:193-194, 265-266, 375-384, 497-498, 873-878) with
the checks of their constructors (400-413, 516-528), chosen by class (rs274x_backend.py:40-51).  `degrees` is
`math.degrees`. -/
def fromPart (degrees : ℚ → ℚ) : Part → PyR AmPrim
  | .outline ls => match ls.head?, ls.getLast? with
    | some a, some z =>
      if roundPt z.2 ≠ roundPt a.1 then .error .valueError
      else .ok (.outline true (roundPt a.1) (ls.map fun l => roundPt l.2) 0)
    | _, _ => .error .indexError
  | .circle d p => .ok (.circle true d p)
  | .rectangle w h r p => .ok (.centerLine true w h p (degrees r))
  | .line s e (some w) => .ok (.vectorLine 2 true w s e 0)
  | .line _ _ none => .error .attributeError
  | .polygon n p r rot => if n < 3 ∨ 12 < n then .error .valueError else .ok (.polygon true n p (r * 2) rot)
  | .other => .error .valueError

/-- The statement that a group was made by: `macro`, and `primitives` at the time of writing
(render/rs274x_backend.py:24-31). -/
structure Source where
  text : Str
  now : List AmPrim

/-- `AMGroupContext.render` (rs274x_backend.py:23-55), and what `AMParamStmt.to_gerber`
(gerber_statements.py:470-471) writes for the primitives of the statement: it is a copy of the statement of the
group, or a new one, which has the text of the parts but no primitives (gerber_statements.py:417-422).  `parts` are
the objects of the group placed at the origin. -/
def writeGroup (degrees : ℚ → ℚ) (source : Option Source) (parts : List Part) : PyR (Str × List Str) :=
  match source with
  | some s => .ok (s.text, s.now.map toGerber)
  | none => do
    let ps ← parts.mapM (fromPart degrees)
    let text := bodyText ps
    let _ ← Macro.readMacro text
    .ok (text, [])

end Verif.Am
