import Verif.Model.Excellon

/-! # What the parser of drill files reports of itself: `coordinates` and `bounds` (excellon.py:403-418) -/

namespace Verif.Excellon
open Verif.Py

/-- `ExcellonParser.coordinates` (excellon.py:403-405). -/
def coordinates (l : List Stmt) : List (Option ℚ × Option ℚ) := l.filterMap fun s => match s.kind with
  | .coord x y _ => some (x, y)
  | _ => none

/-- `a if a < b else b` (excellon.py:413, 416). -/
def lessOr (a b : ℚ) : ℚ := if a < b then a else b

/-- `a if a > b else b` (excellon.py:414, 417). -/
def moreOr (a b : ℚ) : ℚ := if a > b then a else b

/-- One turn of the loop of `bounds` for one axis (excellon.py:412-417). -/
def widen (b : ℚ × ℚ) : Option ℚ → ℚ × ℚ
  | none => b
  | some v => (lessOr v b.1, moreOr v b.2)

/-- `ExcellonParser.bounds` (excellon.py:407-418). -/
def parserBounds (l : List Stmt) : (ℚ × ℚ) × (ℚ × ℚ) :=
  (coordinates l).foldl (fun b c => (widen b.1 c.1, widen b.2 c.2))
    ((100000000000, -100000000000), (100000000000, -100000000000))

end Verif.Excellon
