import Verif.Model.GerberEval
import Mathlib.Analysis.SpecialFunctions.Complex.Arg
import Mathlib.Analysis.SpecialFunctions.Complex.Log

/-! # Angles (gerber/utils.py:275-313, gerber/primitives.py:379-408, gerber/rs274x.py:727-781)

Real numbers instead of doubles: rounding errors of `sin`, `cos`, `atan2` and of the arithmetic are
not modelled. -/

namespace Verif.Geom
open Verif.Gerber

/-- A point of the plane (primitives.py:542-544). -/
abbrev RPt := ℝ × ℝ

/-- `math.atan2(y, x)` (rs274x.py:751-752). -/
noncomputable def atan2 (y x : ℝ) : ℝ := Complex.arg ⟨x, y⟩

/-- `math.radians` (utils.py:275-300). -/
noncomputable def radians (a : ℝ) : ℝ := a * Real.pi / 180

/-- Python's `a % b` for floats, `b > 0` (rs274x.py:755-756). -/
noncomputable def pmod (a b : ℝ) : ℝ := a - b * ⌊a / b⌋

/-- `rotate_point(point, angle, center)` (utils.py:275-301). -/
noncomputable def rotatePoint (p : RPt) (angle : ℝ) (center : RPt) : RPt :=
  let a := radians angle
  (Real.cos a * (p.1 - center.1) - Real.sin a * (p.2 - center.2) + center.1,
   Real.sin a * (p.1 - center.1) + Real.cos a * (p.2 - center.2) + center.2)

/-- `(angle + two_pi) % two_pi` of the direction from the centre to a point: `start_angle`,
`end_angle`, `theta0`, `theta1` (primitives.py:385-401, rs274x.py:750-756). -/
noncomputable def theta (p c : RPt) : ℝ :=
  pmod (atan2 (p.2 - c.2) (p.1 - c.1) + 2 * Real.pi) (2 * Real.pi)

/-- `Arc.sweep_angle` (primitives.py:397-407); the same computation is in `_find_center`
(rs274x.py:758-763). -/
noncomputable def sweepAngle (direction : String) (start end_ c : RPt) : ℝ :=
  let t0 := theta start c
  let t1 := theta end_ c
  if direction = "counterclockwise" then |t1 - t0|
  else pmod |t0 + 2 * Real.pi - t1| (2 * Real.pi)

/-- Cast of a point (rs274x.py:747-748). -/
def toR (p : Pt) : RPt := ((p.1 : ℝ), (p.2 : ℝ))

/-- `sq_distance` (utils.py:309-313). -/
def sqDistance (a b : Pt) : ℚ := (a.1 - b.1) * (a.1 - b.1) + (a.2 - b.2) * (a.2 - b.2)

/-- The four centres tried by `_find_center`, in order (rs274x.py:745-748). -/
def centerCandidates (start offsets : Pt) : List Pt :=
  [(1, 1), (1, -1), (-1, 1), (-1, -1)].map fun f : ℚ × ℚ =>
    (start.1 + offsets.1 * f.1, start.2 + offsets.2 * f.2)

/-- `sqdist_diff` (rs274x.py:766-768). -/
def radiusError (start end_ c : Pt) : ℚ := |sqDistance start c - sqDistance end_ c|

/-- `is_valid_sweep_angle` (rs274x.py:775). -/
def ValidSweep (direction : String) (start end_ c : Pt) : Prop :=
  0 ≤ sweepAngle direction (toR start) (toR end_) (toR c) ∧
    sweepAngle direction (toR start) (toR end_) (toR c) ≤ Real.pi / 2 + 1 / 10 ^ 6

open Classical in
/-- The loop of `_find_center` (rs274x.py:743-779): best centre so far and its error. -/
noncomputable def centerLoop (direction : String) (start end_ : Pt) :
    List Pt → Option Pt → ℚ → Option Pt
  | [], best, _ => best
  | c :: l, best, err =>
    if radiusError start end_ c < err ∧ ValidSweep direction start end_ c then
      centerLoop direction start end_ l (some c) (radiusError start end_ c)
    else centerLoop direction start end_ l best err

/-- `sys.maxsize` of a 64-bit Python (rs274x.py:743). -/
def maxsize : ℚ := 9223372036854775807

/-- `_find_center` in single-quadrant mode (rs274x.py:735-779). -/
noncomputable def findCenterSQ (direction : String) (start end_ offsets : Pt) : Option Pt :=
  centerLoop direction start end_ (centerCandidates start offsets) none maxsize

/-- The interpreter's environment with this search (rs274x.py:727-781). -/
noncomputable def stdEnv {G : Type} (build : Py.Str → String → List ℚ → Py.PyR G) : EvalEnv G :=
  ⟨build, findCenterSQ⟩

end Verif.Geom
