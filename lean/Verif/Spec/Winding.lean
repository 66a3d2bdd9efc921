import Verif.Spec.Shapes
import Mathlib.Algebra.Order.ToIntervalMod
import Mathlib.Analysis.SpecialFunctions.Complex.Arg

/-! # The area inside a closed path of lines and arcs

Path winding as in the documentation of cairo (`CAIRO_FILL_RULE_WINDING`, the default): a ray from the point to the
right; lines that cross it upwards count 1, downwards -1; the point is inside if the sum is not 0.  The path itself
belongs to the area.  A path with arcs goes around what all polygons with sufficiently many corners on the arcs go
around. -/

namespace Verif.Geom

/-- The lines from a point through others. -/
def steps (v : RPt) : List RPt → List (RPt × RPt)
  | [] => []
  | w :: l => (v, w) :: steps w l

/-- The lines of the closed path through the points. -/
def loop : List RPt → List (RPt × RPt)
  | [] => []
  | v :: l => steps v (l ++ [v])

open Classical in
/-- How a line crosses the ray from `p` to the right. -/
noncomputable def crossing (e : RPt × RPt) (p : RPt) : ℤ :=
  let left := (e.2.1 - e.1.1) * (p.2 - e.1.2) - (e.2.2 - e.1.2) * (p.1 - e.1.1)
  if e.1.2 ≤ p.2 ∧ p.2 < e.2.2 ∧ 0 < left then 1
  else if e.2.2 ≤ p.2 ∧ p.2 < e.1.2 ∧ left < 0 then -1
  else 0

/-- How often the closed path through the points goes around `p`. -/
noncomputable def winding (vs : List RPt) (p : RPt) : ℤ := ((loop vs).map (crossing · p)).sum

/-- The closed path through the points, and what it goes around. -/
def inside (vs : List RPt) : Set RPt := {p | (∃ e ∈ loop vs, p ∈ segment ℝ e.1 e.2) ∨ winding vs p ≠ 0}

/-! ## Paths with arcs -/

/-- A piece of a path: a line to a point; or a line to the point of a circle in the direction `α` and the arc from there
to the direction `β`. -/
inductive Bend
  | line (p : RPt)
  | arc (c : RPt) (r α β : ℝ)

/-- The corners of a piece with `n` lines instead of each arc. -/
noncomputable def Bend.corners (n : ℕ) : Bend → List RPt
  | .line p => [p]
  | .arc c r α β => (List.range (n + 1)).map fun k : ℕ => onCircle c r (α + (β - α) * (k / n))

/-- The points of the arc. -/
def Bend.bow : Bend → Set RPt
  | .line _ => ∅
  | .arc c r α β => {q | ∃ t : ℝ, 0 ≤ t ∧ t ≤ 1 ∧ q = onCircle c r (α + (β - α) * t)}

/-- The closed path that begins at `v`, and what it goes around. -/
def enclosed (v : RPt) (l : List Bend) : Set RPt :=
  {p | (∃ b ∈ l, p ∈ b.bow) ∨ ∃ N, ∀ n ≥ N, p ∈ inside (v :: l.flatMap (Bend.corners n))}

/-- The direction in which `p` is seen from `c`. -/
noncomputable def bearing (p c : RPt) : ℝ := Complex.arg ⟨p.1 - c.1, p.2 - c.2⟩

/-- The arc from `s` to `e` around `c`; if the ends coincide, the whole circle. -/
noncomputable def arcBend (direction : String) (s e c : RPt) : Bend :=
  .arc c (Real.sqrt ((s.1 - c.1) ^ 2 + (s.2 - c.2) ^ 2)) (bearing s c)
    (if direction = "counterclockwise" then toIocMod Real.two_pi_pos (bearing s c) (bearing e c)
    else toIcoMod Real.two_pi_pos (bearing s c - 2 * Real.pi) (bearing e c))

end Verif.Geom
