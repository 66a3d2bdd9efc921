import Verif.Model.Angle

/-! # Convex hull (gerber/utils.py:345-458)

Real numbers instead of doubles; a point is an index into the list of points, as in the code.  The
recursion of `_findhull` is bounded by a counter which starts at the number of points and never runs
out, since every call removes at least the farthest point. -/

namespace Verif.Geom
open Classical

/-- `points[i]` (utils.py:365). -/
def pt (points : List RPt) (i : ℕ) : RPt := points.getD i (0, 0)

/-- `atan2` of the direction from one point to another (utils.py:367). -/
noncomputable def slope (p q : RPt) : ℝ := atan2 (q.2 - p.2) (q.1 - p.1)

/-- The loops that find the lowest and the highest x (utils.py:350-356): strict comparison, so the first
of several. -/
noncomputable def minX (points : List RPt) : ℕ :=
  (List.range points.length).foldl (fun m i => if (pt points i).1 < (pt points m).1 then i else m) 0

/-- (utils.py:350-356) -/
noncomputable def maxX (points : List RPt) : ℕ :=
  (List.range points.length).foldl (fun m i => if (pt points i).1 > (pt points m).1 then i else m) 0

/-- `_distance(a, b, x)` (utils.py:400-402). -/
noncomputable def lineDistance (a b x : RPt) : ℝ :=
  |(b.2 - a.2) * x.1 - (b.1 - a.1) * x.2 + b.1 * a.2 - a.1 * b.2| /
    Real.sqrt ((b.2 - a.2) ^ 2 + (b.1 - a.1) ^ 2)

/-- The loop that finds the farthest point (utils.py:408-415): `(farpoint, fdist)`. -/
noncomputable def farthest (points : List RPt) (a b : ℕ) (idxp : List ℕ) : ℕ × ℝ :=
  idxp.foldl (fun m i =>
    if lineDistance (pt points a) (pt points b) (pt points i) > m.2 then
      (i, lineDistance (pt points a) (pt points b) (pt points i)) else m) (0, -1)

/-- `if(sdiff<-pi):sdiff+=2*pi; if(sdiff>pi):sdiff-=2*pi` (utils.py:437-438, 447-448). -/
noncomputable def wrap (d : ℝ) : ℝ :=
  let d := if d < -Real.pi then d + 2 * Real.pi else d
  if d > Real.pi then d - 2 * Real.pi else d

/-- The same at the top level (utils.py:374-375), where the first test has no minus sign. -/
noncomputable def wrap' (d : ℝ) : ℝ :=
  let d := if d < Real.pi then d + 2 * Real.pi else d
  if d > Real.pi then d - 2 * Real.pi else d

/-- The test for the left set (utils.py:433-440). -/
def inLeft (a c x : RPt) : Prop := slope a c ≠ slope a x ∧ wrap (slope a c - slope a x) < 0

/-- The test for the right set, tried if `x` is not in the left set (utils.py:442-450). -/
def inRight (a b c x : RPt) : Prop :=
  slope a c ≠ slope a x ∧ ¬ wrap (slope a c - slope a x) < 0 ∧
    slope c x ≠ slope c b ∧ wrap (slope c x - slope c b) > 0

/-- `_findhull(idxp, a_i, b_i, points)` (utils.py:404-453). -/
noncomputable def findHull (points : List RPt) : ℕ → List ℕ → ℕ → ℕ → List ℕ
  | 0, _, _, _ => []
  | n + 1, idxp, a, b =>
    if idxp = [] then []
    else
      let far := (farthest points a b idxp).1
      if (farthest points a b idxp).2 ≤ 0 then []
      else
        let l := idxp.filter fun i => i ≠ far ∧ inLeft (pt points a) (pt points far) (pt points i)
        let r := idxp.filter fun i =>
          i ≠ far ∧ inRight (pt points a) (pt points b) (pt points far) (pt points i)
        findHull points n r far b ++ [far] ++ findHull points n l a far

/-- The test of `_optimize` (utils.py:394). -/
def collinearTest (p1 p2 p3 : RPt) : Prop := (p1.2 - p2.2) * (p1.1 - p3.1) = (p1.2 - p3.2) * (p1.1 - p2.1)

/-- The middle points of collinear triplets (utils.py:389-395). -/
noncomputable def redundant (hull : List ℕ) (points : List RPt) : List ℕ :=
  (List.range hull.length).flatMap fun i =>
    if collinearTest (pt points (hull.getD i 0)) (pt points (hull.getD ((i + 1) % hull.length) 0))
        (pt points (hull.getD ((i + 2) % hull.length) 0)) then
      [hull.getD ((i + 1) % hull.length) 0] else []

/-- `_optimize` (utils.py:384-398): `list.remove` takes out the first occurrence.  It raises if there is none;
that cannot happen, as no index occurs twice in the hull. -/
noncomputable def optimize (hull : List ℕ) (points : List RPt) : List ℕ :=
  (redundant hull points).foldl List.erase hull

/-- The hull before `_optimize` (utils.py:363-380). -/
noncomputable def rawHull (points : List RPt) : List ℕ :=
  let lo := minX points
  let hi := maxX points
  let a := pt points lo
  let b := pt points hi
  let side (i : ℕ) : ℝ := wrap' (slope a (pt points i) - slope a b)
  let idx := (List.range points.length).filter fun i => ¬ (i = lo ∨ i = hi)
  let l := idx.filter fun i => side i > 0
  let r := idx.filter fun i => side i < 0
  [lo] ++ findHull points points.length r hi lo ++ [hi] ++ findHull points points.length l lo hi

/-- `ConvexHull_qh` (utils.py:345-382); `none`: "not a planar shape". -/
noncomputable def convexHullQh (points : List RPt) : Option (List ℕ) :=
  if points.length < 3 then none
  else if minX points = maxX points then none
  else some (optimize (rawHull points) points)

/-- `convex_hull` (utils.py:456-458). -/
noncomputable def convexHullPts (points : List RPt) : Option (List RPt) :=
  (convexHullQh points).map fun l => l.map (pt points)

end Verif.Geom
