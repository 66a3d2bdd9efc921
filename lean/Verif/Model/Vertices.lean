import Verif.Model.Prim
import Verif.Model.Hull
import Verif.Py.Basic

/-! # Corners of primitives (the `vertices` and `segments` properties of gerber/primitives.py)

Real numbers instead of doubles.  The stored lists (`_vertices`, `_segments`) are in Model/PrimHistory. -/

namespace Verif.Geom

open Verif.Py

/-- `(x * self._cos_theta - y * self._sin_theta, x * self._sin_theta + y * self._cos_theta)`, the last step
of `vertices` of rectangles, diamonds and chamfered rectangles (primitives.py:754-756, 849-851, 966-968). -/
noncomputable def spin (rot : ℝ) (p : RPt) : RPt :=
  (p.1 * cosD rot - p.2 * sinD rot, p.1 * sinD rot + p.2 * cosD rot)

/-- `Rectangle.vertices` (primitives.py:745-757). -/
noncomputable def rectVertices (pos : RPt) (w h rot : ℝ) : List RPt :=
  let ll := (pos.1 - w / 2, pos.2 - h / 2)
  let ul := (pos.1 - w / 2, pos.2 + h / 2)
  let ur := (pos.1 + w / 2, pos.2 + h / 2)
  let lr := (pos.1 + w / 2, pos.2 - h / 2)
  [ll, ul, ur, lr].map (spin rot)

/-- `Diamond.vertices` (primitives.py:840-852). -/
noncomputable def diamondVertices (pos : RPt) (w h rot : ℝ) : List RPt :=
  let top := (pos.1, pos.2 + h / 2)
  let right := (pos.1 + w / 2, pos.2)
  let bottom := (pos.1, pos.2 - h / 2)
  let left := (pos.1 - w / 2, pos.2)
  [top, right, bottom, left].map (spin rot)

/-- One turn of the loop of `ChamferRectangle.vertices` (primitives.py:948-965): the vertices made for
corner number `idx`. -/
def chamferCorner (c : ℝ) (idx : ℕ) (corner : RPt) (chamfered : Bool) : List RPt :=
  let x := corner.1
  let y := corner.2
  if chamfered then
    if idx = 0 then [(x - c, y), (x, y - c)]
    else if idx = 1 then [(x + c, y), (x, y - c)]
    else if idx = 2 then [(x + c, y), (x, y + c)]
    else if idx = 3 then [(x - c, y), (x, y + c)]
    else []
  else [corner]

/-- `ChamferRectangle.vertices` (primitives.py:935-969); `corners` are the flags of the upper right, upper
left, lower left and lower right corner. -/
noncomputable def chamferVertices (pos : RPt) (w h c : ℝ) (corners : List Bool) (rot : ℝ) : List RPt :=
  let rectCorners := [(pos.1 + w / 2, pos.2 + h / 2), (pos.1 - w / 2, pos.2 + h / 2),
    (pos.1 - w / 2, pos.2 - h / 2), (pos.1 + w / 2, pos.2 - h / 2)]
  (((rectCorners.zip corners).zipIdx).flatMap fun e => chamferCorner c e.2 e.1.1 e.1.2).map (spin rot)

/-- `Polygon.vertices` (primitives.py:1229-1239) for at least one side; for none, `360.0 / 0` raises. -/
noncomputable def polygonVertices (pos : RPt) (sides : ℕ) (r rot : ℝ) : PyR (List RPt) :=
  if sides = 0 then .error .zeroDivisionError
  else .ok ((List.range sides).map fun i : ℕ =>
    rotatePoint (pos.1 + r, pos.2) (rot + 360 / (sides : ℝ) * (i : ℝ)) pos)

/-- The apertures `Line.vertices` distinguishes (primitives.py:276, 292). -/
inductive Pen
  | rectangle (w h rot : ℝ)
  | polygon (sides : ℕ) (r rot : ℝ)
  | other

/-- The corners of the rectangle at both ends of a line (primitives.py:281-288). -/
noncomputable def endCorners (s e : RPt) (w h : ℝ) : List RPt :=
  [(s.1 - w / 2, s.2 - h / 2), (s.1 + w / 2, s.2 - h / 2), (s.1 - w / 2, s.2 + h / 2),
   (s.1 + w / 2, s.2 + h / 2), (e.1 - w / 2, e.2 - h / 2), (e.1 + w / 2, e.2 - h / 2),
   (e.1 - w / 2, e.2 + h / 2), (e.1 + w / 2, e.2 + h / 2)]

/-- `Line.vertices` (primitives.py:271-297).  `ConvexHull_qh` raises a plain `Exception` for points that are
not a planar shape.  With a polygon the points are objects of class `map`, which have no elements: Python 3
raises `TypeError` as soon as a coordinate is read (utils.py:353), unless there are less than three of them. -/
noncomputable def lineVertices (s e : RPt) : Pen → PyR (Option (List RPt))
  | .rectangle w h _ => match convexHullPts (endCorners s e w h) with
    | none => .error .exception
    | some l => .ok (some l)
  | .polygon sides _ _ =>
    if sides = 0 then .error .zeroDivisionError
    else if 2 * sides < 3 then .error .exception
    else .error .typeError
  | .other => .ok none

/-- `combinations(vertices, 2)` (itertools): all pairs of elements at different places, in order
(primitives.py:94-104). -/
def combinations2 : List RPt → List (RPt × RPt)
  | [] => []
  | v :: vs => vs.map (fun u => (v, u)) ++ combinations2 vs

/-- `Primitive.segments` (primitives.py:97-103). -/
def segments : Option (List RPt) → Option (List (RPt × RPt))
  | none => none
  | some [] => none
  | some vs => some (combinations2 vs)

end Verif.Geom
