import Verif.Model.Prim
import Mathlib.Analysis.Convex.Hull

/-! # The areas covered by primitives

What the shapes of the plane are, independently of how primitives.py computes boxes. -/

namespace Verif.Geom

/-- The disc of radius `r` around the origin. -/
def disc (r : ℝ) : Set RPt := {p | p.1 ^ 2 + p.2 ^ 2 ≤ r ^ 2}

/-- The rectangle of the given size around the origin. -/
def slab (w h : ℝ) : Set RPt := {p | |p.1| ≤ w / 2 ∧ |p.2| ≤ h / 2}

/-- The ellipse of the given size around the origin. -/
def oval (w h : ℝ) : Set RPt := {p | ∃ u v : ℝ, u ^ 2 + v ^ 2 ≤ 1 ∧ p = (w / 2 * u, h / 2 * v)}

/-- The obround of the given size around the origin: the discs of the smaller size with their centres
on the middle line. -/
def stadium (w h : ℝ) : Set RPt :=
  if w < h then {p | ∃ t : ℝ, |t| ≤ (h - w) / 2 ∧ p.1 ^ 2 + (p.2 - t) ^ 2 ≤ (w / 2) ^ 2}
  else {p | ∃ t : ℝ, |t| ≤ (w - h) / 2 ∧ (p.1 - t) ^ 2 + p.2 ^ 2 ≤ (h / 2) ^ 2}

/-- The diamond of the given size around the origin. -/
def rhombus (w h : ℝ) : Set RPt := {p | ∃ u v : ℝ, |u| + |v| ≤ 1 ∧ p = (w / 2 * u, h / 2 * v)}

/-- The regular polygon with `n` corners on the circle of radius `r` around the origin, one of them on
the positive x axis. -/
noncomputable def regular (n : ℕ) (r : ℝ) : Set RPt :=
  convexHull ℝ {p | ∃ i < n, p = (r * Real.cos (2 * Real.pi * i / n), r * Real.sin (2 * Real.pi * i / n))}

/-- A shape turned by an angle in degrees, counterclockwise, and placed at `c`. -/
noncomputable def placed (c : RPt) (rot : ℝ) (S : Set RPt) : Set RPt :=
  {q | ∃ p ∈ S, q = (c.1 + (Real.cos (radians rot) * p.1 - Real.sin (radians rot) * p.2),
    c.2 + (Real.sin (radians rot) * p.1 + Real.cos (radians rot) * p.2))}

/-- The area drawn by moving a shape along a path. -/
def swept (path S : Set RPt) : Set RPt := {q | ∃ c ∈ path, ∃ p ∈ S, q = (c.1 + p.1, c.2 + p.2)}

/-- A straight path. -/
def straight (s e : RPt) : Set RPt :=
  {q | ∃ t : ℝ, 0 ≤ t ∧ t ≤ 1 ∧ q = (s.1 + t * (e.1 - s.1), s.2 + t * (e.2 - s.2))}

/-- The point of the circle around `c` in the direction `t`. -/
noncomputable def onCircle (c : RPt) (r t : ℝ) : RPt := (c.1 + r * Real.cos t, c.2 + r * Real.sin t)

/-- The circular path from `s` to `e` around `c`; if the ends coincide, the whole circle. -/
def circular (direction : String) (s e c : RPt) : Set RPt :=
  {q | ∃ r α β t : ℝ, 0 ≤ r ∧ s = onCircle c r α ∧ e = onCircle c r β ∧ q = onCircle c r t ∧
    if direction = "counterclockwise" then α < β ∧ β ≤ α + 2 * Real.pi ∧ α ≤ t ∧ t ≤ β
    else β < α ∧ α ≤ β + 2 * Real.pi ∧ β ≤ t ∧ t ≤ α}

/-- Lying in a box. -/
def Box.Holds (b : Box) (p : RPt) : Prop := b.1.1 ≤ p.1 ∧ p.1 ≤ b.1.2 ∧ b.2.1 ≤ p.2 ∧ p.2 ≤ b.2.2

end Verif.Geom
