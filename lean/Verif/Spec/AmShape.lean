import Verif.Spec.Shapes

/-! # What the primitives of aperture macros look like

After the descriptions in gerber/am_statements.py (which follow the Gerber specification). -/

namespace Verif.Am

open Verif.Geom

/-- A point turned by an angle in degrees, counterclockwise, and then moved by `c`. -/
noncomputable def turned (c : RPt) (rot : ℝ) (p : RPt) : RPt :=
  (c.1 + (Real.cos (radians rot) * p.1 - Real.sin (radians rot) * p.2),
   c.2 + (Real.sin (radians rot) * p.1 + Real.cos (radians rot) * p.2))

/-- The rectangle of the given width whose middle line goes from `s` to `e`. -/
noncomputable def bar (w : ℝ) (s e : RPt) : Set RPt :=
  {q | ∃ t u : ℝ, 0 ≤ t ∧ t ≤ 1 ∧ |u| ≤ w / 2 ∧
    q = (s.1 + t * (e.1 - s.1) - u * ((e.2 - s.2) / Real.sqrt ((e.1 - s.1) ^ 2 + (e.2 - s.2) ^ 2)),
         s.2 + t * (e.2 - s.2) + u * ((e.1 - s.1) / Real.sqrt ((e.1 - s.1) ^ 2 + (e.2 - s.2) ^ 2)))}

/-- Each line begins where the one before it ends. -/
def Connected (lines : List (RPt × RPt)) : Prop := lines.IsChain fun a b => a.2 = b.1

/-- The corners of one quarter of a thermal around the origin with outer radius `ro`, inner radius `ri` and
gaps of width `g`: eleven on the inner circle, counterclockwise from gap to gap, then eleven on the outer circle,
back again; none of them in a gap. -/
structure Quarter (ro ri g : ℝ) (q : List RPt) : Prop where
  length : q.length = 22
  innerCircle : ∀ i < 11, ∃ p, q[i]? = some p ∧ p.1 ^ 2 + p.2 ^ 2 = ri ^ 2
  outerCircle : ∀ i < 11, ∃ p, q[i + 11]? = some p ∧ p.1 ^ 2 + p.2 ^ 2 = ro ^ 2
  first : q[0]? = some (Real.sqrt (ri ^ 2 - (g / 2) ^ 2), g / 2)
  turn : q[10]? = some (g / 2, Real.sqrt (ri ^ 2 - (g / 2) ^ 2))
  back : q[11]? = some (g / 2, Real.sqrt (ro ^ 2 - (g / 2) ^ 2))
  last : q[21]? = some (Real.sqrt (ro ^ 2 - (g / 2) ^ 2), g / 2)
  outside : ∀ p ∈ q, g / 2 ≤ p.1 ∧ g / 2 ≤ p.2
  forth : ∀ i < 10, ∀ a b, q[i]? = some a → q[i + 1]? = some b → 0 ≤ a.1 * b.2 - a.2 * b.1
  backwards : ∀ i < 10, ∀ a b, q[i + 11]? = some a → q[i + 12]? = some b → a.1 * b.2 - a.2 * b.1 ≤ 0

end Verif.Am
