import Verif.Spec.Shapes

/-! # Pictures of boards

Where a point of a board belongs on a picture, independently of matrices and surfaces. -/

namespace Verif.Cairo

open Verif.Geom

/-- The place of the point `p` on a picture of the box `b` with `s` pixels per unit: the y axis of pictures points
down, and mirrored layers are seen from the other side. -/
def onPicture (b : Box) (s : ℝ) (mirror : Bool) (p : RPt) : RPt :=
  (s * (if mirror then b.1.2 - p.1 else p.1 - b.1.1), s * (b.2.2 - p.2))

/-- Points of a picture of the given size. -/
def Visible (size p : RPt) : Prop := 0 ≤ p.1 ∧ p.1 ≤ size.1 ∧ 0 ≤ p.2 ∧ p.2 ≤ size.2

/-- Boxes with their limits in order. -/
def Ordered (b : Box) : Prop := b.1.1 ≤ b.1.2 ∧ b.2.1 ≤ b.2.2

end Verif.Cairo
