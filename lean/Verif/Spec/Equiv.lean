import Verif.Model.Equiv
import Verif.Spec.Shapes

/-! # When two macro groups look the same -/

namespace Verif.Equiv

open Verif.Geom

/-- The tolerance: half a millionth. -/
noncomputable def tol : ℝ := 1 / 2000000

/-- Closeness of points in each coordinate. -/
def Close (p q : RPt) : Prop := |p.1 - q.1| ≤ tol ∧ |p.2 - q.2| ≤ tol

/-- Two areas with points close to all points of each other. -/
def Near (S T : Set RPt) : Prop := (∀ p ∈ S, ∃ q ∈ T, Close p q) ∧ ∀ q ∈ T, ∃ p ∈ S, Close p q

/-- What a hole leaves out, around the origin. -/
def Hole.area (h : Hole) : Set RPt :=
  if 0 < h.diameter then disc (h.diameter / 2)
  else if 0 < h.width ∧ 0 < h.height then slab h.width h.height else ∅

/-- The area a shape covers, except for outlines and objects of other classes. -/
noncomputable def Shape.area : Shape → Set RPt
  | .line s e w => swept (straight s e) (disc (w / 2))
  | .circle p d h => placed p 0 (disc (d / 2) \ h.area)
  | .rectangle p w v rot h => placed p rot (slab w v \ h.area)
  | .polygon p n r rot h => placed p rot (regular n.toNat r \ h.area)
  | .outline _ => ∅
  | .other .. => ∅

/-- An area moved by `d`. -/
def moved (d : RPt) (S : Set RPt) : Set RPt := {q | ∃ p ∈ S, q = (p.1 + d.1, p.2 + d.2)}

/-- The shape `a` looks like the shape `b` moved by `d`: outlines if their corners are close to each other one by
one, others if their areas are. -/
def Shape.Alike (d : RPt) (a b : Shape) : Prop :=
  match a with
  | .outline ls => ∃ ls', b = .outline ls' ∧
      List.Forall₂ (fun l m => Close l.1 (m.1.1 + d.1, m.1.2 + d.2) ∧ Close l.2 (m.2.1 + d.1, m.2.2 + d.2)) ls ls'
  | _ => Near a.area (moved d b.area)

/-- Groups look the same: part by part, with the same polarity. -/
def Alike (d : RPt) (g h : List Drawn) : Prop :=
  List.Forall₂ (fun a b => a.dark = b.dark ∧ a.shape.Alike d b.shape) g h

/-- What `equivalent` does not look at is the same for both parts: polarity, the width of lines, the rotation of
polygons, and holes up to the ones compared. -/
def Agree (a b : Drawn) : Prop :=
  a.dark = b.dark ∧ match a.shape, b.shape with
    | .line _ _ w, .line _ _ w' => w = w'
    | .circle _ _ h, .circle _ _ h' => h.width = h'.width ∧ h.height = h'.height
    | .rectangle _ _ _ _ h, .rectangle _ _ _ _ h' => h.width = h'.width ∧ h.height = h'.height
    | .polygon _ _ _ rot h, .polygon _ _ _ rot' h' => rot = rot' ∧ h = h'
    | _, _ => True

end Verif.Equiv
