import Verif.Spec.MacroPicture
import Verif.Model.GroupWrite

/-! # What the objects in a group stand for, and which of them macro primitives can stand for -/

namespace Verif.Am

open Verif.Geom

/-- The area of an object, except for lines, whose area depends on more of their aperture than is looked at, and objects
of other classes. -/
noncomputable def Part.area : Part → Set RPt
  | .circle d p => placed (toR p) 0 (disc ((d : ℝ) / 2))
  | .rectangle w h r p => placed (toR p) r (slab w h)
  | .polygon n p r rot => placed (toR p) rot (regular n.toNat r)
  | .outline [] => ∅
  | .outline (l :: ls) => inside (toR l.1 :: (l :: ls).map fun x => toR x.2)
  | _ => ∅

/-- A multiple of a millionth. -/
def OnGrid (v : ℚ) : Prop := ∃ k : ℤ, v = k / 10 ^ 6

/-- Objects that a macro primitive is made of. -/
def Part.Makes : Part → Prop
  | .circle .. => True
  | .rectangle .. => True
  | .line _ _ w => w ≠ none
  | .outline ls => ∃ a z, ls.head? = some a ∧ ls.getLast? = some z ∧ roundPt z.2 = roundPt a.1
  | .polygon n .. => 3 ≤ n ∧ n ≤ 12
  | .other => False

/-- Objects whose area a macro primitive keeps: rectangles that are not turned, polygons that are at the origin or not
turned, closed outlines with corners in multiples of a millionth. -/
def Part.Kept : Part → Prop
  | .circle .. => True
  | .rectangle _ _ r _ => r = 0
  | .polygon n p _ rot => 3 ≤ n ∧ n ≤ 12 ∧ (p = (0, 0) ∨ rot = 0)
  | .outline ls => ∃ a z, ls.head? = some a ∧ ls.getLast? = some z ∧ z.2 = a.1 ∧ OnGrid a.1.1 ∧ OnGrid a.1.2 ∧
      ∀ l ∈ ls, OnGrid l.2.1 ∧ OnGrid l.2.2
  | _ => False

/-- A point belongs to a group if the last object it lies in is dark. -/
def GroupImage (g : List (Bool × Part)) : Set RPt :=
  {q | ∃ before a after, g = before ++ a :: after ∧ a.1 = true ∧ q ∈ a.2.area ∧ ∀ x ∈ after, q ∉ x.2.area}

end Verif.Am
