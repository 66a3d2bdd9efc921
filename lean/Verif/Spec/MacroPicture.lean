import Verif.Spec.AmShape
import Verif.Spec.GerberPicture
import Verif.Spec.Cairo
import Verif.Model.AmPrim

/-! # What flashed macros stand for

The areas of macro primitives as the Gerber specification describes them: every primitive is turned about the origin of
the macro.  And what is painted for them instead. -/

namespace Verif.Am

open Verif.Geom

/-- A thermal around the origin: a ring without the parts of it in two bars along the axes. -/
def thermalArea (outer inner gap : ℝ) : Set RPt :=
  {q | (inner / 2) ^ 2 ≤ q.1 ^ 2 + q.2 ^ 2 ∧ q.1 ^ 2 + q.2 ^ 2 ≤ (outer / 2) ^ 2 ∧ gap / 2 ≤ |q.1| ∧ gap / 2 ≤ |q.2|}

/-- The area of a macro primitive (for those whose area is defined here; outlines by the corners turned about the origin). -/
noncomputable def AmPrim.area : AmPrim → Set RPt
  | .circle _ d p => placed ((p.1 : ℝ), (p.2 : ℝ)) 0 (disc ((d : ℝ) / 2))
  | .vectorLine _ _ w s e r => placed (0, 0) r (bar w ((s.1 : ℝ), (s.2 : ℝ)) ((e.1 : ℝ), (e.2 : ℝ)))
  | .outline _ s ps r => inside ((s :: ps).map fun p => turned (0, 0) r ((p.1 : ℝ), (p.2 : ℝ)))
  | .polygon _ n p d r => placed (0, 0) r (placed ((p.1 : ℝ), (p.2 : ℝ)) 0 (regular n.toNat ((d : ℝ) / 2)))
  | .centerLine _ w h c r => placed (0, 0) r (placed ((c.1 : ℝ), (c.2 : ℝ)) 0 (slab w h))
  | .lowerLeft _ w h c r => placed (0, 0) r (placed ((c.1 : ℝ) + w / 2, (c.2 : ℝ) + h / 2) 0 (slab w h))
  | .thermal p o i g r => placed (0, 0) r (placed ((p.1 : ℝ), (p.2 : ℝ)) 0 (thermalArea o i g))
  | _ => ∅

/-- Whether a primitive adds to the macro or removes. -/
def AmPrim.exposed : AmPrim → Bool
  | .circle on .. | .vectorLine _ on .. | .outline on .. | .polygon on .. | .centerLine on .. | .lowerLeft on .. => on
  | _ => true

/-- A point belongs to a macro if the last primitive it lies in is exposed. -/
def Image (g : List AmPrim) : Set RPt :=
  {q | ∃ before a after, g = before ++ a :: after ∧ a.exposed = true ∧ q ∈ a.area ∧ ∀ x ∈ after, q ∉ x.area}

/-- The area that a macro primitive adds or removes if its macro is flashed at `c`. -/
noncomputable def AmPrim.layer (c : RPt) : AmPrim → List (Bool × Set RPt)
  | .comment _ => []
  | a => [(a.exposed, placed c 0 a.area)]

/-! ## What is painted -/

/-- Eleven points on a circle in the first quadrant, at equal distances, from where the one bar of width `gap` along the
axes meets the circle to where the other does. -/
noncomputable def arcCorners (r gap : ℝ) : List RPt :=
  (List.range 11).map fun i : ℕ =>
    (r * Real.cos (Real.arcsin (gap / 2 / r) + (Real.pi / 2 - 2 * Real.arcsin (gap / 2 / r)) / 10 * i),
     r * Real.sin (Real.arcsin (gap / 2 / r) + (Real.pi / 2 - 2 * Real.arcsin (gap / 2 / r)) / 10 * i))

/-- The corners of a quarter of a thermal: along the inner circle and back along the outer one. -/
noncomputable def quarterCorners (outer inner gap : ℝ) : List RPt :=
  arcCorners (inner / 2) gap ++ (arcCorners (outer / 2) gap).reverse

/-- What is painted for a macro primitive if its macro is flashed at `c`: for vector lines the area of a square moved from
start to end; polygons, centre lines and thermals are turned about their own centres; four areas with straight edges
for thermals; nothing for moire patterns and lower left lines. -/
noncomputable def AmPrim.painted (c : RPt) : AmPrim → List (Bool × Set RPt)
  | .circle on d p => [(on, placed c 0 (placed ((p.1 : ℝ), (p.2 : ℝ)) 0 (disc ((d : ℝ) / 2))))]
  | .vectorLine _ on w s e r => [(on, placed c 0 (placed (0, 0) r
      (swept (straight ((s.1 : ℝ), (s.2 : ℝ)) ((e.1 : ℝ), (e.2 : ℝ))) (slab w w))))]
  | .outline on s ps r => [(on, placed c 0 (inside ((s :: ps).map fun p => turned (0, 0) r ((p.1 : ℝ), (p.2 : ℝ)))))]
  | .polygon on n p d r => [(on, placed c 0 (placed ((p.1 : ℝ), (p.2 : ℝ)) r (regular n.toNat ((d : ℝ) / 2))))]
  | .centerLine on w h p r => [(on, placed c 0 (placed ((p.1 : ℝ), (p.2 : ℝ)) r (slab w h)))]
  | .thermal p o i g r => [0, 90, 180, 270].map fun a : ℝ => (true, placed c 0 (inside
      ((quarterCorners o i g ++ (quarterCorners o i g).take 1).map (turned ((p.1 : ℝ), (p.2 : ℝ)) (r + a)))))
  | .comment _ | .moire .. | .lowerLeft .. | .unsupported _ => []

end Verif.Am

namespace Verif.Gerber

open Verif.Geom Verif.Am

/-- The area of a primitive of a file with macros. -/
noncomputable def Prim.image : Prim (List AmPrim) → Set RPt
  | .flash (.group g) p _ _ => placed (toPlane p) 0 (Image g)
  | P => P.area

/-- Where a primitive adds or removes something. -/
noncomputable def Prim.reach : Prim (List AmPrim) → Set RPt
  | .flash (.group g) p _ _ => placed (toPlane p) 0 {q | ∃ a ∈ g, q ∈ a.area}
  | P => P.area

/-- What a primitive adds and removes, in order. -/
noncomputable def Prim.layers : Prim (List AmPrim) → List (Bool × Set RPt)
  | .flash (.group g) p _ _ => g.flatMap (AmPrim.layer (toPlane p))
  | P => [(P.dark, P.area)]

/-- What is painted for a primitive, in order. -/
noncomputable def Prim.painted : Prim (List AmPrim) → List (Bool × Set RPt)
  | .flash (.group g) p _ _ => g.flatMap (AmPrim.painted (toPlane p))
  | P => [(P.dark, P.area)]

/-- At this point nothing that is removed from a macro lies over an earlier primitive. -/
def Apart (Ps : List (Prim (List AmPrim))) (p : RPt) : Prop :=
  ∀ before P after, Ps = before ++ P :: after → p ∈ P.reach → p ∉ P.image → ∀ Q ∈ before, p ∉ Q.image

end Verif.Gerber
