import Verif.Spec.GerberEval
import Verif.Spec.Winding

/-! # What the primitives of a Gerber file stand for

The area of every primitive as a set of points of the plane, and the primitives whose area is defined here. -/

namespace Verif.Gerber

open Verif.Geom

variable {G : Type}

/-- The points of the plane. -/
noncomputable def toPlane (p : Pt) : RPt := ((p.1 : ℝ), (p.2 : ℝ))

/-- The hole of an aperture around the origin: a disc, a rectangle, or nothing. -/
def Hole.area (h : Hole) : Set RPt :=
  {q | 0 < h.diameter ∧ q ∈ disc ((h.diameter : ℝ) / 2)} ∪
  {q | 0 < h.width ∧ 0 < h.height ∧ q ∈ slab h.width h.height}

/-- The area of an aperture around the origin, with its hole.  (Nothing is said of macros.) -/
noncomputable def Shape.area : Shape G → Set RPt
  | .circle d hole => disc ((d : ℝ) / 2) \ hole.area
  | .rect w h hole => slab w h \ hole.area
  | .obround w h hole => stadium w h \ hole.area
  | .polygon n r rot hole => placed (0, 0) rot (regular n.toNat r) \ hole.area
  | .group _ => ∅

/-- The area of an aperture without its hole. -/
noncomputable def Shape.full : Shape G → Set RPt
  | .circle d _ => disc ((d : ℝ) / 2)
  | .rect w h _ => slab w h
  | .obround w h _ => stadium w h
  | .polygon n r rot _ => placed (0, 0) rot (regular n.toNat r)
  | .group _ => ∅

/-- The path of a line or an arc. -/
noncomputable def Edge.path : Edge G → Set RPt
  | .line s e _ _ _ => straight (toPlane s) (toPlane e)
  | .arc s e (some c) d _ _ _ _ => circular d (toPlane s) (toPlane e) (toPlane c)
  | .arc _ _ none _ _ _ _ _ => ∅

/-- The path of a line or an arc as part of a contour. -/
noncomputable def Edge.bend : Edge G → Bend
  | .line _ e _ _ _ => .line (toPlane e)
  | .arc s e (some c) d _ _ _ _ => arcBend d (toPlane s) (toPlane e) (toPlane c)
  | .arc _ e none _ _ _ _ _ => .line (toPlane e)

/-- What a contour goes around. -/
noncomputable def contourArea : List (Edge G) → Set RPt
  | [] => ∅
  | e :: l => enclosed (toPlane e.start) ((e :: l).map Edge.bend)

/-- The area of a primitive: a drawn line or arc is its aperture moved along the path, a flash is the aperture moved to
the point, a region is what its contour goes around. -/
noncomputable def Prim.area : Prim G → Set RPt
  | .edge e => swept e.path e.ap.shape.full
  | .flash s p _ _ => {q | ∃ v ∈ s.area, q = ((p.1 : ℝ) + v.1, (p.2 : ℝ) + v.2)}
  | .region es _ _ => contourArea es

/-- Dark primitives add to the picture, the others remove. -/
def Prim.dark (p : Prim G) : Bool := p.polarity = "dark"

end Verif.Gerber
