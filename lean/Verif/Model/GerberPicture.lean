import Verif.Model.DrillPicture
import Verif.Model.GerberEval

/-! # Pictures of Gerber files: `CamFile.render` (gerber/cam.py) and `GerberFile.bounding_box` (gerber/rs274x.py)

The primitives made by the interpreter (`Gerber.Prim`) as those the renderer draws (`Cairo.Prim`).  The parts of flashed
macros are given by a parameter.

Simplifications: what makes drawing raise whatever the picture looks like raises here when the primitive is made, in
Python when its box is needed or it is drawn: arcs without centre, lines and arcs with a macro as aperture, polygons
with a negative number of sides (drawn only).  Flashes are not turned (`rotation` is 0 except for polygons). -/

namespace Verif.Gerber

open Verif.Py Verif.Geom Verif.Cairo

variable {G : Type}

/-- A point with real coordinates (rs274x.py:713). -/
noncomputable def Pt.real (p : Pt) : RPt := ((p.1 : ℝ), (p.2 : ℝ))

/-- `hole_diameter`, `hole_width`, `hole_height` (rs274x.py:517-528). -/
noncomputable def Hole.real (h : Hole) : Cairo.Hole := ⟨h.diameter, h.width, h.height⟩

/-- Number of sides of a polygon (primitives.py:1230-1239). -/
def sides (n : ℤ) : PyR ℕ := if n < 0 then .error .indexError else .ok n.toNat

/-- The aperture of a line or an arc (rs274x.py:644-664). -/
noncomputable def Shape.pen : Shape G → PyR Cairo.Aperture
  | .circle d _ => .ok (.circle d)
  | .rect w h _ => .ok (.rectangle w h 0)
  | .obround w h _ => .ok (.obround w h)
  | .polygon n r rot _ => do .ok (.polygon (← sides n) r rot)
  | .group _ => .error .attributeError

/-- A part of a region (rs274x.py:665-690). -/
noncomputable def Edge.part : Edge G → PyR Cairo.Part
  | .line s e _ _ _ => .ok (.line (Pt.real s) (Pt.real e))
  | .arc _ _ none _ _ _ _ _ => .error .typeError
  | .arc s e (some c) d _ q _ _ => .ok (.arc (Pt.real s) (Pt.real e) (Pt.real c) d q)

/-- The primitive that is drawn (rs274x.py:590-724).  Macros keep the polarities of their parts. -/
noncomputable def Prim.drawn (parts : G → Pt → PyR (List (Bool × Cairo.Shape))) : Prim G → PyR Cairo.Prim
  | .edge (.line s e ap pol _) => do
    .ok (.shape (pol = "dark") (.line (Pt.real s) (Pt.real e) (← ap.shape.pen)))
  | .edge (.arc _ _ none _ _ _ _ _) => .error .typeError
  | .edge (.arc s e (some c) d ap q pol _) => do
    .ok (.shape (pol = "dark") (.arc (Pt.real s) (Pt.real e) (Pt.real c) d q (← ap.shape.pen)))
  | .flash (.circle d hole) p pol _ => .ok (.shape (pol = "dark") (.circle (Pt.real p) d 0 hole.real))
  | .flash (.rect w h hole) p pol _ => .ok (.shape (pol = "dark") (.rectangle (Pt.real p) w h 0 hole.real))
  | .flash (.obround w h hole) p pol _ => .ok (.shape (pol = "dark") (.obround (Pt.real p) w h 0 hole.real))
  | .flash (.polygon n r rot hole) p pol _ => do
    .ok (.shape (pol = "dark") (.polygon (Pt.real p) (← sides n) r rot hole.real))
  | .flash (.group g) p _ _ => do .ok (.group (← parts g p))
  | .region es pol _ => do .ok (.shape (pol = "dark") (.region (← es.mapM Edge.part)))

/-- `bounding_box` of a primitive; that of a macro is around its parts (primitives.py:1299-1309). -/
noncomputable def primBox : Cairo.Prim → PyR Box
  | .shape _ s => s.box
  | .group parts => do
    match unionBox (← parts.mapM fun x => x.2.box) with
    | none => .error .valueError
    | some b => .ok b
  | .testRecord _ | .undrawn => .error .attributeError

/-- `GerberFile.bounding_box` (rs274x.py:134-147) of primitives. -/
noncomputable def boxAround (prims : List Cairo.Prim) : PyR Box :=
  prims.foldlM (fun r p => do
    let b ← primBox p
    .ok ((min b.1.1 r.1.1, max b.1.2 r.1.2), (min b.2.1 r.2.1, max b.2.2 r.2.2)))
    ((1000000, -1000000), (1000000, -1000000))

/-- `GerberFile.render` (cam.py:263-289). -/
noncomputable def GerberFile.render (K : Engine) (parts : G → Pt → PyR (List (Bool × Cairo.Shape))) (f : GerberFile G)
    (c : Cairo.Ctx := {}) (invert : Bool := false) : PyR Cairo.Ctx := do
  let prims ← f.primitives.mapM (Prim.drawn parts)
  c.renderFile K (boxAround prims) (.ok prims) invert

end Verif.Gerber
