import Verif.Model.Cairo
import Verif.Model.Excellon

/-! # Pictures of single files: `CamFile.render` (gerber/cam.py) and `ExcellonFile.primitives` (gerber/excellon.py)

Simplifications: the colors of a context are those it is created with (render/render.py:61-67); writing the picture to
a file is left out; a tool without diameter raises here, in Python only when the box or the radius of the primitive is
needed, which is the next thing done with it. -/

namespace Verif.Cairo

open Verif.Py Verif.Geom Verif.Render

/-- `CamFile.render` (cam.py:263-289) for a file with the given `bounding_box` and `primitives`. -/
noncomputable def Ctx.renderFile (K : Engine) (c : Cairo.Ctx) (box : PyR Box) (prims : PyR (List Prim))
    (invert : Bool) : PyR Cairo.Ctx := do
  let b ← box
  let c := (c.setBounds b).paintBackground { color := [0, 0, 0], alpha := 1 }
  let l ← prims
  c.paintLayer K ⟨"", none, l⟩
    { color := [7215 / 10000, 451 / 1000, 200 / 1000], alpha := 1, invert := invert, mirror := false }

end Verif.Cairo

namespace Verif.Excellon

open Verif.Py Verif.Cairo

/-- The primitive of a hit (excellon.py:213-219): `Drill` or `Slot`; `validate_coordinates` (utils.py:233-240) rejects
slots with a missing coordinate (primitives.py:1603-1608, 1657-1664). -/
noncomputable def hitPrim (heap : List Tool) (h : Hit) : PyR Cairo.Prim := do
  match h.tool with
  | none => .error .attributeError
  | some r =>
    let t ← pyIdx heap r
    match t.diameter with
    | none => .error .typeError
    | some d =>
      match h with
      | .hole _ p => .ok (.shape true (.drill ((p.1 : ℝ), (p.2 : ℝ)) d))
      | .slot _ (some x, some y) (some z, some w) _ =>
        .ok (.shape true (.slot ((x : ℝ), (y : ℝ)) ((z : ℝ), (w : ℝ)) d))
      | .slot _ _ _ _ => .error .typeError

/-- `ExcellonFile.primitives` (excellon.py:208-220). -/
noncomputable def XFile.primitives (f : XFile) : PyR (List Cairo.Prim) := f.hits.mapM (hitPrim f.heap)

/-- `ExcellonFile.render` (cam.py:263-289). -/
noncomputable def XFile.render (K : Engine) (f : XFile) (c : Cairo.Ctx := {}) (invert : Bool := false) :
    PyR Cairo.Ctx :=
  c.renderFile K (f.boundingBox.map fun b => (((b.1.1 : ℝ), (b.1.2 : ℝ)), ((b.2.1 : ℝ), (b.2.2 : ℝ)))) f.primitives
    invert

end Verif.Excellon
