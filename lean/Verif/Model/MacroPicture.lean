import Verif.Model.AmShape
import Verif.Model.GerberPicture

/-! # Flashed macros on pictures: `AMGroup` (gerber/primitives.py) and its parts

A macro aperture is kept as the list of its macro primitives (`AMParamStmt.primitives`), from which `AMGroup` makes its
parts. -/

namespace Verif.Am

open Verif.Py Verif.Geom Verif.Gerber

/-- `Primitive.offset`, `Outline.offset` (primitives.py:177-186, 299-304, 579-580, 1387-1390). -/
def shift (p q : RPt) : RPt := (q.1 + p.1, q.2 + p.2)

/-- A part of a group that is moved to `p` (primitives.py:1325-1343), as the renderer draws it
(render/render.py:138-170: outlines like regions). -/
noncomputable def Shape.drawn (p : RPt) : Shape → PyR Cairo.Shape
  | .circle pos d => .ok (.circle (shift p pos) d 0 {})
  | .outline lines => .ok (.region (lines.map fun l => .line (shift p l.1) (shift p l.2)))
  | .polygon pos n r rot => do .ok (.polygon (shift p pos) (← sides n) r rot {})

/-- The parts of a macro flashed at `p`.  They keep their polarity (rs274x.py:707-711 sets only that of the group). -/
noncomputable def groupParts (g : List AmPrim) (p : Pt) : PyR (List (Bool × Cairo.Shape)) := do
  let l ← groupShapes g
  l.mapM fun x => do .ok (x.dark, ← x.shape.drawn (Pt.real p))

/-- The environment of the interpreter with macros: `AMParamStmt.build` (gerber_statements.py:427-454), which makes the
group and raises if one of the primitives cannot be turned into a shape. -/
noncomputable def macroEnv (center : String → Pt → Pt → Pt → Option Pt) : EvalEnv (List AmPrim) where
  build body _ mods := do
    let g ← build body mods
    let _ ← groupShapes g
    .ok g
  center := center

/-- `GerberFile.render` for files with macros (cam.py:263-286). -/
noncomputable def render (K : Cairo.Engine) (f : GerberFile (List AmPrim)) (c : Cairo.Ctx := {}) (invert : Bool := false) :
    PyR Cairo.Ctx := f.render K groupParts c invert

end Verif.Am
