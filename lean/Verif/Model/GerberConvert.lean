import Verif.Model.GerberSave
import Verif.Model.AmUnits

/-! # Converting a Gerber file that was read, and writing it: `GerberFile.to_metric`, `to_inch`, `write`
(gerber/rs274x.py:149-171) -/

namespace Verif.Gerber
open Verif.Py Verif.Cam Verif.Am

variable {G : Type}

/-- What unit conversion changes of a file that was read: its statements, the primitives that reading has left in the
AM statements, its units.  (`GerberFile.units` is that of its settings, cam.py:217-229.) -/
def GerberFile.macroFile (f : GerberFile G) (s : AmState) : MacroFile := ⟨⟨f.statements, f.settings.units⟩, s.prims⟩

/-- `GerberFile.write` (rs274x.py:149-155) after a conversion.  `self.settings` has the file's units and the format that
was read (cam.py:235-245). -/
def GerberFile.saveAs (f : GerberFile G) (m : MacroFile) : PyR Str :=
  writeFile { f.settings with units := m.program.units } (withPrims m.prims 0 m.program.statements)

/-- `file.to_metric()`, then `file.write(name)` (rs274x.py:149-155, 165-171). -/
def GerberFile.saveMetric (f : GerberFile G) : PyR Str := do
  let s ← amRun 0 {} f.statements
  f.saveAs (f.macroFile s).toMetric

/-- `file.to_inch()`, then `file.write(name)` (rs274x.py:149-163). -/
def GerberFile.saveInch (f : GerberFile G) : PyR Str := do
  let s ← amRun 0 {} f.statements
  f.saveAs (f.macroFile s).toInch

/-- `file.offset(dx, dy)`, then `file.write(name)` (rs274x.py:149-155, 173-177). -/
def GerberFile.saveMoved (f : GerberFile G) (dx dy : ℚ) : PyR Str := do
  let s ← amRun 0 {} f.statements
  f.saveAs ⟨(f.macroFile s).program.offset dx dy, s.prims⟩

end Verif.Gerber
