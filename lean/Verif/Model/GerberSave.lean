import Verif.Model.AmPrim
import Verif.Model.GerberEval

/-! # Writing a Gerber file that was read: `GerberFile.write` (gerber/rs274x.py) with the macros as they are after reading -/

namespace Verif.Gerber
open Verif.Py Verif.Cam Verif.Am

/-- The statements of a file after reading, from place `k` on: `AMParamStmt.primitives` holds what the last use of the
macro made (gerber_statements.py:427-454). -/
def withPrims (prims : ℕ → List AmPrim) (k : ℕ) : List Stmt → List Stmt
  | [] => []
  | .am n b _ :: l => .am n b ((prims k).map toGerber) :: withPrims prims (k + 1) l
  | s :: l => s :: withPrims prims (k + 1) l

/-- `GerberFile.write` (rs274x.py:149-155) of a file that was read, with its own settings.  What reading has left in the
AM statements is computed by `amRun`. -/
def GerberFile.save {G : Type} (f : GerberFile G) : PyR Str := do
  let s ← amRun 0 {} f.statements
  writeFile f.settings (withPrims s.prims 0 f.statements)

end Verif.Gerber
