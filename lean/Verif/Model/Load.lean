import Verif.Model.GerberEval
import Verif.Model.Excellon
import Verif.Model.Ipc

/-!
# Detecting and loading files (`gerber/utils.py:208-230`, `gerber/common.py:44-71`)
-/

namespace Verif.Load

open Verif.Py

/-- The tests on one line (utils.py:223-229). -/
def lineFormat (line : Str) : Option String :=
  if isInfix "M48".toList line then some "excellon"
  else if isInfix "%FS".toList line then some "rs274x"
  else match Ipc.words line with
    | a :: b :: _ => if a = ['P'] ∧ b = ['J', 'O', 'B'] then some "ipc_d_356" else none
    | _ => none

/-- `detect_file_format` (utils.py:208-230). -/
def detectFileFormat (data : Str) : String :=
  ((splitOn '\n' data).findSome? lineFormat).getD "unknown"

/-- What `loads` returns (common.py:63-71). -/
inductive Loaded (G : Type)
  | gerber (f : Gerber.GerberFile G)
  | excellon (f : Excellon.XFile)
  | netlist (n : Ipc.Netlist)

/-- `common.loads` (common.py:44-71). -/
def loads {G : Type} (env : Gerber.EvalEnv G) (fs : Str → Option Str) (data : Str) :
    PyR (Loaded G) :=
  let fmt := detectFileFormat data
  if fmt = "rs274x" then (Gerber.loads env fs data).map .gerber
  else if fmt = "excellon" then (Excellon.loads data none []).map .excellon
  else if fmt = "ipc_d_356" then (Ipc.parseRaw data).map .netlist
  else .error .parseError

end Verif.Load
