import Verif.Model.Cam
import Verif.Model.Ipc

/-! # Settings files of drill programs (gerber/excellon_settings.py) -/

namespace Verif.SettingsFile
open Verif.Py Verif.Cam Verif.Ipc

/-- `ExcellonSettingsParser.values` (excellon_settings.py:78): the four keys that occur. -/
structure Values where
  formatInt : Option ℤ := none
  formatDec : Option ℤ := none
  notation_ : Option String := none
  units : Option String := none
  deriving DecidableEq, Repr

/-- `map_coordinates` (excellon_settings.py:50-53). -/
def mapCoordinates (v : Str) : String := if v = "ABSOLUTE".toList then "absolute" else "relative"

/-- `map_units` (excellon_settings.py:55-58). -/
def mapUnits (v : Str) : String := if v = "ENGLISH".toList then "inch" else "metric"

/-- `_parse` (excellon_settings.py:94-104), with `SETTINGS_KEYS` (63-68); `line` is already stripped. -/
def parseLine (vs : Values) (line : Str) : PyR Values :=
  match words line with
  | [k, v] =>
    if k = "INTEGER-PLACES".toList then do
      let n ← pyInt v
      .ok { vs with formatInt := some n }
    else if k = "DECIMAL-PLACES".toList then do
      let n ← pyInt v
      .ok { vs with formatDec := some n }
    else if k = "COORDINATES".toList then .ok { vs with notation_ := some (mapCoordinates v) }
    else if k = "OUTPUT-UNITS".toList then .ok { vs with units := some (mapUnits v) }
    else .ok vs
  | _ => .ok vs

/-- A dictionary access (excellon_settings.py:88-90). -/
def getKey {α : Type} : Option α → PyR α
  | some v => .ok v
  | none => .error .keyError

/-- `ExcellonSettingsParser().parse_raw(data)` (excellon_settings.py:81-92).  The format is kept apart as two
integers, since `FileSettings` models it by natural numbers (the code does not check its sign). -/
def parseRaw (data : Str) : PyR (FileSettings × ℤ × ℤ) := do
  let vs ← (pyLines data).foldlM (fun vs l => parseLine vs (strip l)) ({} : Values)
  let n ← getKey vs.notation_
  let u ← getKey vs.units
  let a ← getKey vs.formatInt
  let b ← getKey vs.formatDec
  let s ← FileSettings.init n u none [a.toNat, b.toNat] none "degrees"
  .ok (s, a, b)

end Verif.SettingsFile
