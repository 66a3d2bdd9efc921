import Verif.Py.Basic
import Verif.Py.Format

/-! # What the setting lines of a drill file say -/

namespace Verif.Excellon
open Verif.Py

/-- A setting line: units with the kept zeros and perhaps a number format, a measuring mode, the
incremental mode switched on or off, the format commands, absolute notation, a format comment. -/
inductive SettingLine
  | unit (inch leading : Bool) (format : Option (Fin 3))
  | measuring (inch : Bool)
  | incremental (on : Bool)
  | fmat (two : Bool)
  | absolute
  | fileFormat (a b : ℕ)

/-- The three number formats of a unit line. -/
def unitFormats : Fin 3 → Str × ℕ × ℕ
  | 0 => ("0000.00".toList, 4, 2)
  | 1 => ("000.000".toList, 3, 3)
  | 2 => ("00.0000".toList, 2, 4)

/-- The text of a setting line. -/
def SettingLine.text : SettingLine → Str
  | .unit i l f => (if i then "INCH".toList else "METRIC".toList) ++ (if l then ",LZ".toList else ",TZ".toList) ++
      match f with | some k => ',' :: (unitFormats k).1 | none => []
  | .measuring i => if i then "M72".toList else "M71".toList
  | .incremental on => if on then "ICI,ON".toList else "ICI,OFF".toList
  | .fmat two => if two then "FMAT,2".toList else "FMAT,1".toList
  | .absolute => "G90".toList
  | .fileFormat a b => ";FILE_FORMAT=".toList ++ natStr a ++ ':' :: natStr b

/-- The settings by which coordinates are read. -/
structure Reading where
  notation_ : String
  units : String
  zeros : String
  format : List ℕ
  deriving DecidableEq, Repr

/-- What a setting line changes. -/
def SettingLine.apply (r : Reading) : SettingLine → Reading
  | .unit i l f => { r with
      units := if i then "inch" else "metric"
      zeros := if l then "leading" else "trailing"
      format := match f with | some k => [(unitFormats k).2.1, (unitFormats k).2.2] | none => r.format }
  | .measuring i => { r with units := if i then "inch" else "metric" }
  | .incremental on => { r with notation_ := if on then "incremental" else "absolute" }
  | .fmat two => { r with format := if two then [2, 4] else [1, 5] }
  | .absolute => { r with notation_ := "absolute" }
  | .fileFormat a b => { r with format := [a, b] }

end Verif.Excellon
