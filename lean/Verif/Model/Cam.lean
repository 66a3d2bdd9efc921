import Verif.Py.Basic

/-! # Model of `gerber/cam.py` (`FileSettings`, `CamFile.settings`) -/

namespace Verif.Cam
open Verif.Py

/-- State of a `FileSettings` object (cam.py:25-174).  Enumerations are kept as strings, as in
the code; `zeroSuppression`/`zeros` are the private fields `_zero_suppression`/`_zeros`. -/
structure FileSettings where
  notation_ : String
  units : String
  zeroSuppression : String
  zeros : String
  format : ℕ × ℕ
  angleUnits : String
  deriving DecidableEq, Repr

/-- Setter of `zero_suppression` (cam.py:101-104): no validation. -/
def FileSettings.setZeroSuppression (s : FileSettings) (v : String) : FileSettings :=
  { s with zeroSuppression := v, zeros := if v = "trailing" then "leading" else "trailing" }

/-- Setter of `zeros` (cam.py:110-114): no validation. -/
def FileSettings.setZeros (s : FileSettings) (v : String) : FileSettings :=
  { s with zeros := v, zeroSuppression := if v = "trailing" then "leading" else "trailing" }

/-- `len(format) != 2` check (cam.py:88-90, 159-162); format tuples are lists of naturals. -/
def checkFormat : List ℕ → PyR (ℕ × ℕ)
  | [a, b] => .ok (a, b)
  | _ => .error .valueError

/-- `FileSettings.__init__` (cam.py:57-94). -/
def FileSettings.init (notation_ units : String) (zeroSuppression : Option String)
    (format : List ℕ) (zeros : Option String) (angleUnits : String) : PyR FileSettings :=
  if notation_ ∉ ["absolute", "incremental"] then .error .valueError
  else if units ∉ ["inch", "metric"] then .error .valueError
  else
    let base : FileSettings :=
      { notation_ := notation_, units := units, zeroSuppression := "", zeros := "",
        format := (0, 0), angleUnits := "" }
    let withZeros : PyR FileSettings :=
      if zeroSuppression = none ∧ zeros = none then .ok (base.setZeroSuppression "trailing")
      else if zeroSuppression = zeros then .error .valueError
      else match zeroSuppression with
        | some zs =>
          if zs ∉ ["leading", "trailing"] then .ok (base.setZeroSuppression "leading")
          else .ok (base.setZeroSuppression zs)
        | none => match zeros with
          | some z =>
            if z ∉ ["leading", "trailing"] then .error .valueError
            else .ok (base.setZeros z)
          | none => .ok base
    match withZeros with
    | .error e => .error e
    | .ok s =>
      match checkFormat format with
      | .error e => .error e
      | .ok f =>
        if angleUnits ∉ ["degrees", "radians"] then .error .valueError
        else .ok { s with format := f, angleUnits := angleUnits }

/-- Values assigned through `settings[key] = value` (cam.py:130-163). -/
inductive Value
  | str (s : String)
  | tup (l : List ℕ)

/-- `FileSettings.__setitem__` (cam.py:131-170).  A string assigned to `'format'` is rejected
here; the code would accept one of length two (not modelled). -/
def FileSettings.setItem (s : FileSettings) (key : String) (value : Value) : PyR FileSettings :=
  if key = "format" then
    match value with
    | .tup l => match checkFormat l with
      | .ok f => .ok { s with format := f }
      | .error e => .error e
    | .str _ => .error .valueError
  else match value with
    | .tup _ =>
      if key ∈ ["notation", "units", "zero_suppression", "zeros", "angle_units"] then
        .error .valueError
      else .error .keyError
    | .str v =>
      if key = "notation" then
        if v ∉ ["absolute", "incremental"] then .error .valueError
        else .ok { s with notation_ := v }
      else if key = "units" then
        if v ∉ ["inch", "metric"] then .error .valueError else .ok { s with units := v }
      else if key = "zero_suppression" then
        if v ∉ ["leading", "trailing"] then .error .valueError
        else .ok (s.setZeroSuppression v)
      else if key = "zeros" then
        if v ∉ ["leading", "trailing"] then .error .valueError else .ok (s.setZeros v)
      else if key = "angle_units" then
        if v ∉ ["degrees", "radians"] then .error .valueError
        else .ok { s with angleUnits := v }
      else .error .keyError

/-- The settings-related attributes of a `CamFile` (cam.py:215-232). -/
structure CamFile where
  notation_ : String
  units : String
  zeroSuppression : String
  zeros : String
  format : ℕ × ℕ
  deriving DecidableEq, Repr

/-- `CamFile.__init__` with `settings` given or omitted (cam.py:215-232). -/
def CamFile.init : Option FileSettings → CamFile
  | some s => { notation_ := s.notation_, units := s.units, zeroSuppression := s.zeroSuppression,
                zeros := s.zeros, format := s.format }
  | none => { notation_ := "absolute", units := "inch", zeroSuppression := "trailing",
              zeros := "leading", format := (2, 5) }

/-- `CamFile.settings` (cam.py:236-245). -/
def CamFile.settings (f : CamFile) : PyR FileSettings :=
  FileSettings.init f.notation_ f.units (some f.zeroSuppression) [f.format.1, f.format.2] none
    "degrees"

end Verif.Cam
