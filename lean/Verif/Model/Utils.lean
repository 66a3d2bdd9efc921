import Verif.Py.Basic

/-! # Model of `gerber/utils.py` -/

namespace Verif.Utils
open Verif.Py

/-- `MAX_DIGITS > 13 or integer_digits > 6 or decimal_digits > 7`
(utils.py:74, utils.py:134). -/
def badFormat (fmt : ℕ × ℕ) : Bool :=
  fmt.1 + fmt.2 > 13 || fmt.1 > 6 || fmt.2 > 7

/-- `parse_gerber_value` (utils.py:32-94).  The result is the exact decimal value;
the final rounding of `float()` to a double is not modelled.
Python's `'0' * k` for negative `k` is `''`, as is truncated subtraction here. -/
def parseGerberValue (value : Str) (fmt : ℕ × ℕ) (zs : String) : PyR ℚ :=
  if '.' ∈ value then pyFloat value
  else if badFormat fmt then .error .valueError
  else
    let value := lstripBy (· == '+') value
    let negative := '-' ∈ value
    let value := if negative then lstripBy (· == '-') value else value
    let missing := fmt.1 + fmt.2 - value.length
    let digits :=
      if zs = "trailing" then value ++ List.replicate missing '0'
      else if zs = "leading" then List.replicate missing '0' ++ value
      else value
    match pyFloat (digits.take fmt.1 ++ '.' :: digits.drop fmt.1) with
    | .ok r => .ok (if negative then -r else r)
    | .error e => .error e

/-- `write_gerber_value` (utils.py:97-167), for an integer format tuple (the
`format[0] == float` escape of line 128 is `writeFloatValue`). -/
def writeGerberValue (value : ℚ) (fmt : ℕ × ℕ) (zs : String) : PyR Str :=
  if badFormat fmt then .error .valueError
  else if value = 0 then .ok ['0']
  else
    let negative := decide (value < 0)
    let value := if negative then -1 * value else value
    let digits := (fmtFixedNonneg (fmt.1 + fmt.2 + 1) fmt.2 value).filter (· ≠ '.')
    if (digits.map digVal).sum = 0 then .ok ['0']
    else
      let digits :=
        if zs = "trailing" then rstripBy (· == '0') digits
        else if zs = "leading" then lstripBy (· == '0') digits
        else digits
      if digits = [] then .ok ['0']
      else .ok (if negative then '-' :: digits else digits)

/-- `MILLIMETERS_PER_INCH` (utils.py:29). -/
def mmPerInch : ℚ := 254 / 10

/-- `metric` (utils.py:243-256). -/
def metric (v : ℚ) : ℚ := v * mmPerInch

/-- `inch` (utils.py:259-272). -/
def inch (v : ℚ) : ℚ := v / mmPerInch

end Verif.Utils
