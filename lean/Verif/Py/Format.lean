import Verif.Py.Basic

/-! # Python's `%.{P}g` formatting -/

namespace Verif.Py

/-- `floor(log10 x)` for `x > 0`, from the number of decimal digits of numerator and
denominator. -/
def log10floor (x : ℚ) : ℤ :=
  let a : ℤ := ((natStr x.num.natAbs).length : ℤ) - (natStr x.den).length
  if (10 : ℚ) ^ a ≤ x then a else a - 1

/-- Decimal scientific form with `P` significant digits of `x > 0`: mantissa `m` (as an integer of
`P` digits, rounded half even) and exponent `e`; the rounded value is `m * 10^(e - (P-1))`. -/
def sciRound (P : ℕ) (x : ℚ) : ℕ × ℤ :=
  let e := log10floor x
  let m := rne (x / (10 : ℚ) ^ (e - ((P : ℤ) - 1)))
  if m = 10 ^ P then (10 ^ (P - 1), e + 1) else (m, e)

/-- `m / 10^d` in fixed notation without trailing zeros and without trailing point. -/
def trimFrac (d m : ℕ) : Str :=
  if d = 0 then fixedStr 0 m
  else rstripBy (· == '.') (rstripBy (· == '0') (fixedStr d m))

/-- `'%.{P}g' % x` for `x > 0` (C's `%g`: fixed notation if `-4 ≤ e < P`, else exponent notation
with at least two exponent digits). -/
def fmtGPos (P : ℕ) (x : ℚ) : Str :=
  let me := sciRound P x
  if -4 ≤ me.2 ∧ me.2 < P then trimFrac ((P : ℤ) - 1 - me.2).toNat me.1
  else trimFrac (P - 1) me.1 ++
    'e' :: (if me.2 < 0 then '-' else '+') :: zeroPad 2 (natStr me.2.natAbs)

/-- `'%.{P}g' % x` (also `'%0.{P}g'`), `P ≥ 1`.  Negative zero is not modelled. -/
def fmtG (P : ℕ) (x : ℚ) : Str :=
  if x = 0 then ['0'] else if x < 0 then '-' :: fmtGPos P (-x) else fmtGPos P x

/-- `repr(x)` of a float `x > 0`: the shortest digits that give back `x`, in fixed notation (with at
least one decimal) if `-4 ≤ e < 16`.  Modelled with 17 significant digits, trailing zeros removed: for
a value of at most 15 significant digits this is what Python prints for the double nearest to it. -/
def reprPos (x : ℚ) : Str :=
  let me := sciRound 17 x
  if -4 ≤ me.2 ∧ me.2 < 16 then
    let s := trimFrac (16 - me.2).toNat me.1
    if '.' ∈ s then s else s ++ ['.', '0']
  else trimFrac 16 me.1 ++
    'e' :: (if me.2 < 0 then '-' else '+') :: zeroPad 2 (natStr me.2.natAbs)

/-- `repr(x)`, `str(x)`, `'{}'.format(x)` of a float; see `reprPos`. -/
def pyRepr (x : ℚ) : Str :=
  if x = 0 then ['0', '.', '0'] else if x < 0 then '-' :: reprPos (-x) else reprPos x

end Verif.Py
