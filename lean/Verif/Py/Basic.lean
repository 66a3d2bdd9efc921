import Mathlib.Data.Rat.Floor
import Mathlib.Algebra.Order.Field.Rat

/-!
# The fragment of Python the model relies on

Text is `List Char` (a Python `str` is a sequence of code points), a `float` is an
exact rational, an exception is a value of `PyErr`.  Only ASCII digits, letters and
white space are recognised (Python accepts further Unicode digits and spaces).
-/

namespace Verif.Py

/-- A Python string. -/
abbrev Str := List Char

/-- Exception classes that the modelled code can raise. -/
inductive PyErr
  | valueError | typeError | keyError | indexError | zeroDivisionError
  | attributeError | ioError | notImplementedError | parseError | stopIteration
  | recursionError
  /-- a bare `Exception` -/
  | exception
  deriving DecidableEq, Repr

/-- A Python computation: a result or an exception. -/
abbrev PyR (α : Type) := Except PyErr α

deriving instance DecidableEq for Except

/-- ASCII decimal digit (`string.digits`, `\d` restricted to ASCII). -/
def isDig (c : Char) : Bool := '0' ≤ c && c ≤ '9'

/-- Value of a decimal digit character. -/
def digVal (c : Char) : ℕ := c.toNat - '0'.toNat

/-- Decimal digit character of `n % 10`. -/
def digChar (n : ℕ) : Char := Char.ofNat ('0'.toNat + n % 10)

/-- Value of a list of decimal digits, most significant first. -/
def natVal (cs : Str) : ℕ := cs.foldl (fun a c => 10 * a + digVal c) 0

/-- ASCII white space as removed by `str.strip()` / `str.split()`. -/
def isSpace (c : Char) : Bool :=
  c == ' ' || c == '\t' || c == '\n' || c == '\r' || c == '\x0b' || c == '\x0c'

/-- `s.lstrip(chars)` for the set of characters satisfying `p`. -/
def lstripBy (p : Char → Bool) (s : Str) : Str := s.dropWhile p

/-- `s.rstrip(chars)`. -/
def rstripBy (p : Char → Bool) (s : Str) : Str := (s.reverse.dropWhile p).reverse

/-- `s.strip(chars)`. -/
def stripBy (p : Char → Bool) (s : Str) : Str := rstripBy p (lstripBy p s)

/-- `s.strip()`. -/
def strip (s : Str) : Str := stripBy isSpace s

/-- An optional sign: `(negative, rest)`. -/
def takeSign : Str → Bool × Str
  | '+' :: s => (false, s)
  | '-' :: s => (true, s)
  | s => (false, s)

/-- `int(s)`: optional surrounding white space, optional sign, at least one digit.
Python additionally accepts `_` between digits; not modelled. -/
def pyInt (s : Str) : PyR ℤ :=
  let (neg, d) := takeSign (strip s)
  if d ≠ [] ∧ d.all isDig then
    .ok (if neg then -(natVal d : ℤ) else natVal d)
  else .error .valueError

/-- Optional exponent part of a float literal, applied to the mantissa `m`. -/
def pyExpo (m : ℚ) : Str → Option ℚ
  | [] => some m
  | c :: r =>
    if c = 'e' ∨ c = 'E' then
      let (neg, d) := takeSign r
      if d ≠ [] ∧ d.all isDig then
        some (if neg then m / 10 ^ natVal d else m * 10 ^ natVal d)
      else none
    else none

/-- Unsigned float literal: `digits [. digits*] [exponent]` or `. digits [exponent]`. -/
def pyUFloat (s : Str) : Option ℚ :=
  let ip := s.takeWhile isDig
  match s.dropWhile isDig with
  | '.' :: r =>
    let fp := r.takeWhile isDig
    if ip = [] ∧ fp = [] then none
    else pyExpo ((natVal (ip ++ fp) : ℚ) / 10 ^ fp.length) (r.dropWhile isDig)
  | r => if ip = [] then none else pyExpo (natVal ip : ℚ) r

/-- `float(s)`.  The exact decimal value is returned; Python then rounds it to the
nearest double.  `inf`, `nan` and `_` separators are not modelled (rejected here). -/
def pyFloat (s : Str) : PyR ℚ :=
  let (neg, r) := takeSign (strip s)
  match pyUFloat r with
  | some q => .ok (if neg then -q else q)
  | none => .error .valueError

/-- Last `w` decimal digits of `n`, most significant first. -/
def fixDigits : ℕ → ℕ → Str
  | 0, _ => []
  | w + 1, n => fixDigits w (n / 10) ++ [digChar n]

/-- `str(n)` for a natural number. (`log2 n + 1` is an upper bound for the number of
decimal digits.) -/
def natStr (n : ℕ) : Str :=
  match (fixDigits (Nat.log2 n + 1) n).dropWhile (· == '0') with
  | [] => ['0']
  | s => s

/-- `str(n)` / `'%d' % n` for an integer. -/
def intStr (n : ℤ) : Str :=
  if n < 0 then '-' :: natStr n.natAbs else natStr n.natAbs

/-- Round a non-negative rational to an integer, ties to even: the rounding of C's
`printf` (hence of Python's `%` operator) and of `round()`. -/
def rne (x : ℚ) : ℕ :=
  let f := ⌊x⌋.toNat
  let r := x - f
  if r < 1 / 2 then f
  else if 1 / 2 < r then f + 1
  else if f % 2 = 0 then f else f + 1

/-- Digits of `'%.{d}f' % (n / 10^d)` for natural `n`: integer part, then (if `d > 0`) a point
and exactly `d` decimals. -/
def fixedStr (d n : ℕ) : Str :=
  natStr (n / 10 ^ d) ++ (if d = 0 then [] else '.' :: fixDigits d (n % 10 ^ d))

/-- `s.rjust(w, '0')`: zero padding on the left to width `w`. -/
def zeroPad (w : ℕ) (s : Str) : Str := List.replicate (w - s.length) '0' ++ s

/-- `'%0{w}.{d}f' % x` for `x ≥ 0`. -/
def fmtFixedNonneg (w d : ℕ) (x : ℚ) : Str :=
  zeroPad w (fixedStr d (rne (x * 10 ^ d)))

/-- `s.split(c)` for a single character separator (never empty). -/
def splitOn (c : Char) : Str → List Str
  | [] => [[]]
  | x :: xs =>
    if x = c then [] :: splitOn c xs
    else match splitOn c xs with
      | [] => [[x]]
      | w :: ws => (x :: w) :: ws

/-- `sub in s` for strings. -/
def isInfix (sub : Str) : Str → Bool
  | [] => sub.isEmpty
  | c :: s => sub.isPrefixOf (c :: s) || isInfix sub s

/-- `s.split(sub)` for a separator `sub = c :: t` of any length: leftmost, non overlapping
occurrences.  `skip` is the number of characters of a separator still to be dropped. -/
def splitStrGo (sub : Str) : ℕ → Str → List Str
  | _, [] => [[]]
  | k + 1, _ :: s => splitStrGo sub k s
  | 0, c :: s =>
    if sub.isPrefixOf (c :: s) then [] :: splitStrGo sub (sub.length - 1) s
    else match splitStrGo sub 0 s with
      | [] => [[c]]
      | w :: ws => (c :: w) :: ws

/-- `s.split(sub)` for a non-empty separator. -/
def splitStr (sub s : Str) : List Str := splitStrGo sub 0 s

/-- `l[i]` for a natural index. -/
def pyIdx {α : Type} (l : List α) (i : ℕ) : PyR α :=
  match l[i]? with
  | some a => .ok a
  | none => .error .indexError

/-- `'%02d' % n`. -/
def fmt02 (n : ℤ) : Str :=
  if n < 0 then '-' :: zeroPad 1 (natStr n.natAbs) else zeroPad 2 (natStr n.natAbs)

/-- The lines of `for line in StringIO(data)` (without the terminating newline, which every user
strips): split at `\n`; nothing follows a final newline. -/
def pyLines (data : Str) : List Str :=
  match (splitOn '\n' data).reverse with
  | [] :: l => l.reverse
  | l => l.reverse

end Verif.Py
