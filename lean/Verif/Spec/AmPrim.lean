import Verif.Model.AmPrim

/-! # Which macro primitives have a faithful text form (for C47, C48) -/

namespace Verif.Am

open Verif.Py

/-- At most `P` significant digits. -/
def Digits (P : ℕ) (v : ℚ) : Prop := ∃ z k : ℤ, z.natAbs < 10 ^ P ∧ v = z * (10 : ℚ) ^ k

/-- At most `P` significant digits, and neither so small nor so large that it is written with an
exponent. -/
def FixedDigits (P : ℕ) (v : ℚ) : Prop :=
  ∃ (z : ℤ) (p : ℕ), z.natAbs < 10 ^ P ∧ v = z / 10 ^ p ∧ (v = 0 ∨ 1 / 10 ^ 4 ≤ |v|)

/-- The requirements on the numbers of a shape primitive, where `D P v` is the requirement on a number
printed with `P` digits (15 is any number of digits that a float holds); and what the constructors
demand: an outline is closed, a polygon has 3 to 12 vertices, a vector line has code 2 or 20.
Comments and unknown primitives are not shapes. -/
def ShapeOK (D : ℕ → ℚ → Prop) : AmPrim → Prop
  | .circle _ d p => D 15 d ∧ D 15 p.1 ∧ D 15 p.2
  | .vectorLine code _ w s e r => (code = 2 ∨ code = 20) ∧ D 15 w ∧ D 15 s.1 ∧ D 15 s.2 ∧
      D 15 e.1 ∧ D 15 e.2 ∧ D 15 r
  | .outline _ s ps r => ps.getLast? = some s ∧ ps.length < 10 ^ 15 ∧ D 6 s.1 ∧ D 6 s.2 ∧
      (∀ q ∈ ps, D 6 q.1 ∧ D 6 q.2) ∧ D 15 r
  | .polygon _ n p d r => (3 ≤ n ∧ n ≤ 12) ∧ D 4 p.1 ∧ D 4 p.2 ∧ D 4 d ∧ D 15 r
  | .moire p d t g n ct cl r => D 4 p.1 ∧ D 4 p.2 ∧ D 15 d ∧ D 15 t ∧ D 15 g ∧ n.natAbs < 10 ^ 15 ∧
      D 15 ct ∧ D 15 cl ∧ D 15 r
  | .thermal p o i g r => D 4 p.1 ∧ D 4 p.2 ∧ D 15 o ∧ D 15 i ∧ D 15 g ∧ D 15 r
  | .centerLine _ w h c r => D 15 w ∧ D 15 h ∧ D 4 c.1 ∧ D 4 c.2 ∧ D 15 r
  | .lowerLeft _ w h c r => D 15 w ∧ D 15 h ∧ D 4 c.1 ∧ D 4 c.2 ∧ D 15 r
  | .comment _ => False
  | .unsupported _ => False

/-- A comment text as the constructor stores it: no blank and no star at its ends. -/
def CommentOK (c : Str) : Prop :=
  (∀ x ∈ c.head?, x ≠ ' ' ∧ x ≠ '*') ∧ (∀ x ∈ c.getLast?, x ≠ ' ' ∧ x ≠ '*')

/-- The text of a primitive with a code that the package does not know. -/
def UnknownText (t : Str) : Prop :=
  ∃ c r, t = c :: r ∧ c ∉ ['0', '1', '4', '5', '6', '7'] ∧
    (c = '2' → ∀ d ∈ r.head?, d ∉ [',', '0', '1', '2'])

/-- A primitive whose values have at most the printed number of digits. -/
def Printable : AmPrim → Prop
  | .comment c => CommentOK c
  | .unsupported t => UnknownText t
  | p => ShapeOK Digits p

/-- Is it a shape? -/
def isShape : AmPrim → Bool
  | .comment _ => false
  | .unsupported _ => false
  | _ => true

end Verif.Am
