import Verif.Model.Macro

/-! # Arithmetic expressions of aperture macros and their meaning (for C10, C11)

The grammar is the conventional one: a sum of terms, a term is a product of factors, both
left associative; a factor is a number, a variable or a sum in parentheses. -/

namespace Verif.Macro
open Verif.Py

/-- An unsigned decimal literal: integer digits and, if there is a point, fraction digits. -/
structure Lit where
  ip : Str
  fp : Option Str

def Lit.text (l : Lit) : Str := l.ip ++ match l.fp with
  | none => []
  | some f => '.' :: f

def Lit.value (l : Lit) : ℚ := natVal (l.ip ++ l.fp.getD []) / 10 ^ (l.fp.getD []).length

/-- Digits only, at least one digit or a point; no superfluous leading zero. -/
def Lit.WF (l : Lit) : Prop :=
  l.ip.all isDig = true ∧ (∀ f, l.fp = some f → f.all isDig = true) ∧
  (l.ip = [] → l.fp ≠ none) ∧ (l.ip = ['0'] ∨ l.ip.head? ≠ some '0')

mutual
/-- sum: term, sum + term, sum - term -/
inductive Sum
  | term (t : Term)
  | add (e : Sum) (t : Term)
  | sub (e : Sum) (t : Term)
/-- product: factor, term x factor (`x` or `X`), term / factor -/
inductive Term
  | fac (f : Fac)
  | mul (t : Term) (upper : Bool) (f : Fac)
  | div (t : Term) (f : Fac)
/-- number, variable `$n`, sum in parentheses -/
inductive Fac
  | num (l : Lit)
  | var (n : ℕ)
  | par (e : Sum)
end

/-- Multiplication sign. -/
def mulChar (upper : Bool) : Char := if upper then 'X' else 'x'

mutual
/-- Written form. -/
def Sum.text : Sum → Str
  | .term t => t.text
  | .add e t => e.text ++ '+' :: t.text
  | .sub e t => e.text ++ '-' :: t.text
def Term.text : Term → Str
  | .fac f => f.text
  | .mul t u f => t.text ++ mulChar u :: f.text
  | .div t f => t.text ++ '/' :: f.text
def Fac.text : Fac → Str
  | .num l => l.text
  | .var n => '$' :: natStr n
  | .par e => '(' :: (e.text ++ [')'])
end

mutual
/-- Value when `-` means `minus`; `none` if a division by zero occurs.  If `m`, the leftmost number is taken
negative (the expression was preceded by a minus sign). -/
def Sum.valueWith (minus : ℚ → ℚ → ℚ) (ρ : ℕ → ℚ) (m : Bool) : Sum → Option ℚ
  | .term t => t.valueWith minus ρ m
  | .add e t => do
    let a ← e.valueWith minus ρ m
    let b ← t.valueWith minus ρ false
    some (a + b)
  | .sub e t => do
    let a ← e.valueWith minus ρ m
    let b ← t.valueWith minus ρ false
    some (minus a b)
def Term.valueWith (minus : ℚ → ℚ → ℚ) (ρ : ℕ → ℚ) (m : Bool) : Term → Option ℚ
  | .fac f => f.valueWith minus ρ m
  | .mul t _ f => do
    let a ← t.valueWith minus ρ m
    let b ← f.valueWith minus ρ false
    some (a * b)
  | .div t f => do
    let a ← t.valueWith minus ρ m
    let b ← f.valueWith minus ρ false
    if b = 0 then none else some (a / b)
def Fac.valueWith (minus : ℚ → ℚ → ℚ) (ρ : ℕ → ℚ) (m : Bool) : Fac → Option ℚ
  | .num l => some (if m then -l.value else l.value)
  | .var n => some (ρ n)
  | .par e => e.valueWith minus ρ m
end

/-- Conventional value of an expression. -/
def Sum.value (ρ : ℕ → ℚ) (m : Bool) (e : Sum) : Option ℚ := e.valueWith (fun a b => a - b) ρ m

mutual
/-- Every literal is well formed. -/
def Sum.WF : Sum → Prop
  | .term t => t.WF
  | .add e t => e.WF ∧ t.WF
  | .sub e t => e.WF ∧ t.WF
def Term.WF : Term → Prop
  | .fac f => f.WF
  | .mul t _ f => t.WF ∧ f.WF
  | .div t f => t.WF ∧ f.WF
def Fac.WF : Fac → Prop
  | .num l => l.WF
  | .var _ => True
  | .par e => e.WF
end

mutual
/-- No subtraction. -/
def Sum.NoSub : Sum → Prop
  | .term t => t.NoSub
  | .add e t => e.NoSub ∧ t.NoSub
  | .sub _ _ => False
def Term.NoSub : Term → Prop
  | .fac f => f.NoSub
  | .mul t _ f => t.NoSub ∧ f.NoSub
  | .div t f => t.NoSub ∧ f.NoSub
def Fac.NoSub : Fac → Prop
  | .num _ => True
  | .var _ => True
  | .par e => e.NoSub
end

mutual
/-- The first operand is a number other than a bare `0`. -/
def Sum.StartsNum : Sum → Prop
  | .term t => t.StartsNum
  | .add e _ => e.StartsNum
  | .sub e _ => e.StartsNum
def Term.StartsNum : Term → Prop
  | .fac f => f.StartsNum
  | .mul t _ _ => t.StartsNum
  | .div t _ => t.StartsNum
def Fac.StartsNum : Fac → Prop
  | .num l => l.text ≠ ['0']
  | .var _ => False
  | .par _ => False
end

/-- A modifier of a primitive: an expression, possibly preceded by a minus sign; before it there may
be white space (line breaks). -/
structure Modifier where
  neg : Bool
  e : Sum
  sp : Str := []

def Modifier.text (m : Modifier) : Str := m.sp ++ (if m.neg then ['-'] else []) ++ m.e.text

def Modifier.valueWith (minus : ℚ → ℚ → ℚ) (ρ : ℕ → ℚ) (m : Modifier) : Option ℚ :=
  m.e.valueWith minus ρ m.neg

/-- Conventional value of a modifier. -/
def Modifier.value (ρ : ℕ → ℚ) (m : Modifier) : Option ℚ := m.e.value ρ m.neg

def Modifier.WF (m : Modifier) : Prop :=
  m.e.WF ∧ (m.neg = true → m.e.StartsNum) ∧ m.sp.all isSpace = true

/-- A block of a macro. -/
inductive Block
  /-- a primitive with its modifiers -/
  | prim (code : ℕ) (mods : List Modifier)
  /-- a variable definition -/
  | eqn (n : ℕ) (e : Sum)
  /-- a comment -/
  | comment (text : Str)
  /-- nothing but white space -/
  | blank (text : Str)

def Block.text : Block → Str
  | .prim code mods => natStr code ++ mods.flatMap fun m => ',' :: m.text
  | .eqn n e => '$' :: (natStr n ++ '=' :: e.text)
  | .comment t => '0' :: ' ' :: t
  | .blank t => t

def Block.WF : Block → Prop
  | .prim code mods => 1 ≤ code ∧ mods ≠ [] ∧ ∀ m ∈ mods, m.WF
  | .eqn _ e => e.WF
  | .comment t => '*' ∉ t ∧ '=' ∉ t
  | .blank t => t.all isSpace = true

/-- No modifier that does not itself start with a minus sign contains a subtraction. -/
def Block.SubOk : Block → Prop
  | .prim _ mods => ∀ m ∈ mods, m.neg = true ∨ m.e.NoSub
  | .eqn _ _ => True
  | .comment _ => True
  | .blank _ => True

/-- No subtraction at all. -/
def Block.NoSub : Block → Prop
  | .prim _ mods => ∀ m ∈ mods, m.e.NoSub
  | .eqn _ e => e.NoSub
  | .comment _ => True
  | .blank _ => True

/-- A macro: blocks separated by `*`. -/
def macroText : List Block → Str
  | [] => []
  | [b] => b.text
  | b :: l => b.text ++ '*' :: macroText l

/-- Values of the modifiers of a primitive. -/
def modValuesWith (minus : ℚ → ℚ → ℚ) (ρ : ℕ → ℚ) : List Modifier → Option (List ℚ)
  | [] => some []
  | m :: l => do
    let v ← m.valueWith minus ρ
    let r ← modValuesWith minus ρ l
    some (v :: r)

/-- Meaning of a macro when `-` means `minus`: the primitives in order, each with the values of its
own modifiers under the variables defined so far; comments appear as code 0. -/
def meaningWith (minus : ℚ → ℚ → ℚ) : (ℕ → ℚ) → List Block → Option (List Out)
  | _, [] => some []
  | ρ, .prim code mods :: l => do
    let vs ← modValuesWith minus ρ mods
    let r ← meaningWith minus ρ l
    some ((code, vs.map .num) :: r)
  | ρ, .eqn n e :: l => do
    let v ← e.valueWith minus ρ false
    meaningWith minus (fun k => if k = n then v else ρ k) l
  | ρ, .comment t :: l => do
    let r ← meaningWith minus ρ l
    some ((0, [.txt (strip t)]) :: r)
  | ρ, .blank _ :: l => meaningWith minus ρ l

/-- Conventional meaning of a macro. -/
def meaning : (ℕ → ℚ) → List Block → Option (List Out) := meaningWith fun a b => a - b

/-- The result of evaluation that has the given meaning; the only failure is a division by zero. -/
def asResult : Option (List Out) → PyR (List Out)
  | some o => .ok o
  | none => .error .zeroDivisionError

/-- Variables `$1`, `$2`, ... of a macro used with the given modifiers; others are 0. -/
def paramValues (mods : List ℚ) (n : ℕ) : ℚ := if n = 0 then 0 else mods.getD (n - 1) 0

end Verif.Macro
