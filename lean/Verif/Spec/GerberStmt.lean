import Verif.Model.GerberStmt
import Verif.Model.Macro

/-! # Which Gerber statements are well formed (for C13)

Written without reference to the parser: which characters and digits the fields may have so that
the statement has a faithful text form. -/

namespace Verif.Gerber
open Verif.Py Verif.Cam

/-- ASCII letter. -/
def asciiLetter (c : Char) : Prop := ('a' ≤ c ∧ c ≤ 'z') ∨ ('A' ≤ c ∧ c ≤ 'Z')

/-- Macro name: at least two characters, letters, `_ $ .` and after the first also digits,
`+`, `-`. -/
def MacroName (s : Str) : Prop := ∃ c t, s = c :: t ∧ t ≠ [] ∧
  (asciiLetter c ∨ c ∈ ['_', '$', '.']) ∧
  ∀ d ∈ t, asciiLetter d ∨ isDig d = true ∨ d ∈ ['_', '$', '.', '+', '-']

/-- At most four significant digits. -/
def FourDigits (v : ℚ) : Prop := ∃ z k : ℤ, z.natAbs < 10 ^ 4 ∧ v = z * (10 : ℚ) ^ k

/-- A multiple of `10^-d` with at most `i + d` digits. -/
def OnGrid (fmt : ℕ × ℕ) (v : ℚ) : Prop :=
  ∃ n : ℤ, n.natAbs < 10 ^ (fmt.1 + fmt.2) ∧ v = n / 10 ^ fmt.2

/-- At most five decimals, absolute value from 0.0001 to below 100000, or zero. -/
def FiveDecimals (v : ℚ) : Prop := ∃ z : ℤ, (z = 0 ∨ 10 ≤ z.natAbs) ∧ z.natAbs < 10 ^ 10 ∧
  v = z / 10 ^ 5

/-- No line break and no parameter delimiter. -/
def Plain (s : Str) : Prop := ∀ c ∈ s, c ≠ '%' ∧ c ≠ '\r' ∧ c ≠ '\n'

/-- No white space directly before or after a line break. -/
def Tidy (s : Str) : Prop := s.IsChain fun a b =>
  (a = '\n' → Py.isSpace b = false) ∧ (b = '\n' → Py.isSpace a = false)

instance (s : Str) : Decidable (Tidy s) := by unfold Tidy; infer_instance

/-- `text` is `line` broken into lines. -/
def Broken (text line : Str) : Prop := line = text.filter (· ≠ '\n') ∧ Tidy text

instance (s t : Str) : Decidable (Broken s t) := by unfold Broken; infer_instance

/-- Format specifications for which C01 holds. -/
def FormatOK (st : FileSettings) : Prop :=
  st.format.1 ≤ 6 ∧ st.format.2 ≤ 7 ∧ (st.notation_ = "absolute" ∨ st.notation_ = "incremental") ∧
  (st.zeroSuppression = "leading" ∨
    (st.zeroSuppression = "trailing" ∧ 1 ≤ st.format.1 ∧ 1 ≤ st.format.2))

/-- Interpolation codes and operation codes. -/
def CodeOf (g : Char) (o : Option Str) : Prop :=
  o = none ∨ ∃ c ∈ ['1', '2', '3'], o = some [g, '0', c] ∨ o = some [g, c]

/-- Well-formed statement of a file written with settings `st`. -/
def WF (st : FileSettings) : Stmt → Prop
  | .fs z n f => z = st.zeroSuppression ∧ n = st.notation_ ∧ f = st.format
  | .mo mode => mode = "metric" ∨ mode = "inch"
  | .lp pol => pol = "clear" ∨ pol = "dark"
  | .ad _ shape mods =>
      (mods = [[]] ∧ (shape = ['C'] ∨ (MacroName shape ∧ shape.head? ≠ some 'C'))) ∨
      (∃ m, mods = [m] ∧ m ≠ [] ∧ (∀ v ∈ m, FourDigits v) ∧
        (shape = ['C'] ∨ shape = ['R'] ∨ shape = ['O'] ∨ shape = ['P'] ∨ MacroName shape))
  | .am name body built => MacroName name ∧ Plain body ∧
      (∃ text, built.flatten = text ++ ['*'] ∧ Broken ('*' :: text ++ ['*']) ('*' :: body ++ ['*'])) ∧
      ∃ is, Macro.readMacro body = .ok is
  | .as_ mode => mode = ['A', 'X', 'B', 'Y'] ∨ mode = ['A', 'Y', 'B', 'X']
  | .in_ name => Plain name
  | .ip pol => pol = "positive" ∨ pol = "negative"
  | .ir _ => True
  | .mi a b => (a = 0 ∨ a = 1) ∧ (b = 0 ∨ b = 1)
  | .of_ a b => FiveDecimals a ∧ FiveDecimals b
  | .sf a b => a = 1 ∧ b = 1
  | .ln name => Plain name
  | .deprecated line => line = ['G', '9', '0', '*'] ∨ line = ['G', '9', '1', '*']
  | .coord c => CodeOf 'G' c.function ∧ CodeOf 'D' c.op ∧ c ≠ {} ∧
      (∀ v, c.x = some v → OnGrid st.format v) ∧ (∀ v, c.y = some v → OnGrid st.format v) ∧
      (∀ v, c.i = some v → OnGrid st.format v) ∧ (∀ v, c.j = some v → OnGrid st.format v)
  | .aperture d dep => dep = true ∨ (d ≠ 1 ∧ d ≠ 2 ∧ d ≠ 3)
  | .comment text => Plain text ∧ '*' ∉ text
  | .eof => True
  | .quad mode => mode = "single-quadrant" ∨ mode = "multi-quadrant"
  | .region mode => mode = "on" ∨ mode = "off"
  | .unknown line =>
      (∃ c body, line = c :: body ++ ['*'] ∧ c ∉ "*%ADFGIJLMOSXY".toList ∧
        Py.isSpace c = false ∧ Plain (c :: body) ∧ '*' ∉ body) ∨
      (∃ c body, line = '%' :: (c :: body ++ ['*', '%']) ∧ c ∉ "AFILMOS".toList ∧ Plain (c :: body))

/-- Is this a format statement? -/
def isFS : Stmt → Bool
  | .fs _ _ _ => true
  | _ => false

/-- Well-formed list: every statement is well formed, and a coordinate statement comes only after
a format statement (`ready`: one has been seen). -/
def WFList (st : FileSettings) : Bool → List Stmt → Prop
  | _, [] => True
  | ready, s :: l => WF st s ∧ ((∃ c, s = .coord c) → ready = true) ∧
      WFList st (ready || isFS s) l

/-- The statement as a parser creates it: primitives of macros are not built yet. -/
def asRead : Stmt → Stmt
  | .am name body _ => .am name body []
  | s => s

end Verif.Gerber
