import Verif.Py.Basic

/-! # Tool tables: lines that define a drill tool -/

namespace Verif.Excellon.Spec
open Verif.Py

/-- A decimal number with a fixed number of places. -/
structure Decimal where
  whole : ℕ
  places : ℕ
  frac : ℕ

/-- Its text, like `12.50`. -/
def Decimal.text (d : Decimal) : Str := natStr d.whole ++ '.' :: fixDigits d.places d.frac

/-- Its value. -/
def Decimal.value (d : Decimal) : ℚ := d.whole + (d.frac : ℚ) / 10 ^ d.places

/-- The fraction fits into the places. -/
def Decimal.Fits (d : Decimal) : Prop := d.frac < 10 ^ d.places

/-- What a tool table says about the plating of a hole. -/
inductive Plating
  | plated
  | nonPlated
  | optional
  deriving DecidableEq

/-- The word for it in comments. -/
def Plating.word : Plating → Str
  | .plated => "PLATED".toList
  | .nonPlated => "NON_PLATED".toList
  | .optional => "OPTIONAL".toList

/-- The name for it in tools. -/
def Plating.name : Plating → String
  | .plated => "plated"
  | .nonPlated => "nonplated"
  | .optional => "optional"

/-- Units of tool tables. -/
inductive TableUnit
  | mils
  | mm
  deriving DecidableEq

/-- The unit as written in comments. -/
def TableUnit.word : TableUnit → Str
  | .mils => "MILS".toList
  | .mm => "MM".toList

/-- The size of the unit in the unit of the file. -/
def TableUnit.size (inch : Bool) : TableUnit → ℚ
  | .mils => if inch then 1 / 1000 else 254 / 10000
  | .mm => if inch then 10 / 254 else 1

/-- What a line of a tool table says. -/
structure ToolEntry where
  number : ℕ
  size : Decimal
  plusTol : Decimal
  minusTol : Decimal
  plating : Plating
  measure : TableUnit
  quantity : ℕ
  /-- the tool is named again in front (`T01 Holesize 1. = …`) -/
  prefixed : Bool

/-- The comment line that says it. -/
def ToolEntry.line (e : ToolEntry) : Str :=
  (if e.prefixed then 'T' :: natStr e.number ++ " Holesize ".toList else "Holesize ".toList) ++
    natStr e.number ++ ". = ".toList ++ e.size.text ++ " Tolerance = +".toList ++ e.plusTol.text ++ "/-".toList ++
    e.minusTol.text ++ " ".toList ++ e.plating.word ++ " ".toList ++ e.measure.word ++ " Quantity = ".toList ++
    natStr e.quantity

/-- The numbers fit. -/
structure ToolEntry.Fits (e : ToolEntry) : Prop where
  number : e.number < 100
  size : e.size.Fits
  plusTol : e.plusTol.Fits
  minusTol : e.minusTol.Fits

/-- A line of a table in which the size is given in mils, plating by the letters P and N, and columns are
separated by blanks. -/
structure TableEntry where
  number : ℕ
  size : Decimal
  plusTol : Decimal
  minusTol : Decimal
  plated : Bool
  gaps : Fin 4 → ℕ

/-- The line. -/
def TableEntry.line (e : TableEntry) : Str :=
  let gap := fun i => List.replicate (e.gaps i + 1) ' '
  e.size.text ++ gap 0 ++ [if e.plated then 'P' else 'N'] ++ gap 1 ++ 'T' :: fixDigits 2 e.number ++ gap 2 ++
    e.plusTol.text ++ gap 3 ++ e.minusTol.text

/-- The numbers fit. -/
structure TableEntry.Fits (e : TableEntry) : Prop where
  number : e.number < 100
  size : e.size.Fits
  plusTol : e.plusTol.Fits
  minusTol : e.minusTol.Fits

/-- `d` is the length `v` up to the accuracy of the conversion factor in the code. -/
def Near (d v : ℚ) : Prop := |d - v| ≤ v / 10 ^ 11

end Verif.Excellon.Spec

namespace Verif.Excellon.Spec
open Verif.Py

/-- A line of a tool table: a comment entry, a table entry, or something else. -/
inductive ToolItem
  | comment (e : ToolEntry)
  | table (e : TableEntry)
  | other (s : Str)

/-- Its text. -/
def ToolItem.text : ToolItem → Str
  | .comment e => e.line
  | .table e => e.line
  | .other s => s

/-- Numbers fit; a line that is something else has no line break and, after white space, does not begin like an
entry. -/
def ToolItem.Good : ToolItem → Prop
  | .comment e => e.Fits
  | .table e => e.Fits
  | .other s => '\n' ∉ s ∧ ∀ c ∈ (strip s).head?, isDig c = false ∧ c ≠ '/' ∧ c ≠ '.' ∧ c ≠ 'H' ∧ c ≠ 'T'

/-- What it says: number, diameter in the unit of the file, plating (if it is a comment). -/
def ToolItem.says (inch : Bool) : ToolItem → Option (ℕ × ℚ × Option Plating)
  | .comment e => some (e.number, e.size.value * e.measure.size inch, some e.plating)
  | .table e => some (e.number, e.size.value * TableUnit.mils.size inch, none)
  | .other _ => none

end Verif.Excellon.Spec

namespace Verif.Excellon.Spec
open Verif.Py

/-- A row of a tool report: number, size, plating mark, feed rate, speed, quantity. -/
structure ReportRow where
  number : ℕ
  size : Decimal
  mark : Str
  feed : ℕ
  speed : ℕ
  quantity : ℕ

/-- Its columns. -/
def ReportRow.columns (r : ReportRow) : List Str :=
  [natStr r.number, r.size.text, r.mark, natStr r.feed, natStr r.speed, natStr r.quantity]

/-- The plating that a mark stands for. -/
def markPlating (s : Str) : Option Plating :=
  if s = ['x'] then some .plated else if s = ['-'] then some .nonPlated else none

/-- A line of a report after the header: a row, a line of equal signs, or something that has not six columns. -/
inductive ReportItem
  | row (r : ReportRow)
  | rule (s : Str)
  | other (ws : List Str)

/-- The columns of a line. -/
def ReportItem.columns : ReportItem → List Str
  | .row r => r.columns
  | .rule s => ['=' :: s]
  | .other ws => ws

/-- A word: not empty, no white space. -/
def IsWord (s : Str) : Prop := s ≠ [] ∧ ∀ c ∈ s, isSpace c = false

/-- Numbers fit, marks are words; other lines have some other number of columns. -/
def ReportItem.Good : ReportItem → Prop
  | .row r => r.size.Fits ∧ IsWord r.mark
  | .rule s => ∀ c ∈ s, isSpace c = false
  | .other ws => ws.length ≠ 6 ∧ ∀ w ∈ ws, IsWord w

/-- `line` consists of the given words, separated and surrounded by blanks. -/
inductive Laid : List Str → Str → Prop
  | nil {s : Str} (h : ∀ c ∈ s, isSpace c = true) : Laid [] s
  | last {s w t : Str} (h : ∀ c ∈ s, isSpace c = true) (hw : IsWord w) (ht : ∀ c ∈ t, isSpace c = true) :
      Laid [w] (s ++ w ++ t)
  | cons {s w t : Str} {ws : List Str} (h : ∀ c ∈ s, isSpace c = true) (hw : IsWord w) (c : Char)
      (hc : isSpace c = true) (ht : Laid ws t) : Laid (w :: ws) (s ++ w ++ c :: t)

end Verif.Excellon.Spec

namespace Verif.Excellon.Spec
open Verif.Py

/-- The header line of a report, with gaps of any width. -/
def headerLine (g : Fin 5 → ℕ) : Str :=
  let gap := fun i => List.replicate (g i + 1) ' '
  "====".toList ++ gap 0 ++ "====".toList ++ gap 1 ++ "====".toList ++ gap 2 ++ "====".toList ++ gap 3 ++
    "=====".toList ++ gap 4 ++ "===".toList

end Verif.Excellon.Spec
