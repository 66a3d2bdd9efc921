import Verif.Spec.IpcRecord
import Verif.Spec.ToolTable

/-! # Lines of IPC-D-356 netlists and what they say -/

namespace Verif.Ipc
open Verif.Py Verif.Excellon.Spec

/-- A number of a path as it is written: with a number of digits. -/
structure Num where
  width : ℕ
  value : ℕ

/-- The digits. -/
def Num.text (n : Num) : Str := fixDigits n.width n.value

/-- The digits suffice. -/
def Num.Fits (n : Num) : Prop := 0 < n.width ∧ n.value < 10 ^ n.width

/-- A point of a path: the coordinates that are written. -/
structure Step where
  x : Option Num
  y : Option Num

/-- A letter and a number, or nothing. -/
def letterNum (c : Char) : Option Num → Str
  | some n => c :: n.text
  | none => []

/-- The word. -/
def Step.text (s : Step) : Str := letterNum 'X' s.x ++ letterNum 'Y' s.y

/-- At least one coordinate is written, with enough digits. -/
structure Step.Fits (s : Step) : Prop where
  some : s.x.isSome ∨ s.y.isSome
  x : ∀ n ∈ s.x, n.Fits
  y : ∀ n ∈ s.y, n.Fits

/-- The coordinate that holds after some steps: the last one written, or 0. -/
def lastNum (l : List (Option Num)) : ℕ :=
  match l.reverse.findSome? id with
  | some n => n.value
  | none => 0

/-- The points of a path: each coordinate is the last one written up to there. -/
def pathPoints (unit : ℚ) (steps : List Step) : List (ℚ × ℚ) :=
  (List.range steps.length).map fun i =>
    (lastNum ((steps.take (i + 1)).map Step.x) * unit, lastNum ((steps.take (i + 1)).map Step.y) * unit)

/-- The ways to choose units. -/
inductive UnitChoice
  | cust | cust0 | cust1 | cust2

/-- The words of the parameter. -/
def UnitChoice.words : UnitChoice → List Str
  | .cust => ["CUST".toList]
  | .cust0 => ["CUST".toList, "0".toList]
  | .cust1 => ["CUST".toList, "1".toList]
  | .cust2 => ["CUST".toList, "2".toList]

/-- Units of lengths and of angles. -/
def UnitChoice.units : UnitChoice → String × String
  | .cust => ("inch", "degrees")
  | .cust0 => ("inch", "degrees")
  | .cust1 => ("metric", "degrees")
  | .cust2 => ("inch", "radians")

/-- What a line of a netlist can say: a comment; units; a name for a net name variable; another parameter;
a test point; a conductor with its net, layer, size and shapes; a net with its neighbours; an outline with
its type and points; the end; something that is not understood. -/
inductive Line
  | comment (s : Str)
  | unit (u : UnitChoice)
  | naming (digits : Str) (name : List Str)
  | param (name : Str) (value : List Str)
  | point (p : Point)
  | conductor (net : Str) (layer : ℕ) (size : Step) (shapes : List (List Step))
  | adjacency (net : Str) (others : List Str)
  | outline (type : Str) (steps : List Step)
  | eof
  | other (s : Str)

/-- A net name variable. -/
def varName (digits : Str) : Str := "NNAME".toList ++ digits

/-- Words in one text, separated by single blanks. -/
def joined (ws : List Str) : Str := List.intercalate [' '] ws

/-- The text of a line.  Words may be separated by any white space.  The names of nets in conductors and the types
of outlines are in columns 4-17, the layer is in columns 20-21. -/
def Line.IsText : Line → Str → Prop
  | .comment s, t => t = "C  ".toList ++ s
  | .unit u, t => ∃ r, Laid ("UNITS".toList :: u.words) r ∧ t = "P ".toList ++ r
  | .naming d name, t => ∃ r, Laid (varName d :: name) r ∧ t = "P ".toList ++ r
  | .param name value, t => ∃ r, Laid (name :: value) r ∧ t = "P ".toList ++ r
  | .point p, t => t = p.line
  | .conductor net layer size shapes, t => ∃ g r bodies, (∀ c ∈ g, isSpace c = true) ∧
      (∀ c ∈ r.head?, isSpace c = true) ∧ r = List.intercalate ['*'] bodies ∧
      List.Forall₂ (fun sh b => Laid (sh.map Step.text) b) shapes bodies ∧
      t = "378".toList ++ pad 14 net ++ " L".toList ++ fixDigits 2 layer ++ " ".toList ++ g ++ size.text ++ r
  | .adjacency net others, t => ∃ r, Laid (net :: others) r ∧ t = "379".toList ++ r
  | .outline type steps, t => ∃ r, Laid (steps.map Step.text) r ∧ (∀ c ∈ r.head?, isSpace c = true) ∧
      t = "389".toList ++ pad 14 type ++ r
  | .eof, t => t = "999".toList
  | .other s, t => t = s

/-- The unit a line chooses. -/
def Line.unit? : Line → Option UnitChoice
  | .unit u => some u
  | _ => none

/-- The name a line gives to a variable. -/
def Line.name? (net : Str) : Line → Option Str
  | .naming d name => if varName d = net then some (joined name) else none
  | _ => none

/-- Units before a line: those chosen last, inch and degrees in the beginning. -/
def unitsAt (before : List Line) : String × String :=
  match before.reverse.findSome? Line.unit? with
  | some u => u.units
  | none => ("inch", "degrees")

/-- The name of a net before a line: the one last given to the variable, or the name itself. -/
def netAt (before : List Line) (net : Str) : Str :=
  (before.reverse.findSome? (Line.name? net)).getD net

/-- The values fit; a comment has no white space at its ends; another parameter is neither a known unit nor a
net name variable; types of outlines are words; rotations only occur in degrees; numbers of test points have a dash
before them or no sign; other lines do not begin like those. -/
def Line.Good (before : List Line) : Line → Prop
  | .comment s => strip s = s
  | .unit _ => True
  | .naming d _ => d ≠ [] ∧ d.all isDig = true
  | .param name value => ¬ "NNAME".toList <+: name ∧
      (name = "UNITS".toList → ∀ u : UnitChoice, value ≠ u.words)
  | .point p => p.Fits ∧ (p.dash = true ∨ ('-' ∉ p.pin ∧ 0 ≤ p.x ∧ 0 ≤ p.y)) ∧
      ((unitsAt before).2 = "degrees" ∨ p.rotation = none)
  | .conductor net layer size shapes => net.length ≤ 14 ∧ strip net = net ∧ layer < 100 ∧ size.Fits ∧
      shapes ≠ [] ∧ ∀ sh ∈ shapes, ∀ s ∈ sh, s.Fits
  | .adjacency _ _ => True
  | .outline type steps => type.length ≤ 14 ∧ (∀ c ∈ type, isSpace c = false) ∧ ∀ s ∈ steps, s.Fits
  | .eof => True
  | .other s => (∀ c ∈ s.head?, c ∉ ['C', 'P', '9', '0']) ∧
      s.take 3 ∉ ["317".toList, "327".toList, "367".toList, "378".toList, "379".toList, "389".toList]

end Verif.Ipc
