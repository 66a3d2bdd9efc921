import Verif.Py.Basic

/-! # Test records of IPC-D-356 netlists, by columns -/

namespace Verif.Ipc
open Verif.Py

/-- The kinds of test records that are read as such: operation codes 317, 327, 367. -/
inductive RecKind
  | throughHole
  | surfaceMount
  | unplatedTooling
  deriving DecidableEq

/-- What a test record says: net name, identification, pin, whether the point is in the middle of the
net, drilled hole, plating, accessible side, position, size and rotation of the pad, solder mask.
`dash` is the mark between identification and pin; `plus` is the sign written for numbers that are not
negative. -/
structure Point where
  kind : RecKind
  net : Str
  id : Str
  dash : Bool
  pin : Str
  middle : Bool
  hole : Option ℕ
  plated : Bool
  access : Fin 9
  x : ℤ
  y : ℤ
  plus : Char
  rectX : Option ℕ
  rectY : Option ℕ
  rotation : Option ℕ
  mask : Fin 4

/-- Text filled up with blanks. -/
def pad (n : ℕ) (s : Str) : Str := s ++ List.replicate (n - s.length) ' '

/-- An optional number with a fixed number of digits, or blanks. -/
def optDigits (n : ℕ) : Option ℕ → Str
  | some v => fixDigits n v
  | none => List.replicate n ' '

/-- A coordinate: sign and six digits. -/
def coord7 (plus : Char) (v : ℤ) : Str := (if v < 0 then '-' else plus) :: fixDigits 6 v.natAbs

/-- Second character of the operation code. -/
def RecKind.code : RecKind → Char
  | .throughHole => '1'
  | .surfaceMount => '2'
  | .unplatedTooling => '6'

/-- The columns of the record, in order: operation code (1-3), net (4-17), blanks (18-20),
identification (21-26), dash (27), pin (28-31), middle (32), hole (33-37), plating (38), access
(39-41), position (42-57), size (58-67), rotation (68-71), blank (72), solder mask (73-74). -/
def Point.columns (p : Point) : List Str :=
  [['3'], [p.kind.code], ['7'], pad 14 p.net, [' ', ' ', ' '], pad 6 p.id, [if p.dash then '-' else ' '],
   pad 4 p.pin, [if p.middle then 'M' else ' '], [if p.hole.isSome then 'D' else ' '], optDigits 4 p.hole,
   [if p.plated then 'P' else 'U'], ['A'], fixDigits 2 p.access, ['X'], coord7 p.plus p.x, ['Y'],
   coord7 p.plus p.y, ['X'], optDigits 4 p.rectX, ['Y'], optDigits 4 p.rectY, ['R'],
   optDigits 3 p.rotation, [' '], ['S'], [digChar p.mask]]

/-- The line. -/
def Point.line (p : Point) : Str := p.columns.flatten

/-- The values fit into their columns; names have no white space at their ends. -/
structure Point.Fits (p : Point) : Prop where
  net : p.net.length ≤ 14 ∧ strip p.net = p.net
  id : p.id.length ≤ 6 ∧ strip p.id = p.id
  pin : p.pin.length ≤ 4 ∧ strip p.pin = p.pin
  hole : ∀ v, p.hole = some v → v < 10000
  x : p.x.natAbs < 1000000
  y : p.y.natAbs < 1000000
  plus : p.plus = '+' ∨ p.plus = ' '
  rectX : ∀ v, p.rectX = some v → v < 10000
  rectY : ∀ v, p.rectY = some v → v < 10000
  rotation : ∀ v, p.rotation = some v → v < 1000

/-- Names of the kinds. -/
def RecKind.name : RecKind → String
  | .throughHole => "through-hole"
  | .surfaceMount => "smt"
  | .unplatedTooling => "non-plated-tooling-hole"

/-- Names of the accessible sides. -/
def accessName : Fin 9 → String
  | 0 => "both"
  | 1 => "top"
  | 2 => "layer2"
  | 3 => "layer3"
  | 4 => "layer4"
  | 5 => "layer5"
  | 6 => "layer6"
  | 7 => "layer7"
  | 8 => "bottom"

/-- Names of the sides covered by solder mask. -/
def maskName : Fin 4 → String
  | 0 => "none"
  | 1 => "primary side"
  | 2 => "secondary side"
  | 3 => "both"

/-- The unit of the numbers: a ten-thousandth of an inch, or a micrometre (in millimetres). -/
def unitSize (units : String) : ℚ := if units = "inch" then 1 / 10000 else 1 / 1000

/-- A netlist with a unit statement (metric or not), names given to net name variables, and points. -/
structure Board where
  metric : Bool
  aliases : List (ℕ × Str)
  points : List Point

/-- The variable of an alias. -/
def variableName (k : ℕ) : Str := "NNAME".toList ++ natStr k

/-- The line that gives a name to a variable. -/
def aliasLine (a : ℕ × Str) : Str := "P  ".toList ++ variableName a.1 ++ "  ".toList ++ a.2

/-- The line that chooses the units. -/
def unitLine (metric : Bool) : Str := if metric then "P  UNITS CUST 1".toList else "P  UNITS CUST 0".toList

/-- The lines of the file. -/
def Board.lines (b : Board) : List Str :=
  unitLine b.metric :: b.aliases.map aliasLine ++ b.points.map Point.line ++ ["999".toList]

/-- A net name: the last name given to the variable, or the name itself. -/
def Board.netOf (b : Board) (net : Str) : Str :=
  match b.aliases.reverse.find? fun a => variableName a.1 = net with
  | some a => a.2
  | none => net

/-- The units. -/
def Board.units (b : Board) : String := if b.metric then "metric" else "inch"

end Verif.Ipc
