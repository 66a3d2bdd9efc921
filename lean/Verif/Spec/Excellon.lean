import Verif.Model.Excellon

/-! # What a drill program means

An independent reading of a list of Excellon statements: a machine with a position, a notation, a phase
and a spindle that is up or down.  It knows nothing of text, tools or error handling.  Only the
statement type `Kind` is shared with the model. -/

namespace Verif.Excellon.Spec
open Verif.Py Verif.Excellon

/-- What is made in the board. -/
inductive Feature
  | hole (pos : ℚ × ℚ)
  | slot (start stop : Option ℚ × Option ℚ)
  deriving DecidableEq

/-- Phases of a program. -/
inductive Phase
  | init | header | drill | rout | linear
  deriving DecidableEq

/-- The machine. -/
structure Mach where
  incremental : Bool
  pos : ℚ × ℚ
  phase : Phase
  down : Bool
  deriving DecidableEq

/-- A new coordinate: replaces the old one in absolute notation, is added in incremental notation;
an omitted one changes nothing. -/
def axis (incremental : Bool) (old : ℚ) : Option ℚ → ℚ
  | none => old
  | some v => if incremental then old + v else v

/-- The position after a coordinate command. -/
def Mach.goto (m : Mach) (x y : Option ℚ) : Mach :=
  { m with pos := (axis m.incremental m.pos.1 x, axis m.incremental m.pos.2 y) }

/-- Holes are drilled in this phase (also in the header, as the parser accepts). -/
def Phase.drills : Phase → Bool
  | .drill => true
  | .header => true
  | _ => false

/-- The header ends. -/
def Phase.leaveHeader : Phase → Phase
  | .header => .drill
  | p => p

/-- `n` points at distance `(dx, dy)` of each other, beginning one step after `p`. -/
def row (p : ℚ × ℚ) (dx dy : ℚ) (n : ℕ) : List (ℚ × ℚ) :=
  (List.range n).map fun k : ℕ => (p.1 + ((k : ℚ) + 1) * dx, p.2 + ((k : ℚ) + 1) * dy)

/-- Does a comment begin a header? -/
def beginsHeader (t : Str) : Bool := isInfix "HEADER:".toList t || isInfix " Holesize ".toList t

/-- The machine after a statement. -/
def Mach.next (m : Mach) : Kind → Mach
  | .comment t => if beginsHeader t then { m with phase := .header } else m
  | .headerBegin => { m with phase := .header }
  | .headerEnd => { m with phase := m.phase.leaveHeader }
  | .rewindStop => { m with phase := match m.phase with
      | .init => .header
      | p => p.leaveHeader }
  | .zRout => { m with down := true }
  | .retractClamp => { m with down := false }
  | .retractNoClamp => { m with down := false }
  | .drillMode => { m with down := false, phase := .drill }
  | .incr mode => { m with incremental := decide (mode = "on") }
  | .absMode => { m with incremental := false }
  | .coord x y none => m.goto x y
  | .coord x y (some mode) =>
    { m with phase := if mode = "ROUT" then .rout else .linear }.goto x y
  | .rep n dx dy => { m with pos := (m.pos.1 + n.toNat * dx.getD 0, m.pos.2 + n.toNat * dy.getD 0) }
  | .slot _ _ x y => m.goto x y
  | _ => m

/-- What a statement makes when executed by machine `m`. -/
def Mach.makes (m : Mach) : Kind → List Feature
  | .coord x y none =>
    if m.phase = .linear ∧ m.down then [.slot (both m.pos) (both (m.goto x y).pos)]
    else if m.phase.drills then [.hole (m.goto x y).pos] else []
  | .coord x y (some mode) =>
    if mode ≠ "ROUT" ∧ m.down then [.slot (both m.pos) (both (m.goto x y).pos)] else []
  | .rep n dx dy => (row m.pos (dx.getD 0) (dy.getD 0) n.toNat).map .hole
  | .slot x1 y1 x2 y2 => if m.phase.drills then [.slot (x1, y1) (x2, y2)] else []
  | _ => []

/-- The machine after a program. -/
def Mach.after (m : Mach) (l : List Kind) : Mach := l.foldl Mach.next m

/-- Everything a program makes, in order. -/
def Mach.all (m : Mach) : List Kind → List Feature
  | [] => []
  | k :: l => m.makes k ++ (m.next k).all l

/-- The statement is a coordinate without `G01` that cuts a slot. -/
def Mach.cutsBare (m : Mach) : Kind → Bool
  | .coord _ _ none => decide (m.phase = .linear) && m.down
  | _ => false

/-- Some coordinate without `G01` cuts a slot. -/
def Mach.anyBare (m : Mach) : List Kind → Bool
  | [] => false
  | k :: l => m.cutsBare k || (m.next k).anyBare l

/-- The machine at the beginning of a file. -/
def Mach.start (incremental : Bool) : Mach := ⟨incremental, (0, 0), .init, false⟩

/-- The last given value, or `d`: the coordinate after a list of absolute ones. -/
def lastGiven (d : ℚ) (l : List (Option ℚ)) : ℚ := (l.filterMap id).getLastD d

/-- The running sum: the coordinate after a list of incremental ones. -/
def total (d : ℚ) (l : List (Option ℚ)) : ℚ := d + (l.filterMap id).sum

/-! ## Numbers that can be written -/

/-- A number format with at least one and not too many digits. -/
def GoodFormat (f : ℕ × ℕ) : Prop := 1 ≤ f.1 ∧ f.1 ≤ 6 ∧ 1 ≤ f.2 ∧ f.2 ≤ 7

/-- The number is a multiple of the last digit of the format and fits in it. -/
def OnGrid (f : ℕ × ℕ) (v : ℚ) : Prop := ∃ n : ℤ, v = n / 10 ^ f.2 ∧ n.natAbs < 10 ^ (f.1 + f.2)

/-- The number, if given, is on the grid. -/
def OptGrid (f : ℕ × ℕ) (v : Option ℚ) : Prop := ∀ x, v = some x → OnGrid f x

end Verif.Excellon.Spec
