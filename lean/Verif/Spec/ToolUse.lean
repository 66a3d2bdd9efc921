import Verif.Spec.Excellon

/-! # Which tool a drill program uses

A drilling machine with a rack of tools, reading the statements of a program.  Tools are references to tool objects;
`num` gives their numbers. -/

namespace Verif.Excellon.Spec
open Verif.Py Verif.Excellon

/-- The rack: the tool for every number, the tool in the spindle, and whether a tool was asked for that is not there. -/
structure Rack where
  table : ℤ → Option ℕ
  cur : Option ℕ
  missing : Bool

/-- The rack before the program: the tools described outside the file, in the order of the description. -/
def Rack.start (ext : List (ℤ × Tool)) : Rack := ⟨fun n => ext.findIdx? fun x => x.1 == n, none, false⟩

/-- Put a tool in the rack under a number. -/
def Rack.define (R : Rack) (n : ℤ) (r : ℕ) : Rack := { R with table := fun k => if k = n then some r else R.table k }

/-- Take the tool with the number `n`. -/
def Rack.take (R : Rack) (n : ℤ) : Rack :=
  { R with cur := R.table n, missing := R.missing || (R.table n).isNone }

/-- Before something is made: without a tool in the spindle tool 1 is taken. -/
def Rack.need (R : Rack) : Rack := match R.cur with
  | some _ => R
  | none => R.take 1

/-- The effect of a statement that makes nothing. -/
def Rack.next (num : ℕ → Option ℤ) (R : Rack) : Kind → Rack
  | .tool r => match num r with
    | some n => R.define n r
    | none => R
  | .toolSel n _ => if n = 0 then R else R.take n
  | .nextTool _ _ => match R.cur.bind num with
    | some n => R.take (n + 1)
    | none => { R with missing := true }
  | _ => R

/-- The effect of a statement executed by machine `m`. -/
def Rack.step (num : ℕ → Option ℤ) (m : Mach) (R : Rack) (k : Kind) : Rack :=
  if m.makes k = [] then R.next num k else R.need

/-- The rack after a program. -/
def Rack.after (num : ℕ → Option ℤ) : Mach → Rack → List Kind → Rack
  | _, R, [] => R
  | m, R, k :: l => Rack.after num (m.next k) (R.step num m k) l

/-- The tools used for everything a program makes, in order. -/
def Rack.used (num : ℕ → Option ℤ) : Mach → Rack → List Kind → List (Option ℕ)
  | _, _, [] => []
  | m, R, k :: l => List.replicate (m.makes k).length (R.step num m k).cur ++
      Rack.used num (m.next k) (R.step num m k) l

/-- The numbers of the tools of a file. -/
def numbers (heap : List Tool) (r : ℕ) : Option ℤ := (heap[r]?).map (·.number)

/-- Neither defines nor changes the tool. -/
def keepsTool : Kind → Bool
  | .tool _ => false
  | .toolSel _ _ => false
  | .nextTool _ _ => false
  | _ => true

/-- `M00` that found no next tool. -/
def noNext : Kind → Bool
  | .nextTool _ none => true
  | _ => false

/-- Does the statement define a tool with number `n`? -/
def definesNumber (num : ℕ → Option ℤ) (n : ℤ) : Kind → Bool
  | .tool r => num r == some n
  | _ => false

end Verif.Excellon.Spec
