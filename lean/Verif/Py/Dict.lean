import Mathlib.Data.List.Basic

/-! # Python dictionaries: association lists in insertion order -/

namespace Verif.Py

/-- `d.get(k)`. -/
def dictGet {κ α : Type} [DecidableEq κ] (d : List (κ × α)) (k : κ) : Option α :=
  match d with
  | [] => none
  | x :: d => if x.1 = k then some x.2 else dictGet d k

/-- `d[k] = v`: replaces the value in place or appends. -/
def dictSet {κ α : Type} [DecidableEq κ] (d : List (κ × α)) (k : κ) (v : α) : List (κ × α) :=
  match d with
  | [] => [(k, v)]
  | x :: d => if x.1 = k then (k, v) :: d else x :: dictSet d k v

end Verif.Py
