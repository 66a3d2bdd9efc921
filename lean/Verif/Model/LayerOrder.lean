import Verif.Model.Layers

/-! # Comparing layers, and Python's sort (gerber/layers.py:174, 267-295)

`list.sort` of CPython calls `x < y` of the elements: it looks for an ascending or strictly descending run at the
beginning, reverses a descending one, and puts every further element at its place, found by bisection.

Simplification: this is what it does for fewer than 64 elements; longer lists are split into runs that are made this way
and then merged. -/

namespace Verif.Layers

open Verif.Py

/-- A comparison with another layer that is decided by `InternalLayer` (layers.py:267-295): it raises `TypeError` if the other
has no `order`.  A layer without `order` on the left leaves the decision to the one on the right, by the reflected method. -/
def Layer.compare (f : ℤ → ℤ → Bool) (a b : Layer) : PyR Bool :=
  match a.order, b.order with
  | some x, some y => .ok (f x y)
  | _, _ => .error .typeError

/-- `a > b` (layers.py:277-280); layers without `order` have no such method. -/
def Layer.gt : Layer → Layer → PyR Bool := Layer.compare fun x y => x > y

/-- `a >= b` (layers.py:287-290). -/
def Layer.ge : Layer → Layer → PyR Bool := Layer.compare fun x y => x ≥ y

/-- `a <= b` (layers.py:292-295). -/
def Layer.atMost : Layer → Layer → PyR Bool := Layer.compare fun x y => x ≤ y

/-- `a == b` (layers.py:267-270): of two layers without `order`, whether they are the same object. -/
def Layer.eq (same : Bool) (a b : Layer) : PyR Bool :=
  if a.order = none ∧ b.order = none then .ok same else Layer.compare (fun x y => x = y) a b

/-- `a != b` (layers.py:272-275). -/
def Layer.ne (same : Bool) (a b : Layer) : PyR Bool :=
  if a.order = none ∧ b.order = none then .ok !same else Layer.compare (fun x y => x ≠ y) a b

section Sorting

variable {α : Type} (lt : α → α → PyR Bool)

/-- Bisection (`binarysort` of listobject.c): where to put `x` in `l`, between `lo` and `hi` (layers.py:174-175). -/
def search (x : α) (l : List α) (lo hi : ℕ) : PyR ℕ :=
  if lo < hi then
    match l[lo + (hi - lo) / 2]? with
    | none => .error .indexError
    | some y => do
      if ← lt x y then search x l lo (lo + (hi - lo) / 2)
      else search x l (lo + (hi - lo) / 2 + 1) hi
  else .ok lo
termination_by hi - lo

/-- `binarysort`: every element of the second list is put into the first (layers.py:174-175). -/
def insertAll : List α → List α → PyR (List α)
  | done, [] => .ok done
  | done, x :: rest => do
    let k ← search lt x done 0 done.length
    insertAll (done.insertIdx k x) rest

/-- `count_run`: how the run goes on after `last`, and what follows it (layers.py:174-175). -/
def runFrom (down : Bool) : α → List α → PyR (List α × List α)
  | _, [] => .ok ([], [])
  | last, x :: rest => do
    if (← lt x last) = down then
      let (r, t) ← runFrom down x rest
      .ok (x :: r, t)
    else .ok ([], x :: rest)

/-- `list.sort` (layers.py:174-175). -/
def pySort : List α → PyR (List α)
  | x :: y :: rest => do
    let down ← lt y x
    let (r, t) ← runFrom lt down y rest
    insertAll lt (if down then (x :: y :: r).reverse else x :: y :: r) t
  | l => .ok l

end Sorting

end Verif.Layers
