import Verif.Model.Excellon

/-! # The order of holes: examples/excellon_optimize.py

The script reads a drill file, gives the distances between the holes of each tool to a solver, puts the holes in the
order the solver returns and writes the file.  Of the solver (package `tsp_solver`) only the places it returns count.
Not modelled: the choice of file names and what is printed; computing the path lengths that are printed raises for the
same files as `positionsOf`. -/

namespace Verif.Excellon
open Verif.Py

/-- The positions of the hits by tool number (excellon_optimize.py:52-61).  A slot has no `position`. -/
def positionsOf (f : XFile) : PyR (List (ℤ × List (ℚ × ℚ))) :=
  f.hits.foldlM (fun d h => do
    let n ← hitNumber f.heap h
    match h with
    | .hole _ p => .ok (dictSet d n ((dictGet d n).getD [] ++ [p]))
    | .slot _ _ _ _ => .error .attributeError) []

/-- `positions[tool]` (examples/excellon_optimize.py:70-71). -/
def positionsGet (pos : List (ℤ × List (ℚ × ℚ))) (n : ℤ) : PyR (List (ℚ × ℚ)) :=
  match dictGet pos n with
  | none => .error .keyError
  | some l => .ok l

/-- The positions whose distances are computed, `count` of them (excellon_optimize.py:69-74). -/
def measured (pos : List (ℤ × List (ℚ × ℚ))) (n : ℤ) (count : ℕ) : PyR (List (ℚ × ℚ)) :=
  if count = 0 then .ok [] else do
    let l ← positionsGet pos n
    if count ≤ l.length then .ok (l.take count) else .error .indexError

/-- The holes of one tool in the new order (excellon_optimize.py:66-79).  The solver is a function of the distances, so
of the positions measured, and returns places. -/
def reorder (solve : List (ℚ × ℚ) → List ℕ) (f : XFile) (pos : List (ℤ × List (ℚ × ℚ))) (n : ℤ) (count : ℕ) :
    PyR (List Hit) := do
  let ps ← measured pos n count
  (solve ps).mapM fun i => do
    match dictGet f.tools n with
    | none => .error .keyError
    | some r => do
      let l ← positionsGet pos n
      let p ← pyIdx l i
      .ok (.hole (some r) p)

/-- The script up to writing (excellon_optimize.py:49-82). -/
def XFile.optimize (solve : List (ℚ × ℚ) → List ℕ) (f : XFile) : PyR XFile := do
  let counts ← f.hitCounts
  let pos ← positionsOf f
  let hits ← counts.mapM fun x => reorder solve f pos x.1 x.2
  .ok { f with hits := hits.flatten }

end Verif.Excellon
