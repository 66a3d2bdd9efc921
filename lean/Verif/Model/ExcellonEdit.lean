import Mathlib.Analysis.Real.Sqrt
import Verif.Model.Excellon

/-! # Editing and measuring drill files (gerber/excellon.py, class `ExcellonFile`) -/

namespace Verif.Excellon
open Verif.Py Verif.Cam

/-- `math.hypot(a, b)`, exact (excellon.py:332-333). -/
noncomputable def hypot (a b : ℚ) : ℝ := Real.sqrt ((a : ℝ) ^ 2 + (b : ℝ) ^ 2)

/-- `hit.position` (excellon.py:334): slots have none. -/
def hitPosition : Hit → PyR (ℚ × ℚ)
  | .hole _ p => .ok p
  | .slot _ _ _ _ => .error .attributeError

/-- One round of the loop of `path_length` (excellon.py:326-335): the dictionaries `lengths` and
`positions`. -/
noncomputable def pathStep (heap : List Tool) (d : List (ℤ × ℝ) × List (ℤ × (ℚ × ℚ))) (h : Hit) :
    PyR (List (ℤ × ℝ) × List (ℤ × (ℚ × ℚ))) := do
  let n ← hitNumber heap h
  let p := (dictGet d.2 n).getD (0, 0)
  let l := (dictGet d.1 n).getD 0
  let q ← hitPosition h
  .ok (dictSet d.1 n (l + hypot (p.1 - q.1) (p.2 - q.2)), dictSet d.2 n q)

/-- `ExcellonFile.path_length()` (excellon.py:321-338). -/
noncomputable def XFile.pathLengths (f : XFile) : PyR (List (ℤ × ℝ)) :=
  (f.hits.foldlM (pathStep f.heap) ([], [])).map (·.1)

/-- `ExcellonFile.path_length(n)` (excellon.py:339-340). -/
noncomputable def XFile.pathLength (f : XFile) (n : ℤ) : PyR (Option ℝ) :=
  (f.pathLengths).map (dictGet · n)

/-- The keyword arguments `update_tool` knows (excellon.py:354-365). -/
structure ToolUpdate where
  feedRate : Option ℚ := none
  retractRate : Option ℚ := none
  rpm : Option ℚ := none
  diameter : Option ℚ := none
  maxHitCount : Option ℚ := none
  depthOffset : Option ℚ := none

/-- The assignments (excellon.py:354-365): an argument that is not given (or `None`) changes
nothing. -/
def Tool.update (t : Tool) (u : ToolUpdate) : Tool :=
  let t := match u.feedRate with | some v => { t with feedRate := some v } | none => t
  let t := match u.retractRate with | some v => { t with retractRate := some v } | none => t
  let t := match u.rpm with | some v => { t with rpm := some v } | none => t
  let t := match u.diameter with | some v => { t with diameter := some v } | none => t
  let t := match u.maxHitCount with | some v => { t with maxHitCount := some v } | none => t
  match u.depthOffset with | some v => { t with depthOffset := some v } | none => t

/-- The hit with another tool (excellon.py:350-369). -/
def Hit.withTool (r : ℕ) : Hit → Hit
  | .hole _ p => .hole (some r) p
  | .slot _ a b k => .slot (some r) a b k

/-- `if hit.tool.number == newtool.number: hit.tool = newtool` (excellon.py:368-370). -/
def retool (heap : List Tool) (r : ℕ) (n : ℤ) (h : Hit) : PyR Hit := do
  let m ← hitNumber heap h
  .ok (if m = n then h.withTool r else h)

/-- `ExcellonFile.update_tool` (excellon.py:351-370): `KeyError` if there is no such tool. -/
def XFile.updateTool (f : XFile) (n : ℤ) (u : ToolUpdate) : PyR XFile :=
  match dictGet f.tools n with
  | none => .error .keyError
  | some r => do
    let t ← pyIdx f.heap r
    let t := t.update u
    let heap := f.heap.set r t
    let hits ← f.hits.mapM (retool heap r t.number)
    .ok { f with heap := heap, hits := hits }

end Verif.Excellon
