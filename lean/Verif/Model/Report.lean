import Verif.Model.ExcellonEdit

/-! # Drill reports (`ExcellonFile.report`, gerber/excellon.py:236-260) -/

namespace Verif.Excellon
open Verif.Py Verif.Cam

/-- `'{:.{d}f}'.format(x)` (excellon.py:240). -/
def fmtF (d : ℕ) (x : ℚ) : Str :=
  if x < 0 then '-' :: fixedStr d (rne (-x * 10 ^ d)) else fixedStr d (rne (x * 10 ^ d))

/-- Padding on the left to width `w`, as of numbers in `str.format` (excellon.py:240). -/
def padLeft (w : ℕ) (s : Str) : Str := List.replicate (w - s.length) ' ' ++ s

/-- As `rne`, for real numbers (excellon.py:240). -/
noncomputable def rneReal (x : ℝ) : ℕ :=
  let f := ⌊x⌋.toNat
  let r := x - f
  if r < 1 / 2 then f
  else if 1 / 2 < r then f + 1
  else if f % 2 = 0 then f else f + 1

/-- `'{:f}'.format(x)` of a length, exact (excellon.py:240). -/
noncomputable def lengthText (x : ℝ) : Str := fixedStr 6 (rneReal (x * 10 ^ 6))

/-- One line of the table (excellon.py:239-242, 255-257): `toolfmt.format(...)` raises `TypeError` for `None`. -/
noncomputable def reportRow (f : XFile) (st : FileSettings) (r : ℕ) : PyR Str := do
  let t ← pyIdx f.heap r
  let len ← f.pathLength t.number
  match t.diameter, len with
  | some d, some l =>
    .ok ("  T".toList ++ zeroPad 2 (intStr t.number) ++ "      ".toList ++ padLeft st.format.1 (fmtF st.format.2 d) ++
      "     ".toList ++ padLeft 3 (natStr t.hitCount) ++ "     ".toList ++ lengthText l ++
      (if st.units = "inch" then "in.\n".toList else "mm\n".toList))
  | _, _ => .error .typeError

/-- The text before the table (excellon.py:243-254).  A conditional expression binds weaker than `%`, so that the
alternatives have neither label nor line break. -/
def reportHead (filename : Option Str) (st : FileSettings) : Str :=
  "=====================\nExcellon Drill Report\n=====================\n".toList ++
  (match filename with
    | some n => "NC Drill File: ".toList ++ n ++ "\n\n".toList
    | none => []) ++
  "Drill File Info:\n----------------\n".toList ++
  (if st.notation_ = "absolute" then "  Data Mode         Absolute\n".toList else "Incremental".toList) ++
  (if st.units = "inch" then "  Units             Inches\n".toList else "Millimeters".toList) ++
  "\nTool List:\n----------\n\n".toList ++
  "  Code      Size     Hits    Path Length\n".toList ++
  "  --------------------------------------\n".toList

/-- `ExcellonFile.report()`; `filename` is the attribute.  Saving the text is not modelled (excellon.py:236-260). -/
noncomputable def XFile.report (f : XFile) (filename : Option Str) : PyR Str := do
  let st ← f.cam.settings
  let rows ← f.tools.mapM fun t => reportRow f st t.2
  .ok (reportHead filename st ++ rows.flatten)

end Verif.Excellon
