import Verif.Model.Report
import Verif.Lemmas.ExcellonTool
import Verif.Props.ExcellonEdit
import Verif.Props.Netlist

/-! # C71: drill reports -/

namespace Verif.Excellon
open Verif.Py Verif.Cam Spec

/-! ## Spec -/

/-- The line shows a tool: its number, its size with `digits` decimals, the number of hits, and the length of its path
with six decimals and the unit. -/
def Spec.RowShows (unit : Str) (digits : ℕ) (number : ℤ) (size : ℚ) (hits : ℕ) (len : ℝ) (line : Str) : Prop :=
  ∃ a b c d : Str, Ipc.words line = ['T' :: a, b, c, d ++ unit] ∧ pyInt a = .ok number ∧ pyInt c = .ok (hits : ℤ) ∧
    (∃ s, pyFloat b = .ok s ∧ |s - size| ≤ 1 / 2 / 10 ^ digits) ∧
    ∃ l : ℚ, pyFloat d = .ok l ∧ |(l : ℝ) - len| ≤ 1 / 2 / 10 ^ 6

/-- The line shows the tool of the file at reference `r`. -/
def Spec.ToolShown (f : XFile) (st : FileSettings) (r : ℕ) (line : Str) : Prop :=
  ∃ t size, f.heap[r]? = some t ∧ t.diameter = some size ∧
    RowShows (if st.units = "inch" then "in.".toList else "mm".toList) st.format.2 t.number size t.hitCount
      (wayLength (0, 0) (holesOf f.heap t.number f.hits)) line

/-! ## Numbers -/

/-- Digits, a point, a sign. -/
def Figure (s : Str) : Prop := s ≠ [] ∧ ∀ c ∈ s, isDig c = true ∨ c = '.' ∨ c = '-'

theorem Figure.isWord {s : Str} (h : Figure s) : IsWord s := by
  refine ⟨h.1, fun c hc => ?_⟩
  rcases h.2 c hc with h | rfl | rfl
  · exact not_isSpace_of_isDig h
  · rfl
  · rfl

theorem fixedStr_figure (d n : ℕ) : Figure (fixedStr d n) := by
  refine ⟨by simp [fixedStr, natStr_ne_nil], fun c hc => ?_⟩
  unfold fixedStr at hc
  rcases List.mem_append.1 hc with hc | hc
  · exact .inl (List.all_eq_true.1 (natStr_all _) c hc)
  · split at hc
    · cases hc
    · rcases List.mem_cons.1 hc with rfl | hc
      · exact .inr (.inl rfl)
      · exact .inl (List.all_eq_true.1 (all_fixDigits _ _) c hc)

theorem pyUFloat_fixedStr (d n : ℕ) : pyUFloat (fixedStr d n) = some ((n : ℚ) / 10 ^ d) := by
  unfold fixedStr
  by_cases hd : d = 0
  · subst hd
    simp [pyUFloat_digits (natStr_all n) (natStr_ne_nil n), natVal_natStr]
  · rw [if_neg hd, pyUFloat_point (natStr_all _) (all_fixDigits _ _) (fun h => natStr_ne_nil _ h.1)]
    have : natVal (natStr (n / 10 ^ d) ++ fixDigits d (n % 10 ^ d)) = n := by
      rw [natVal_append, natVal_natStr, natVal_fixDigits_of_lt (Nat.mod_lt _ (by positivity)), length_fixDigits]
      have := Nat.div_add_mod n (10 ^ d)
      rw [Nat.mul_comm] at this
      exact this
    rw [this, length_fixDigits]

theorem pyFloat_fixedStr (d n : ℕ) : pyFloat (fixedStr d n) = .ok ((n : ℚ) / 10 ^ d) := by
  have h := (fixedStr_figure d n).isWord
  have hs : strip (fixedStr d n) = fixedStr d n := strip_of_no_space (by
    rw [List.all_eq_true]; intro c hc; simp [h.2 c hc])
  have ht : takeSign (fixedStr d n) = (false, fixedStr d n) := by
    unfold fixedStr
    obtain ⟨c, t, hc⟩ := List.exists_cons_of_ne_nil (natStr_ne_nil (n / 10 ^ d))
    have h1 := natStr_all (n / 10 ^ d)
    rw [hc] at h1 ⊢
    simp only [List.all_cons, Bool.and_eq_true] at h1
    exact takeSign_of_dig h1.1
  unfold pyFloat
  rw [hs, ht]
  simp only [pyUFloat_fixedStr]
  rfl

theorem fmtF_figure (d : ℕ) (x : ℚ) : Figure (fmtF d x) := by
  unfold fmtF
  split
  · exact ⟨by simp, fun c hc => by
      rcases List.mem_cons.1 hc with rfl | hc
      · exact .inr (.inr rfl)
      · exact (fixedStr_figure _ _).2 c hc⟩
  · exact fixedStr_figure _ _

theorem near_rne {d : ℕ} {x : ℚ} (hx : 0 ≤ x) : |(rne (x * 10 ^ d) : ℚ) / 10 ^ d - x| ≤ 1 / 2 / 10 ^ d := by
  have h := rne_spec (x := x * 10 ^ d) (by positivity)
  have hp : (0 : ℚ) < 10 ^ d := by positivity
  have e : (rne (x * 10 ^ d) : ℚ) / 10 ^ d - x = ((rne (x * 10 ^ d) : ℚ) - x * 10 ^ d) / 10 ^ d := by field_simp
  rw [e, abs_div, abs_of_pos hp]
  exact div_le_div_of_nonneg_right h hp.le

theorem pyFloat_fmtF (d : ℕ) (x : ℚ) : ∃ s, pyFloat (fmtF d x) = .ok s ∧ |s - x| ≤ 1 / 2 / 10 ^ d := by
  unfold fmtF
  split
  · rename_i hx
    refine ⟨-((rne (-x * 10 ^ d) : ℚ) / 10 ^ d), ?_, ?_⟩
    · have h := (fixedStr_figure d (rne (-x * 10 ^ d))).isWord
      unfold pyFloat
      rw [strip_of_no_space (by
        rw [List.all_cons, Bool.and_eq_true, List.all_eq_true]
        exact ⟨rfl, fun c hc => by simp [h.2 c hc]⟩), takeSign_minus]
      simp only [pyUFloat_fixedStr]
      rfl
    · have := near_rne (d := d) (x := -x) (by linarith)
      rw [← abs_neg]
      convert this using 2
      ring
  · rename_i hx
    exact ⟨_, pyFloat_fixedStr _ _, near_rne (by linarith)⟩

theorem rneReal_spec {x : ℝ} (hx : 0 ≤ x) : |(rneReal x : ℝ) - x| ≤ 1 / 2 := by
  unfold rneReal
  have hf : ((⌊x⌋.toNat : ℕ) : ℝ) = (⌊x⌋ : ℝ) := by
    have : (0 : ℤ) ≤ ⌊x⌋ := Int.floor_nonneg.2 hx
    have h := Int.toNat_of_nonneg this
    exact_mod_cast h
  have h1 := Int.floor_le x
  have h2 := Int.lt_floor_add_one x
  simp only [hf]
  split
  · rw [hf, abs_le]; constructor <;> linarith
  · split
    · push_cast; rw [hf, abs_le]; constructor <;> linarith
    · split
      · rw [hf, abs_le]; constructor <;> linarith
      · push_cast; rw [hf, abs_le]; constructor <;> linarith

theorem pyFloat_lengthText {x : ℝ} (hx : 0 ≤ x) :
    ∃ l : ℚ, pyFloat (lengthText x) = .ok l ∧ |(l : ℝ) - x| ≤ 1 / 2 / 10 ^ 6 := by
  refine ⟨_, pyFloat_fixedStr _ _, ?_⟩
  have h := rneReal_spec (x := x * 10 ^ 6) (by positivity)
  have e : (((rneReal (x * 10 ^ 6) : ℚ) / 10 ^ 6 : ℚ) : ℝ) - x = ((rneReal (x * 10 ^ 6) : ℝ) - x * 10 ^ 6) / 10 ^ 6 := by
    push_cast
    field_simp
  rw [e, abs_div, abs_of_pos (by positivity : (0 : ℝ) < 10 ^ 6)]
  exact div_le_div_of_nonneg_right h (by positivity)

theorem wayLength_nonneg (p : ℚ × ℚ) (l : List (ℚ × ℚ)) : 0 ≤ wayLength p l := by
  induction l generalizing p with
  | nil => exact le_refl _
  | cons q l ih => exact add_nonneg (Real.sqrt_nonneg _) (ih q)

theorem intStr_figure (n : ℤ) : Figure (intStr n) := by
  have h : Figure (natStr n.natAbs) := ⟨natStr_ne_nil _, fun c hc => .inl (List.all_eq_true.1 (natStr_all _) c hc)⟩
  unfold intStr
  split
  · exact ⟨by simp, fun c hc => by
      rcases List.mem_cons.1 hc with rfl | hc
      · exact .inr (.inr rfl)
      · exact h.2 c hc⟩
  · exact h

theorem zeroPad_int (n : ℤ) : Figure (zeroPad 2 (intStr n)) ∧ pyInt (zeroPad 2 (intStr n)) = .ok n := by
  by_cases hn : n < 0
  · have : zeroPad 2 (intStr n) = intStr n := by
      have : 2 ≤ (intStr n).length := by
        have := List.length_pos_of_ne_nil (natStr_ne_nil n.natAbs)
        simp only [intStr, if_pos hn, List.length_cons]
        omega
      simp [zeroPad, Nat.sub_eq_zero_of_le this]
    rw [this]
    exact ⟨intStr_figure n, pyInt_intStr n⟩
  · have : intStr n = natStr n.natAbs := by simp [intStr, hn]
    rw [this]
    refine ⟨⟨zeroPad_ne_nil (natStr_ne_nil _), fun c hc => .inl (List.all_eq_true.1 (zeroPad_all (natStr_all _)) c hc)⟩, ?_⟩
    rw [pyInt_digits (zeroPad_all (natStr_all _)) (zeroPad_ne_nil (natStr_ne_nil _)), natVal_zeroPad, natVal_natStr]
    congr 1
    omega

/-! ## Rows -/

theorem words_gap (k : ℕ) (s : Str) : Ipc.words (List.replicate k ' ' ++ s) = Ipc.words s := by
  induction k with
  | zero => rfl
  | succ k ih =>
    have : List.replicate (k + 1) ' ' ++ s = [] ++ ' ' :: (List.replicate k ' ' ++ s) := by
      simp [List.replicate_succ]
    rw [this, Ipc.words_mid _ _ (by rfl), ih]
    rfl

theorem words_step {w : Str} (h : IsWord w) (k : ℕ) (s : Str) :
    Ipc.words (w ++ (List.replicate (k + 1) ' ' ++ s)) = w :: Ipc.words s := by
  rw [List.replicate_succ, List.cons_append, Ipc.words_mid _ _ (by rfl), Ipc.words_isWord h, words_gap]
  rfl

theorem isWord_append {a b : Str} (ha : IsWord a) (hb : IsWord b) : IsWord (a ++ b) :=
  ⟨by simp [ha.1], fun c hc => (List.mem_append.1 hc).elim (ha.2 c) (hb.2 c)⟩

theorem row_shown {f : XFile} {st : FileSettings} {r : ℕ} {row : Str} (h : reportRow f st r = .ok row) :
    ∃ line, row = line ++ ['\n'] ∧ '\n' ∉ line ∧ ToolShown f st r line := by
  unfold reportRow at h
  obtain ⟨t, ht, h⟩ := bindOk h
  obtain ⟨len, hl, h⟩ := bindOk h
  split at h
  · rename_i d l hd
    have hlen := C51_path_length_partial hl
    split at hlen
    · cases hlen
    · obtain rfl := Option.some.inj hlen
      obtain ⟨u, hu, huw, hun⟩ : ∃ u : Str, (if st.units = "inch" then "in.\n".toList else "mm\n".toList) = u ++ ['\n'] ∧
          IsWord u ∧ u = (if st.units = "inch" then "in.".toList else "mm".toList) := by
        by_cases hs : st.units = "inch"
        · exact ⟨"in.".toList, by simp [hs], ⟨by decide, by decide⟩, by simp [hs]⟩
        · exact ⟨"mm".toList, by simp [hs], ⟨by decide, by decide⟩, by simp [hs]⟩
      rw [hu] at h
      obtain rfl := Except.ok.inj h
      obtain ⟨hn1, hn2⟩ := zeroPad_int t.number
      have hT : IsWord ('T' :: zeroPad 2 (intStr t.number)) := isWord_append (a := ['T']) ⟨by decide, by decide⟩ hn1.isWord
      have hw2 : IsWord (lengthText (wayLength (0, 0) (holesOf f.heap t.number f.hits)) ++ u) :=
        isWord_append (fixedStr_figure _ _).isWord huw
      have hnat : IsWord (natStr t.hitCount) :=
        (show Figure _ from ⟨natStr_ne_nil _, fun c hc => .inl (List.all_eq_true.1 (natStr_all _) c hc)⟩).isWord
      let line := List.replicate 2 ' ' ++ (('T' :: zeroPad 2 (intStr t.number)) ++ (List.replicate 6 ' ' ++
        (List.replicate (st.format.1 - (fmtF st.format.2 d).length) ' ' ++ (fmtF st.format.2 d ++ (List.replicate 5 ' ' ++
        (List.replicate (3 - (natStr t.hitCount).length) ' ' ++ (natStr t.hitCount ++ (List.replicate 5 ' ' ++
        (lengthText (wayLength (0, 0) (holesOf f.heap t.number f.hits)) ++ u)))))))))
      have hwords : Ipc.words line = ['T' :: zeroPad 2 (intStr t.number), fmtF st.format.2 d, natStr t.hitCount,
          lengthText (wayLength (0, 0) (holesOf f.heap t.number f.hits)) ++ u] := by
        simp only [line]
        rw [words_gap, words_step hT 5, words_gap, words_step (fmtF_figure _ _).isWord 4, words_gap, words_step hnat 4,
          Ipc.words_isWord hw2]
      refine ⟨line, ?_, ?_, t, d, ?_, hd, _, _, _, _, hun ▸ hwords, hn2, pyInt_natStr _, pyFloat_fmtF _ _,
        pyFloat_lengthText (wayLength_nonneg _ _)⟩
      · simp [line, padLeft, List.replicate]
      · intro hm
        have hs : ∀ w : Str, IsWord w → '\n' ∉ w := fun w hw hm => by
          have := hw.2 _ hm
          revert this; decide
        simp only [line, List.mem_append, List.mem_replicate] at hm
        have h1 := hs _ hT
        have h2 := hs _ (fmtF_figure st.format.2 d).isWord
        have h3 := hs _ hnat
        have h4 := hs _ hw2
        rw [List.mem_append] at h4
        simp only [List.mem_cons] at h1
        simp at hm
        tauto
      · unfold pyIdx at ht
        split at ht
        · rename_i x hx
          obtain rfl := Except.ok.inj ht
          exact hx
        · cases ht
  · cases h

theorem rows_shown {f : XFile} {st : FileSettings} {ts : List (ℤ × ℕ)} {rows : List Str}
    (h : List.Forall₂ (fun t row => reportRow f st t.2 = .ok row) ts rows) :
    ∃ lines : List Str, rows.flatten = (lines.map (· ++ ['\n'])).flatten ∧ (∀ l ∈ lines, '\n' ∉ l) ∧
      List.Forall₂ (fun t l => ToolShown f st t.2 l) ts lines := by
  induction h with
  | nil => exact ⟨[], rfl, by simp, .nil⟩
  | cons h1 _ ih =>
    obtain ⟨line, rfl, hn, hs⟩ := row_shown h1
    obtain ⟨lines, h4, h5, h6⟩ := ih
    refine ⟨line :: lines, by simp [h4], ?_, .cons hs h6⟩
    intro l hl
    rcases List.mem_cons.1 hl with rfl | hl
    · exact hn
    · exact h5 l hl

/-! ## C71 -/

/-- **C71.**  Whenever a report is made, its table has a line for every tool, in order, showing the tool. -/
theorem C71_table {f : XFile} {name : Option Str} {text : Str} (h : f.report name = .ok text) :
    ∃ st lines, f.cam.settings = .ok st ∧ text = reportHead name st ++ (lines.map (· ++ ['\n'])).flatten ∧
      (∀ l ∈ lines, '\n' ∉ l) ∧ List.Forall₂ (fun t l => ToolShown f st t.2 l) f.tools lines := by
  unfold XFile.report at h
  obtain ⟨st, hst, h⟩ := bindOk h
  obtain ⟨rows, hr, h⟩ := bindOk h
  obtain rfl := Except.ok.inj h
  replace hr := mapM_spec hr
  obtain ⟨lines, h1, h2, h3⟩ := rows_shown hr
  exact ⟨st, lines, hst, by rw [h1], h2, h3⟩

/-- **C71**: lengths are printed as Python prints numbers: a rational length is rounded like any other number, ties to
the even digit. -/
theorem C71_length {x : ℚ} (hx : 0 ≤ x) : lengthText (x : ℝ) = fmtF 6 x ∧
    ∀ n : ℕ, x = (2 * n + 1) / 2 / 10 ^ 6 → lengthText (x : ℝ) = fixedStr 6 (if Even n then n else n + 1) := by
  have key : ∀ y : ℚ, rneReal (y : ℝ) = rne y := by
    intro y
    unfold rneReal rne
    have hf : ⌊(y : ℝ)⌋ = ⌊y⌋ := Rat.floor_cast y
    have h1 : ((y : ℝ) - (⌊y⌋.toNat : ℕ) < 1 / 2) ↔ y - (⌊y⌋.toNat : ℕ) < 1 / 2 := by
      rw [show ((y : ℝ) - (⌊y⌋.toNat : ℕ)) = ((y - (⌊y⌋.toNat : ℕ) : ℚ) : ℝ) by push_cast; rfl,
        show (1 / 2 : ℝ) = ((1 / 2 : ℚ) : ℝ) by norm_num, Rat.cast_lt]
    have h2 : (1 / 2 < (y : ℝ) - (⌊y⌋.toNat : ℕ)) ↔ 1 / 2 < y - (⌊y⌋.toNat : ℕ) := by
      rw [show ((y : ℝ) - (⌊y⌋.toNat : ℕ)) = ((y - (⌊y⌋.toNat : ℕ) : ℚ) : ℝ) by push_cast; rfl,
        show (1 / 2 : ℝ) = ((1 / 2 : ℚ) : ℝ) by norm_num, Rat.cast_lt]
    simp only [hf, h1, h2]
  have e : (x : ℝ) * 10 ^ 6 = ((x * 10 ^ 6 : ℚ) : ℝ) := by push_cast; rfl
  have h0 : lengthText (x : ℝ) = fixedStr 6 (rne (x * 10 ^ 6)) := by
    unfold lengthText
    rw [e, key]
  refine ⟨by rw [h0, fmtF, if_neg (not_lt.2 hx)], fun n hn => ?_⟩
  rw [h0]
  congr 1
  have hv : x * 10 ^ 6 = (n : ℚ) + 1 / 2 := by rw [hn]; field_simp
  have hfl : ⌊(n : ℚ) + 1 / 2⌋ = n := by
    rw [Int.floor_eq_iff]
    constructor <;> push_cast <;> linarith
  unfold rne
  rw [hv, hfl]
  simp only [Int.toNat_natCast, add_sub_cancel_left, lt_irrefl, if_false, Nat.even_iff]

-- half of the last digit goes to the even one
example : lengthText ((5 / 2 / 10 ^ 6 : ℚ) : ℝ) = "0.000002".toList ∧ lengthText ((7 / 2 / 10 ^ 6 : ℚ) : ℝ) = "0.000004".toList := by
  refine ⟨((C71_length (by norm_num)).2 2 (by norm_num)).trans ?_, ((C71_length (by norm_num)).2 3 (by norm_num)).trans ?_⟩
  · decide +kernel
  · decide +kernel

/-- **C71 for absolute files in inches**: the report also says so. -/
theorem C71_info_partial (name : Option Str) {st : FileSettings} (ha : st.notation_ = "absolute") (hu : st.units = "inch") :
    "  Data Mode         Absolute\n  Units             Inches\n".toList <:+: reportHead name st := by
  have e : ∀ a b c d e f : Str, a ++ b ++ c ++ d ++ e ++ f = (a ++ b ++ c) ++ (d ++ e) ++ f := by simp
  have e' : "  Data Mode         Absolute\n  Units             Inches\n".toList =
    "  Data Mode         Absolute\n".toList ++ "  Units             Inches\n".toList := by decide
  unfold reportHead
  rw [if_pos ha, if_pos hu, e', List.append_assoc _ "  Code      Size     Hits    Path Length\n".toList,
    List.append_assoc _ "\nTool List:\n----------\n\n".toList, e]
  exact ⟨_, _, rfl⟩

/-- **C71**: the report begins with its title, and with the name of the file if it has one. -/
theorem C71_name {f : XFile} {name : Option Str} {text : Str} (h : f.report name = .ok text) :
    ("=====================\nExcellon Drill Report\n=====================\n".toList ++
      (name.elim [] fun n => "NC Drill File: ".toList ++ n ++ "\n\n".toList) ++
      "Drill File Info:\n".toList) <+: text := by
  obtain ⟨st, lines, -, rfl, -⟩ := C71_table h
  have e : "Drill File Info:\n----------------\n".toList = "Drill File Info:\n".toList ++ "----------------\n".toList := by
    decide
  unfold reportHead
  rw [e]
  cases name <;> (simp only [List.append_assoc, List.prefix_append_right_inj, Option.elim]; exact List.prefix_append _ _)

/-- The report of an incremental file has no data mode, that of a file in millimetres no units. -/
theorem C71_info_violated (st : FileSettings) :
    (st.notation_ ≠ "absolute" → ¬ "Data Mode".toList <:+: reportHead none st) ∧
    (st.units ≠ "inch" → ¬ "Units".toList <:+: reportHead none st) := by
  refine ⟨fun h => ?_, fun h => ?_⟩
  · unfold reportHead
    rw [if_neg h]
    by_cases hu : st.units = "inch"
    · rw [if_pos hu]; decide +kernel
    · rw [if_neg hu]; decide +kernel
  · unfold reportHead
    rw [if_neg h]
    by_cases hu : st.notation_ = "absolute"
    · rw [if_pos hu]; decide +kernel
    · rw [if_neg hu]; decide +kernel

theorem mapM_total {α β : Type} {g : α → PyR β} {l : List α} (h : ∀ a ∈ l, ∃ b, g a = .ok b) : ∃ l', l.mapM g = .ok l' := by
  induction l with
  | nil => exact ⟨[], rfl⟩
  | cons a l ih =>
    obtain ⟨b, hb⟩ := h a (by simp)
    obtain ⟨l', hl⟩ := ih fun a ha => h a (by simp [ha])
    exact ⟨b :: l', by rw [List.mapM_cons, hb, hl]; rfl⟩

/-- **C71.**  There is a report for files of holes in which every tool has a size and makes a hole. -/
theorem C71_total_partial {f : XFile} (name : Option Str) {st : FileSettings} (hst : f.cam.settings = .ok st)
    (hits : ∀ x ∈ f.hits, ∃ r p, x = .hole (some r) p ∧ r < f.heap.length)
    (tools : ∀ t ∈ f.tools, ∃ u, f.heap[t.2]? = some u ∧ u.diameter ≠ none ∧ holesOf f.heap u.number f.hits ≠ []) :
    ∃ text, f.report name = .ok text := by
  have : ∃ rows, f.tools.mapM (fun t => reportRow f st t.2) = .ok rows := by
    refine mapM_total fun t ht => ?_
    obtain ⟨u, hu, hd, hh⟩ := tools t ht
    obtain ⟨d, hd⟩ := Option.ne_none_iff_exists'.1 hd
    obtain ⟨o, ho⟩ := C51_defined u.number hits
    have := C51_path_length_partial ho
    rw [if_neg hh] at this
    subst this
    exact ⟨_, by simp only [reportRow, pyIdx_some hu, ho, hd, bind, Except.bind]; rfl⟩
  obtain ⟨rows, hr⟩ := this
  exact ⟨_, by simp only [XFile.report, hst, hr, bind, Except.bind]; rfl⟩

/-- There is no report for a file with a tool that makes no hole. -/
theorem C71_unused_violated {f : XFile} {t : ℤ × ℕ} (ht : t ∈ f.tools) {u : Tool} (hu : f.heap[t.2]? = some u)
    (hh : holesOf f.heap u.number f.hits = []) (name : Option Str) (text : Str) : f.report name ≠ .ok text := by
  intro h
  obtain ⟨st, -, h⟩ := bindOk h
  obtain ⟨rows, hr, -⟩ := bindOk h
  obtain ⟨row, h1⟩ : ∃ row, reportRow f st t.2 = .ok row := by
    have hf := mapM_spec hr
    clear hr
    generalize f.tools = ts at hf ht
    induction hf with
    | nil => cases ht
    | cons h _ ih =>
      rcases List.mem_cons.1 ht with rfl | ht
      · exact ⟨_, h⟩
      · exact ih ht
  unfold reportRow at h1
  rw [pyIdx_some hu] at h1
  obtain ⟨o, ho, h1⟩ := bindOk (show (f.pathLength u.number >>= _) = _ from h1)
  have := C51_path_length_partial ho
  rw [if_pos hh] at this
  subst this
  split at h1
  · rename_i h2
    cases h2
  · cases h1

/-- There is no report for a file with a slot and a tool. -/
theorem C71_slot_violated {f : XFile} {t : Option ℕ} {a b : Option ℚ × Option ℚ} {k : Bool}
    (h : Hit.slot t a b k ∈ f.hits) (hne : f.tools ≠ []) (name : Option Str) (text : Str) : f.report name ≠ .ok text := by
  intro hr
  obtain ⟨st, -, hr⟩ := bindOk hr
  obtain ⟨rows, hr, -⟩ := bindOk hr
  obtain ⟨x, l, hx⟩ := List.exists_cons_of_ne_nil hne
  rw [hx, List.mapM_cons] at hr
  obtain ⟨row, h1, -⟩ := bindOk hr
  obtain ⟨u, -, h1⟩ := bindOk h1
  obtain ⟨o, ho, -⟩ := bindOk h1
  exact C51_slot_violated h _ o ho

/-! ## Samples -/

/-- Two tools, the second of them used twice. -/
def reportSample : Str := prog ["M48", "INCH,LZ", "T01C0.020", "T02C0.030", "%", "T01", "X03Y04", "T02", "X01Y01", "X02Y01",
  "M30"]

example : ∃ f, parseRaw none [] reportSample = .ok f ∧ ∃ text, f.report none = .ok text := by
  obtain ⟨f, hf, h1, h2, h3, h4⟩ : ∃ f, parseRaw none [] reportSample = .ok f ∧ f.tools = [(1, 0), (2, 1)] ∧
      f.hits = [.hole (some 0) (3, 4), .hole (some 1) (1, 1), .hole (some 1) (2, 1)] ∧
      f.heap.map (fun t => (t.number, t.diameter)) = [(1, some (1 / 50)), (2, some (3 / 100))] ∧
      f.cam.settings.toOption.isSome = true :=
    ⟨_, rfl, by decide +kernel, by decide +kernel, by decide +kernel, by decide +kernel⟩
  obtain ⟨t1, t2, ht⟩ := List.length_eq_two.1 (by simpa using congrArg List.length h3 : f.heap.length = 2)
  rw [ht] at h3
  simp only [List.map_cons, List.map_nil, List.cons.injEq, Prod.mk.injEq, and_true] at h3
  obtain ⟨⟨n1, d1⟩, n2, d2⟩ := h3
  refine ⟨f, hf, ?_⟩
  cases hs : f.cam.settings with
  | error e => rw [hs] at h4; cases h4
  | ok st =>
    refine C71_total_partial none hs ?_ ?_
    · rw [h2, ht]
      intro x hx
      simp only [List.mem_cons, List.not_mem_nil, or_false] at hx
      rcases hx with rfl | rfl | rfl <;> exact ⟨_, _, rfl, by simp⟩
    · rw [h1, h2, ht]
      intro x hx
      simp only [List.mem_cons, List.not_mem_nil, or_false] at hx
      rcases hx with rfl | rfl
      · exact ⟨t1, rfl, by simp [d1], by simp [holesOf, n1, n2]⟩
      · exact ⟨t2, rfl, by simp [d2], by simp [holesOf, n1, n2]⟩

-- a file with a tool that is not used, as of `C71_unused_violated`
example : (parseRaw none [] (prog ["M48", "INCH,LZ", "T01C0.020", "T02C0.030", "%", "T01", "X03Y04", "M30"])).toOption.map
    (fun f => (f.tools, holesOf f.heap 2 f.hits, f.heap[1]?.map (·.number))) = some ([(1, 0), (2, 1)], [], some 2) := by
  decide +kernel

-- a file with a slot
example : (parseRaw none [] (prog ["M48", "INCH,LZ", "T01C0.020", "%", "T01", "X02Y01G85X02Y03", "M30"])).toOption.map
    (fun f => (f.tools, f.hits)) = some ([(1, 0)], [.slot (some 0) (some 2, some 1) (some 2, some 3) true]) := by
  decide +kernel

-- an incremental file in millimetres
example : (parseRaw none [] (prog ["M48", "METRIC,LZ", "ICI", "T01C0.5", "%", "T01", "X03Y04", "M30"])).toOption.map
    (fun f => (f.cam.settings.toOption.map fun st => (st.notation_, st.units))) = some (some ("incremental", "metric")) := by
  decide +kernel

end Verif.Excellon
