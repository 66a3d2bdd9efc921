import Verif.Model.Utils
import Verif.Lemmas.PyNum

/-! # Lemmas about `parse_gerber_value` and `write_gerber_value` -/

namespace Verif.Utils
open Verif.Py

theorem badFormat_false {i d : ℕ} (hi : i ≤ 6) (hd : d ≤ 7) : badFormat (i, d) = false := by
  unfold badFormat
  simp only [Bool.or_eq_false_iff, decide_eq_false_iff_not]
  omega

theorem badFormat_true {i d : ℕ} : badFormat (i, d) = true ↔ (6 < i ∨ 7 < d) := by
  unfold badFormat
  simp only [Bool.or_eq_true, decide_eq_true_eq]
  omega

/-! ## Parsing -/

/-- Padding performed by `parse_gerber_value` on an unsigned digit string. -/
def padded (s : Str) (m : ℕ) (zs : String) : Str :=
  if zs = "trailing" then s ++ List.replicate (m - s.length) '0'
  else if zs = "leading" then List.replicate (m - s.length) '0' ++ s
  else s

theorem padded_all {s : Str} (h : s.all isDig = true) (m : ℕ) (zs : String) :
    (padded s m zs).all isDig = true := by
  unfold padded
  split
  · rw [List.all_append, h, all_replicate_zero]; rfl
  · split
    · rw [List.all_append, h, all_replicate_zero]; rfl
    · exact h

theorem padded_ne_nil {s : Str} (h : s ≠ []) (m : ℕ) (zs : String) : padded s m zs ≠ [] := by
  unfold padded
  split
  · simp [h]
  · split <;> simp [h]

theorem digits_not_mem {s : Str} (h : s.all isDig = true) {c : Char} (hc : isDig c = false) :
    c ∉ s := by
  intro hm
  rw [List.all_eq_true] at h
  have := h c hm
  rw [hc] at this; cases this

theorem lstrip_digits {s : Str} (h : s.all isDig = true) {c : Char} (hc : isDig c = false) :
    lstripBy (· == c) s = s := by
  unfold lstripBy
  apply dropWhile_none
  apply all_mono h
  intro x hx
  simp only [Bool.not_eq_true', beq_eq_false_iff_ne, ne_eq]
  exact isDig_ne hx hc

theorem float_split {D : Str} (hD : D.all isDig = true) (hne : D ≠ []) (i : ℕ) :
    pyFloat (D.take i ++ '.' :: D.drop i) = .ok ((natVal D : ℚ) / 10 ^ (D.length - i)) := by
  have h := hD
  rw [← List.take_append_drop i D, List.all_append, Bool.and_eq_true] at h
  rw [pyFloat_point h.1 h.2, List.take_append_drop, List.length_drop]
  rintro ⟨h1, h2⟩
  apply hne
  rw [← List.take_append_drop i D, h1, h2]; rfl

/-- Parsing an unsigned digit string. -/
theorem parse_digits {s : Str} (hs : s.all isDig = true) (hne : s ≠ []) {i d : ℕ}
    (hi : i ≤ 6) (hd : d ≤ 7) (zs : String) :
    parseGerberValue s (i, d) zs =
      .ok ((natVal (padded s (i + d) zs) : ℚ) / 10 ^ ((padded s (i + d) zs).length - i)) := by
  unfold parseGerberValue
  rw [if_neg (digits_not_mem hs rfl), badFormat_false hi hd]
  simp only [Bool.false_eq_true, if_false]
  rw [lstrip_digits hs rfl]
  have hm : ('-' ∈ s) = False := by
    simp [digits_not_mem hs (c := '-') rfl]
  simp only [hm, if_false]
  have := float_split (padded_all hs (i + d) zs) (padded_ne_nil hne (i + d) zs) i
  unfold padded at this ⊢
  rw [this]

theorem parse_plus {s : Str} (i d : ℕ) (hs : '.' ∉ s) (zs : String) :
    parseGerberValue ('+' :: s) (i, d) zs = parseGerberValue s (i, d) zs := by
  unfold parseGerberValue
  rw [if_neg hs, if_neg (by simp [hs])]
  have : lstripBy (· == '+') ('+' :: s) = lstripBy (· == '+') s := by
    simp [lstripBy]
  rw [this]

theorem parse_minus {s : Str} (hs : s.all isDig = true) (hne : s ≠ []) {i d : ℕ}
    (hi : i ≤ 6) (hd : d ≤ 7) (zs : String) :
    parseGerberValue ('-' :: s) (i, d) zs =
      .ok (-((natVal (padded s (i + d) zs) : ℚ) / 10 ^ ((padded s (i + d) zs).length - i))) := by
  unfold parseGerberValue
  rw [if_neg (by simp [digits_not_mem hs (c := '.') rfl]), badFormat_false hi hd]
  simp only [Bool.false_eq_true, if_false]
  have h1 : lstripBy (· == '+') ('-' :: s) = '-' :: s := by
    simp [lstripBy]
  have h2 : lstripBy (· == '-') ('-' :: s) = s := by
    have := lstrip_digits hs (c := '-') rfl
    simp only [lstripBy] at this ⊢
    rw [List.dropWhile_cons]
    simpa using this
  rw [h1]
  simp only [List.mem_cons, true_or, if_true, h2]
  have := float_split (padded_all hs (i + d) zs) (padded_ne_nil hne (i + d) zs) i
  unfold padded at this ⊢
  rw [this]

/-! ## Writing -/

theorem filter_point_digits {s : Str} (h : s.all isDig = true) : s.filter (· ≠ '.') = s := by
  rw [List.filter_eq_self]
  intro a ha
  rw [List.all_eq_true] at h
  simpa using isDig_ne (h a ha) (by rfl : isDig '.' = false)

/-- Digits of `'%0{m+1}.0{d}f' % (n/10^d)` with the point removed. -/
def fmtDigits (m d n : ℕ) : Str :=
  List.replicate (m + 1 - (fixedStr d n).length) '0' ++ natStr (n / 10 ^ d) ++
    fixDigits d (n % 10 ^ d)

theorem fmt_filter (m d : ℕ) (v : ℚ) :
    (fmtFixedNonneg (m + 1) d v).filter (· ≠ '.') = fmtDigits m d (rne (v * 10 ^ d)) := by
  unfold fmtFixedNonneg zeroPad fmtDigits
  generalize rne (v * 10 ^ d) = n
  rw [List.filter_append, filter_point_digits (all_replicate_zero _), List.append_assoc]
  congr 1
  unfold fixedStr
  rw [List.filter_append, filter_point_digits (natStr_all _)]
  congr 1
  by_cases hd : d = 0
  · subst hd; simp [fixDigits]
  · rw [if_neg hd, List.filter_cons]
    simp only [ne_eq, not_true_eq_false, decide_false, Bool.false_eq_true, if_false]
    exact filter_point_digits (all_fixDigits _ _)

theorem fmtDigits_all (m d n : ℕ) : (fmtDigits m d n).all isDig = true := by
  unfold fmtDigits
  rw [List.all_append, List.all_append, all_replicate_zero, natStr_all, all_fixDigits]; rfl

theorem natVal_fmtDigits (m d n : ℕ) : natVal (fmtDigits m d n) = n := by
  unfold fmtDigits
  rw [natVal_append, natVal_append, natVal_replicate_zero, natVal_natStr, natVal_fixDigits,
    length_fixDigits, Nat.mod_mod]
  have := Nat.div_add_mod n (10 ^ d)
  rw [mul_comm] at this
  simpa using this

theorem length_fixedStr (d n : ℕ) :
    (fixedStr d n).length = (natStr (n / 10 ^ d)).length + (if d = 0 then 0 else d + 1) := by
  unfold fixedStr
  split <;> simp

theorem length_fmtDigits (m d n : ℕ) :
    (fmtDigits m d n).length =
      if d = 0 then max (m + 1) (natStr n).length
      else max m ((natStr (n / 10 ^ d)).length + d) := by
  unfold fmtDigits
  rw [List.length_append, List.length_append, List.length_replicate, length_fixDigits,
    length_fixedStr]
  split
  · rename_i h; subst h
    simp only [pow_zero, Nat.div_one]; omega
  · omega

theorem length_fmtDigits_in_range {i d n : ℕ} (hi : 1 ≤ i) (hd : 1 ≤ d) (hn : n < 10 ^ (i + d)) :
    (fmtDigits (i + d) d n).length = i + d := by
  rw [length_fmtDigits, if_neg (by omega)]
  have : (natStr (n / 10 ^ d)).length ≤ i := by
    apply natStr_length_le hi
    rw [Nat.div_lt_iff_lt_mul (by positivity), ← pow_add]; exact hn
  omega

theorem fmtDigits_ne_nil (m d n : ℕ) : fmtDigits m d n ≠ [] := by
  unfold fmtDigits
  simp [natStr_ne_nil]

theorem sum_digVal_eq_zero {s : Str} (h : s.all isDig = true) :
    (s.map digVal).sum = 0 ↔ natVal s = 0 := by
  induction s with
  | nil => simp
  | cons c s ih =>
    simp only [List.all_cons, Bool.and_eq_true] at h
    rw [natVal_cons]
    simp only [List.map_cons, List.sum_cons, Nat.add_eq_zero_iff, ih h.2, mul_eq_zero]
    have : 10 ^ s.length ≠ 0 := by positivity
    tauto

/-- Suppression of zeros performed by `write_gerber_value`. -/
def suppress (D : Str) (zs : String) : Str :=
  if zs = "trailing" then rstripBy (· == '0') D
  else if zs = "leading" then lstripBy (· == '0') D
  else D

theorem all_rstrip {p q : Char → Bool} {s : Str} (h : s.all p = true) :
    (rstripBy q s).all p = true := by
  unfold rstripBy
  rw [List.all_reverse]
  exact all_dropWhile (by rw [List.all_reverse]; exact h)

theorem suppress_all {D : Str} (h : D.all isDig = true) (zs : String) :
    (suppress D zs).all isDig = true := by
  unfold suppress
  split
  · exact all_rstrip h
  · split
    · exact all_dropWhile h
    · exact h

theorem natVal_suppress_eq_zero {D : Str} (zs : String)
    (h0 : natVal (suppress D zs) = 0) : natVal D = 0 := by
  unfold suppress at h0
  split at h0
  · obtain ⟨k, hk⟩ := rstrip_zero_decomp D
    rw [hk, natVal_append, h0]; simp
  · split at h0
    · rwa [lstripBy, natVal_dropWhile_zero] at h0
    · exact h0

theorem suppress_ne_nil {D : Str} (_h : D.all isDig = true) (zs : String) (h0 : natVal D ≠ 0) :
    suppress D zs ≠ [] := by
  intro he
  exact h0 (natVal_suppress_eq_zero zs (by rw [he]; rfl))

/-- Normal form of `write_gerber_value` on accepted formats: everything is determined by the
sign and the rounded magnitude. -/
theorem write_eq {i d : ℕ} (hi : i ≤ 6) (hd : d ≤ 7) (v : ℚ) (zs : String) :
    writeGerberValue v (i, d) zs =
      .ok (if rne (|v| * 10 ^ d) = 0 then ['0']
           else (if v < 0 then ['-'] else []) ++
              suppress (fmtDigits (i + d) d (rne (|v| * 10 ^ d))) zs) := by
  unfold writeGerberValue
  rw [badFormat_false hi hd]
  simp only [Bool.false_eq_true, if_false, decide_eq_true_eq]
  by_cases hv : v = 0
  · subst hv
    have h0 : rne (|(0:ℚ)| * 10 ^ d) = 0 := by
      simpa using rne_natCast 0
    rw [if_pos rfl, h0]; simp
  · rw [if_neg hv]
    have habs : (if v < 0 then -1 * v else v) = |v| := by
      split
      · rename_i h; rw [abs_of_neg h]; ring
      · rename_i h; rw [abs_of_nonneg (not_lt.1 h)]
    rw [habs, fmt_filter]
    generalize hn : rne (|v| * 10 ^ d) = n
    by_cases h0 : n = 0
    · have hz : (List.map digVal (fmtDigits (i + d) d n)).sum = 0 := by
        rw [sum_digVal_eq_zero (fmtDigits_all _ _ _), natVal_fmtDigits]; exact h0
      rw [if_pos hz, if_pos h0]
    · have hz : (List.map digVal (fmtDigits (i + d) d n)).sum ≠ 0 := by
        rw [ne_eq, sum_digVal_eq_zero (fmtDigits_all _ _ _), natVal_fmtDigits]; exact h0
      have hne : suppress (fmtDigits (i + d) d n) zs ≠ [] :=
        suppress_ne_nil (fmtDigits_all _ _ _) zs (by rw [natVal_fmtDigits]; exact h0)
      rw [if_neg hz, if_neg h0]
      unfold suppress at hne ⊢
      rw [if_neg hne]
      split <;> simp

/-! ## Padding undoes suppression -/

theorem padded_suppress {D : Str} {m : ℕ} (hl : D.length = m) (zs : String) :
    padded (suppress D zs) m zs = D := by
  unfold padded suppress
  split
  · rename_i h
    obtain ⟨k, hk⟩ := rstrip_zero_decomp D
    have hlen := congrArg List.length hk
    rw [List.length_append, List.length_replicate, hl] at hlen
    have : m - (rstripBy (· == '0') D).length = k := by omega
    rw [this]; exact hk.symm
  · split
    · obtain ⟨k, hk⟩ := lstrip_zero_decomp D
      have hlen := congrArg List.length hk
      rw [List.length_append, List.length_replicate, hl] at hlen
      unfold lstripBy
      have : m - (D.dropWhile (· == '0')).length = k := by omega
      rw [this]; exact hk.symm
    · rfl

/-- Value denoted by a suppressed digit string of any padded length `L ≥ m`: the digits after
position `i` are decimals. -/
theorem natVal_padded_leading {s : Str} {m : ℕ} :
    natVal (padded s m "leading") = natVal s := by
  unfold padded
  rw [if_neg (by decide), if_pos rfl, natVal_append]; simp

theorem length_padded {s : Str} {m : ℕ} {zs : String} (hz : zs = "leading" ∨ zs = "trailing") :
    (padded s m zs).length = max m s.length := by
  unfold padded
  rcases hz with rfl | rfl
  · rw [if_neg (by decide), if_pos rfl]; simp; omega
  · rw [if_pos rfl]; simp; omega

end Verif.Utils
