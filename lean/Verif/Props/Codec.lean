import Verif.Lemmas.Codec

/-!
# C01-C06: coordinate numbers

Statements are about `parseGerberValue` / `writeGerberValue`.  `n / 10^d` with an integer `n`
is a value on the grid of a format with `d` decimals; it fits a format with `i` integer digits
iff `|n| < 10^(i+d)`.  `natVal s` is the value of the digit string `s`.
-/

namespace Verif.Utils
open Verif.Py

/-! ## Helper facts -/

/-- Combined effect of writing and parsing when the digits have nominal length. -/
private theorem write_parse_core {i d : ℕ} (hi : i ≤ 6) (hd : d ≤ 7) (v : ℚ) (zs : String)
    (hN : rne (|v| * 10 ^ d) < 10 ^ (i + d))
    (hz : zs = "leading" ∨ (1 ≤ i ∧ 1 ≤ d)) :
    ∃ s, writeGerberValue v (i, d) zs = .ok s ∧
      parseGerberValue s (i, d) zs =
        .ok ((if v < 0 then -(rne (|v| * 10 ^ d) : ℚ) else rne (|v| * 10 ^ d)) / 10 ^ d) := by
  rw [write_eq hi hd]
  generalize hn : rne (|v| * 10 ^ d) = n at hN
  refine ⟨_, rfl, ?_⟩
  by_cases h0 : n = 0
  · subst h0
    rw [if_pos rfl, parse_digits (s := ['0']) rfl (by simp) hi hd]
    have : natVal (padded ['0'] (i + d) zs) = 0 := by
      unfold padded
      split
      · rw [natVal_append, natVal_singleton]; simp [digVal]
      · split
        · rw [natVal_append, natVal_singleton]; simp [digVal]
        · rfl
    rw [this]; simp
  · rw [if_neg h0]
    set D := fmtDigits (i + d) d n with hD
    have hall : D.all isDig = true := fmtDigits_all _ _ _
    have hv : natVal D = n := natVal_fmtDigits _ _ _
    have hsall := suppress_all hall zs
    have hsne := suppress_ne_nil hall zs (by rw [hv]; exact h0)
    -- value denoted by the suppressed digits
    have key : ((natVal (padded (suppress D zs) (i + d) zs) : ℚ) /
        10 ^ ((padded (suppress D zs) (i + d) zs).length - i)) = (n : ℚ) / 10 ^ d := by
      rcases hz with rfl | ⟨hi1, hd1⟩
      · have hlen : (suppress D "leading").length ≤ i + d := by
          unfold suppress
          rw [if_neg (by decide), if_pos rfl]
          exact length_le_of_natVal_lt hall (by rw [hv]; exact hN)
        rw [length_padded (Or.inl rfl), natVal_padded_leading]
        have h1 : natVal (suppress D "leading") = n := by
          unfold suppress
          rw [if_neg (by decide), if_pos rfl, lstripBy, natVal_dropWhile_zero, hv]
        have h2 : max (i + d) (suppress D "leading").length - i = d := by omega
        rw [h1, h2]
      · have hl : D.length = i + d := length_fmtDigits_in_range hi1 hd1 hN
        rw [padded_suppress hl, hv, hl, Nat.add_sub_cancel_left]
    by_cases hneg : v < 0
    · simp only [if_pos hneg, List.singleton_append]
      rw [parse_minus hsall hsne hi hd, key, neg_div]
    · simp only [if_neg hneg, List.nil_append]
      rw [parse_digits hsall hsne hi hd, key]

private theorem rne_of_grid {d : ℕ} {n : ℤ} {v : ℚ} (h : |v - n / 10 ^ d| * 10 ^ d < 1 / 2) :
    rne (|v| * 10 ^ d) = n.natAbs := by
  have hp : (0 : ℚ) < 10 ^ d := by positivity
  apply rne_eq_of_close (by positivity)
  have h1 : (n.natAbs : ℚ) = |(n : ℚ)| := by
    rw [← Int.cast_abs, Int.abs_eq_natAbs]; simp
  have h2 : |v| * 10 ^ d = |v * 10 ^ d| := by rw [abs_mul, abs_of_pos hp]
  have h3 : |v - n / 10 ^ d| * 10 ^ d = |v * 10 ^ d - n| := by
    rw [← abs_of_pos hp, ← abs_mul, abs_of_pos hp]
    congr 1; field_simp
  rw [h1, h2]
  rw [h3] at h
  exact lt_of_le_of_lt (abs_abs_sub_abs_le_abs_sub _ _) h

private theorem sign_of_grid {d : ℕ} {n : ℤ} {v : ℚ} (h : |v - n / 10 ^ d| * 10 ^ d < 1 / 2)
    (hn : n ≠ 0) : v < 0 ↔ n < 0 := by
  have hp : (0 : ℚ) < 10 ^ d := by positivity
  have h3 : |v - n / 10 ^ d| * 10 ^ d = |v * 10 ^ d - n| := by
    rw [← abs_of_pos hp, ← abs_mul, abs_of_pos hp]
    congr 1; field_simp
  rw [h3, abs_lt] at h
  constructor
  · intro hv
    by_contra hc
    have : (1 : ℤ) ≤ n := by omega
    have : (1 : ℚ) ≤ n := by exact_mod_cast this
    have : v * 10 ^ d < 0 := mul_neg_of_neg_of_pos hv hp
    linarith [h.1]
  · intro hc
    by_contra hv
    have : n ≤ (-1 : ℤ) := by omega
    have : (n : ℚ) ≤ -1 := by exact_mod_cast this
    have : 0 ≤ v * 10 ^ d := mul_nonneg (not_lt.1 hv) hp.le
    linarith [h.2]

/-! ## C01 -/

/-- **C01, robust form.** Let `n / 10^d` be a grid value that fits the format, and let `v` be any
number closer to it than half a grid step.  Then writing `v` and parsing the text gives exactly
`n / 10^d`.  In leading-suppression mode this holds for all accepted formats; in trailing mode
(and without suppression) the format needs at least one integer and one decimal digit
(`C01_trailing_no_decimals_violated`, `C01_trailing_no_integers_violated` show why). -/
theorem C01_write_parse_near_partial {i d : ℕ} (hi : i ≤ 6) (hd : d ≤ 7) (zs : String)
    (hz : zs = "leading" ∨ (1 ≤ i ∧ 1 ≤ d)) (n : ℤ) (hn : n.natAbs < 10 ^ (i + d)) (v : ℚ)
    (hv : |v - n / 10 ^ d| * 10 ^ d < 1 / 2) :
    ∃ s, writeGerberValue v (i, d) zs = .ok s ∧
      parseGerberValue s (i, d) zs = .ok (n / 10 ^ d) := by
  have hr := rne_of_grid hv
  obtain ⟨s, h1, h2⟩ := write_parse_core hi hd v zs (by rw [hr]; exact hn) hz
  refine ⟨s, h1, ?_⟩
  rw [h2, hr]
  by_cases h0 : n = 0
  · subst h0; simp
  · congr 2
    have hs := sign_of_grid hv h0
    have h1 : (n.natAbs : ℚ) = |(n : ℚ)| := by
      rw [← Int.cast_abs, Int.abs_eq_natAbs]; simp
    by_cases hneg : n < 0
    · rw [if_pos (hs.2 hneg), h1, abs_of_neg (by exact_mod_cast hneg), neg_neg]
    · rw [if_neg (fun h => hneg (hs.1 h)), h1, abs_of_nonneg (by exact_mod_cast not_lt.1 hneg)]

/-- **C01.** Exact grid values survive writing and parsing. -/
theorem C01_write_parse_partial {i d : ℕ} (hi : i ≤ 6) (hd : d ≤ 7) (zs : String)
    (hz : zs = "leading" ∨ (1 ≤ i ∧ 1 ≤ d)) (n : ℤ) (hn : n.natAbs < 10 ^ (i + d)) :
    ∃ s, writeGerberValue (n / 10 ^ d) (i, d) zs = .ok s ∧
      parseGerberValue s (i, d) zs = .ok (n / 10 ^ d) :=
  C01_write_parse_near_partial hi hd zs hz n hn _ (by simp)

/-- **C01 with floating point.** Let `fl` be any rounding with relative error at most `2^-53`
(such as rounding to the nearest double).  The double nearest to a grid value is written as a
text whose exact value is that grid value; hence reading it back gives the same double. -/
theorem C01_write_parse_double_partial (fl : ℚ → ℚ) (hfl : ∀ x, |fl x - x| ≤ |x| / 2 ^ 53)
    {i d : ℕ} (hi : i ≤ 6) (hd : d ≤ 7) (zs : String)
    (hz : zs = "leading" ∨ (1 ≤ i ∧ 1 ≤ d)) (n : ℤ) (hn : n.natAbs < 10 ^ (i + d)) :
    ∃ s r, writeGerberValue (fl (n / 10 ^ d)) (i, d) zs = .ok s ∧
      parseGerberValue s (i, d) zs = .ok r ∧ fl r = fl (n / 10 ^ d) := by
  have hp : (0 : ℚ) < 10 ^ d := by positivity
  have hb : |fl (n / 10 ^ d) - n / 10 ^ d| * 10 ^ d < 1 / 2 := by
    have h1 := hfl (n / 10 ^ d)
    have h2 : |(n : ℚ) / 10 ^ d| * 10 ^ d = |(n : ℚ)| := by
      rw [abs_div, abs_of_pos hp]; field_simp
    have h3 : |(n : ℚ)| < 10 ^ 13 := by
      have h4 : (n.natAbs : ℚ) = |(n : ℚ)| := by
        rw [← Int.cast_abs, Int.abs_eq_natAbs]; simp
      rw [← h4]
      have : n.natAbs < 10 ^ 13 :=
        lt_of_lt_of_le hn (Nat.pow_le_pow_right (by norm_num) (by omega))
      exact_mod_cast this
    calc |fl (n / 10 ^ d) - n / 10 ^ d| * 10 ^ d
        ≤ |(n : ℚ) / 10 ^ d| / 2 ^ 53 * 10 ^ d := mul_le_mul_of_nonneg_right h1 hp.le
      _ = |(n : ℚ)| / 2 ^ 53 := by rw [div_mul_eq_mul_div, h2]
      _ < 1 / 2 := by
        rw [div_lt_iff₀ (by norm_num)]
        have : (10 : ℚ) ^ 13 < 1 / 2 * 2 ^ 53 := by norm_num
        linarith
  obtain ⟨s, h1, h2⟩ := C01_write_parse_near_partial hi hd zs hz n hn _ hb
  exact ⟨s, _, h1, h2, rfl⟩

-- hypotheses are met by ordinary data: 2:5 format, trailing suppression, -12.345
example : ∃ s, writeGerberValue ((-1234500 : ℤ) / 10 ^ 5) (2, 5) "trailing" = .ok s ∧
    parseGerberValue s (2, 5) "trailing" = .ok ((-1234500 : ℤ) / 10 ^ 5) :=
  C01_write_parse_partial (by norm_num) (by norm_num) _ (Or.inr (by norm_num)) _ (by norm_num)
example : writeGerberValue ((-1234500 : ℤ) / 10 ^ 5) (2, 5) "trailing" = .ok "-12345".toList := by
  decide +kernel
-- a non-trivial rounding satisfying the hypothesis of the floating point form
example : ∀ x : ℚ, |(fun x : ℚ => x * (1 + 1 / 2 ^ 53)) x - x| ≤ |x| / 2 ^ 53 := by
  intro x
  have : (fun x : ℚ => x * (1 + 1 / 2 ^ 53)) x - x = x * (1 / 2 ^ 53) := by simp only; ring
  rw [this, abs_mul, abs_of_pos (by positivity : (0:ℚ) < 1 / 2 ^ 53)]
  apply le_of_eq; ring

/-- **C01 fails** for formats without decimal digits in trailing mode: in 2:0 format the value 1
is written `001`, which reads as 0.1. -/
theorem C01_trailing_no_decimals_violated :
    writeGerberValue 1 (2, 0) "trailing" = .ok "001".toList ∧
    parseGerberValue "001".toList (2, 0) "trailing" = .ok (1 / 10) := by
  constructor <;> decide +kernel

/-- **C01 fails** for formats without integer digits in trailing mode: in 0:5 format 0.5 is
written `05`, which reads as 0.05. -/
theorem C01_trailing_no_integers_violated :
    writeGerberValue (1 / 2) (0, 5) "trailing" = .ok "05".toList ∧
    parseGerberValue "05".toList (0, 5) "trailing" = .ok (1 / 20) := by
  constructor <;> decide +kernel

/-! ## C02 -/

/-- **C02.** For every value that fits the format after rounding, the value read back is within
half a unit in the last place, and no grid value is closer. -/
theorem C02_write_rounds_to_nearest {i d : ℕ} (hi : i ≤ 6) (hd : d ≤ 7) (zs : String)
    (hz : zs = "leading" ∨ (1 ≤ i ∧ 1 ≤ d)) (v : ℚ)
    (hv : |v| * 10 ^ d < 10 ^ (i + d) - 1 / 2) :
    ∃ s r, writeGerberValue v (i, d) zs = .ok s ∧ parseGerberValue s (i, d) zs = .ok r ∧
      |r - v| ≤ 1 / 2 / 10 ^ d ∧ ∀ m : ℤ, |r - v| ≤ |m / 10 ^ d - v| := by
  have hp : (0 : ℚ) < 10 ^ d := by positivity
  have hx : (0 : ℚ) ≤ |v| * 10 ^ d := by positivity
  have hs := rne_spec hx
  have hN : rne (|v| * 10 ^ d) < 10 ^ (i + d) := by
    have : (rne (|v| * 10 ^ d) : ℚ) < ((10 ^ (i + d) : ℕ) : ℚ) := by
      push_cast; linarith [(abs_le.1 hs).2]
    exact_mod_cast this
  obtain ⟨s, h1, h2⟩ := write_parse_core hi hd v zs hN hz
  have hr : |(if v < 0 then -(rne (|v| * 10 ^ d) : ℚ) else rne (|v| * 10 ^ d)) / 10 ^ d - v|
      = |(rne (|v| * 10 ^ d) : ℚ) - |v| * 10 ^ d| / 10 ^ d := by
    rw [← abs_of_pos hp, ← abs_div, abs_of_pos hp]
    split
    · rename_i hneg
      rw [abs_of_neg hneg, ← abs_neg]; congr 1; field_simp; ring
    · rename_i hneg
      rw [abs_of_nonneg (not_lt.1 hneg)]; congr 1; field_simp
  refine ⟨s, _, h1, h2, ?_, ?_⟩
  · rw [hr]; exact div_le_div_of_nonneg_right hs hp.le
  · intro m
    -- both are grid values; a different grid value is at least half a step away
    set k : ℤ := if v < 0 then -(rne (|v| * 10 ^ d) : ℤ) else rne (|v| * 10 ^ d) with hk
    have hkq : ((if v < 0 then -(rne (|v| * 10 ^ d) : ℚ) else rne (|v| * 10 ^ d)) : ℚ)
        = (k : ℚ) := by
      rw [hk]; split <;> push_cast <;> rfl
    have hhalf : |(k : ℚ) / 10 ^ d - v| ≤ 1 / 2 / 10 ^ d := by
      rw [← hkq, hr]; exact div_le_div_of_nonneg_right hs hp.le
    rw [hkq]
    by_cases hmk : m = k
    · rw [hmk]
    · have h3 : (1 : ℚ) ≤ |(m : ℚ) - k| := by
        have : (1 : ℤ) ≤ |m - k| := Int.one_le_abs (sub_ne_zero.2 hmk)
        exact_mod_cast this
      have h4 : |(m : ℚ) - k| / 10 ^ d ≤ |(m : ℚ) / 10 ^ d - v| + |(k : ℚ) / 10 ^ d - v| := by
        calc |(m : ℚ) - k| / 10 ^ d = |(m : ℚ) / 10 ^ d - k / 10 ^ d| := by
              rw [← sub_div, abs_div, abs_of_pos hp]
          _ ≤ |(m : ℚ) / 10 ^ d - v| + |v - (k : ℚ) / 10 ^ d| := abs_sub_le _ _ _
          _ = _ := by rw [abs_sub_comm v]
      have h5 : (1 : ℚ) / 10 ^ d ≤ |(m : ℚ) - k| / 10 ^ d := div_le_div_of_nonneg_right h3 hp.le
      have h6 : (1 : ℚ) / 2 / 10 ^ d = 1 / 10 ^ d / 2 := by ring
      rw [h6] at hhalf
      linarith

example : |(2 / 3 : ℚ)| * 10 ^ 5 < 10 ^ (2 + 5) - 1 / 2 := by norm_num [abs_of_pos]

/-! ## C03 -/

/-- **C03.** Normal form of written coordinates: `0`, or an optional minus sign followed by a
non-empty digit string that does not begin (leading mode) / end (trailing mode) with `0`. -/
theorem C03_write_normal_form {i d : ℕ} (hi : i ≤ 6) (hd : d ≤ 7) (zs : String) (v : ℚ) :
    ∃ s, writeGerberValue v (i, d) zs = .ok s ∧
      (s = ['0'] ∨
        ∃ t, (s = t ∨ s = '-' :: t) ∧ t ≠ [] ∧ t.all isDig = true ∧
          (zs = "leading" → t.head? ≠ some '0') ∧
          (zs = "trailing" → t.getLast? ≠ some '0')) := by
  rw [write_eq hi hd]
  refine ⟨_, rfl, ?_⟩
  generalize rne (|v| * 10 ^ d) = n
  by_cases h0 : n = 0
  · left; rw [if_pos h0]
  · right
    rw [if_neg h0]
    have hall := fmtDigits_all (i + d) d n
    refine ⟨suppress (fmtDigits (i + d) d n) zs, ?_,
      suppress_ne_nil hall zs (by rw [natVal_fmtDigits]; exact h0), suppress_all hall zs, ?_, ?_⟩
    · by_cases hneg : v < 0
      · right; simp [hneg]
      · left; simp [hneg]
    · rintro rfl
      unfold suppress
      rw [if_neg (by decide), if_pos rfl, lstripBy]
      intro h
      cases hc : (fmtDigits (i + d) d n).dropWhile (· == '0') with
      | nil => rw [hc] at h; cases h
      | cons c t =>
        rw [hc] at h
        simp only [List.head?_cons, Option.some.injEq] at h
        exact head_dropWhile_zero _ _ _ hc h
    · rintro rfl
      unfold suppress rstripBy
      rw [if_pos rfl, List.getLast?_reverse]
      intro h
      cases hc : (fmtDigits (i + d) d n).reverse.dropWhile (· == '0') with
      | nil => rw [hc] at h; cases h
      | cons c t =>
        rw [hc] at h
        simp only [List.head?_cons, Option.some.injEq] at h
        exact head_dropWhile_zero _ _ _ hc h

/-- **C03.** For values that fit the format the digit part has at most `i + d` digits (formats
with at least one integer and one decimal digit, or leading suppression). -/
theorem C03_write_length {i d : ℕ} (hi : i ≤ 6) (hd : d ≤ 7) (hid : 1 ≤ i + d) (zs : String)
    (hz : zs = "leading" ∨ (1 ≤ i ∧ 1 ≤ d)) (v : ℚ)
    (hv : |v| * 10 ^ d < 10 ^ (i + d) - 1 / 2) :
    ∃ s t, writeGerberValue v (i, d) zs = .ok s ∧ (s = t ∨ s = '-' :: t) ∧
      t.all isDig = true ∧ t.length ≤ i + d := by
  rw [write_eq hi hd]
  have hx : (0 : ℚ) ≤ |v| * 10 ^ d := by positivity
  have hs := rne_spec hx
  have hN : rne (|v| * 10 ^ d) < 10 ^ (i + d) := by
    have : (rne (|v| * 10 ^ d) : ℚ) < ((10 ^ (i + d) : ℕ) : ℚ) := by
      push_cast; linarith [(abs_le.1 hs).2]
    exact_mod_cast this
  generalize rne (|v| * 10 ^ d) = n at hN
  by_cases h0 : n = 0
  · rw [if_pos h0]
    exact ⟨_, ['0'], rfl, Or.inl rfl, rfl, hid⟩
  · rw [if_neg h0]
    have hall := fmtDigits_all (i + d) d n
    refine ⟨_, suppress (fmtDigits (i + d) d n) zs, rfl, ?_, suppress_all hall zs, ?_⟩
    · by_cases hneg : v < 0
      · right; simp [hneg]
      · left; simp [hneg]
    · rcases hz with rfl | ⟨hi1, hd1⟩
      · unfold suppress
        rw [if_neg (by decide), if_pos rfl]
        exact length_le_of_natVal_lt hall (by rw [natVal_fmtDigits]; exact hN)
      · have hl : (fmtDigits (i + d) d n).length = i + d := length_fmtDigits_in_range hi1 hd1 hN
        unfold suppress
        split
        · obtain ⟨k, hk⟩ := rstrip_zero_decomp (fmtDigits (i + d) d n)
          have := congrArg List.length hk
          rw [List.length_append] at this; omega
        · split
          · have := (List.dropWhile_sublist (· == '0') (l := fmtDigits (i + d) d n)).length_le
            unfold lstripBy; omega
          · omega

/-- **C03.** Distinct grid values that fit the format are written differently. -/
theorem C03_write_injective {i d : ℕ} (hi : i ≤ 6) (hd : d ≤ 7) (zs : String)
    (hz : zs = "leading" ∨ (1 ≤ i ∧ 1 ≤ d)) (m n : ℤ) (hm : m.natAbs < 10 ^ (i + d))
    (hn : n.natAbs < 10 ^ (i + d))
    (h : writeGerberValue (m / 10 ^ d) (i, d) zs = writeGerberValue (n / 10 ^ d) (i, d) zs) :
    m = n := by
  obtain ⟨s, hs1, hs2⟩ := C01_write_parse_partial hi hd zs hz m hm
  obtain ⟨t, ht1, ht2⟩ := C01_write_parse_partial hi hd zs hz n hn
  rw [hs1, ht1] at h
  cases h
  rw [hs2] at ht2
  have h1 : (m : ℚ) / 10 ^ d = n / 10 ^ d := by injection ht2
  have hp : (10 : ℚ) ^ d ≠ 0 := by positivity
  have h2 : (m : ℚ) = n := by field_simp at h1; exact h1
  exact_mod_cast h2

example : writeGerberValue (5 / 10 ^ 5) (2, 5) "leading" = .ok "5".toList := by decide +kernel
example : writeGerberValue (-10) (2, 5) "trailing" = .ok "-1".toList := by decide +kernel

/-! ## C04 -/

/-- **C04 fails, always**: in every format with integer and decimal digits, every grid value that
does not fit (`|z| ≥ 10^(i+d)`) is written without error to a text that reads back as a *different*
value (of smaller magnitude), whatever the suppression mode. -/
theorem C04_out_of_range_always_corrupted {i d : ℕ} (hi : i ≤ 6) (hd : d ≤ 7)
    (hi1 : 1 ≤ i) (hd1 : 1 ≤ d) (zs : String) (z : ℤ) (hz : 10 ^ (i + d) ≤ z.natAbs) :
    ∃ s r, writeGerberValue (z / 10 ^ d) (i, d) zs = .ok s ∧
      parseGerberValue s (i, d) zs = .ok r ∧ |r| < |(z : ℚ) / 10 ^ d| := by
  have hp : (0 : ℚ) < 10 ^ d := by positivity
  have hr : rne (|(z : ℚ) / 10 ^ d| * 10 ^ d) = z.natAbs := rne_of_grid (by simp)
  have habs : |(z : ℚ) / 10 ^ d| = (z.natAbs : ℚ) / 10 ^ d := by
    have h4 : (z.natAbs : ℚ) = |(z : ℚ)| := by
      rw [← Int.cast_abs, Int.abs_eq_natAbs]; simp
    rw [abs_div, abs_of_pos hp, h4]
  rw [write_eq hi hd, hr, habs]
  generalize z.natAbs = n at hz
  have hn := hz
  have hnpos : 0 < n := lt_of_lt_of_le (by positivity) hn
  rw [if_neg (by omega)]
  set D := fmtDigits (i + d) d n with hD
  have hall : D.all isDig = true := fmtDigits_all _ _ _
  have hv : natVal D = n := natVal_fmtDigits _ _ _
  have hlen : i + d < D.length := by
    by_contra hc
    have h1 := natVal_lt hall
    rw [hv] at h1
    have h2 : 10 ^ D.length ≤ 10 ^ (i + d) := Nat.pow_le_pow_right (by norm_num) (by omega)
    omega
  have hsne := suppress_ne_nil hall zs (by rw [hv]; omega)
  -- the parsed value is n / 10^(k) with k > d
  have hnq : (0 : ℚ) < n := by exact_mod_cast hnpos
  have key : ∃ k, d < k ∧ ((natVal (padded (suppress D zs) (i + d) zs) : ℚ) /
        10 ^ ((padded (suppress D zs) (i + d) zs).length - i)) = (n : ℚ) / 10 ^ k := by
    by_cases hzt : zs = "trailing"
    · -- trailing
      subst hzt
      obtain ⟨k, hk⟩ := rstrip_zero_decomp D
      have hsD : suppress D "trailing" = rstripBy (· == '0') D := by
        unfold suppress; rw [if_pos rfl]
      rw [hsD]
      set E := rstripBy (· == '0') D with hE
      have hDl : D.length = E.length + k := by
        have := congrArg List.length hk; simpa using this
      have hDv : n = natVal E * 10 ^ k := by
        rw [← hv, hk, natVal_append]; simp
      have hpad : padded E (i + d) "trailing" = E ++ List.replicate (i + d - E.length) '0' := by
        unfold padded; rw [if_pos rfl]
      rw [hpad, natVal_append]
      simp only [natVal_replicate_zero, List.length_replicate, List.length_append, add_zero]
      refine ⟨D.length - i, by omega, ?_⟩
      rw [hDv]
      push_cast
      rw [div_eq_div_iff (by positivity) (by positivity)]
      rw [mul_assoc, mul_assoc, ← pow_add, ← pow_add]
      congr 2
      omega
    · by_cases hzl : zs = "leading"
      · subst hzl
        have hsD : suppress D "leading" = D := by
          unfold suppress
          rw [if_neg (by decide), if_pos rfl, lstripBy]
          obtain ⟨k, hk⟩ := lstrip_zero_decomp D
          -- natStr of a value ≥ 10 has no leading zero and no padding happens
          have hrep : D = natStr (n / 10 ^ d) ++ fixDigits d (n % 10 ^ d) := by
            rw [hD]; unfold fmtDigits
            have : i + d + 1 - (fixedStr d n).length = 0 := by
              have h1 := length_fmtDigits (i + d) d n
              rw [← hD, if_neg (by omega)] at h1
              rw [length_fixedStr, if_neg (by omega)]
              omega
            rw [this]; rfl
          have hq : n / 10 ^ d ≠ 0 := by
            have : 10 ^ d ≤ n := le_trans (Nat.pow_le_pow_right (by norm_num) (by omega)) hn
            exact (Nat.div_pos this (by positivity)).ne'
          rcases natStr_cases (n / 10 ^ d) with ⟨h0, _⟩ | ⟨_, c, t, hc, hne, _⟩
          · exact absurd h0 hq
          · rw [hrep, hc, List.cons_append]
            exact dropWhile_head_false (by simpa using hne)
        rw [hsD, natVal_padded_leading, length_padded (Or.inl rfl), hv]
        exact ⟨D.length - i, by omega, by rw [max_eq_right (by omega)]⟩
      · have h1 : suppress D zs = D := by unfold suppress; rw [if_neg hzt, if_neg hzl]
        have h2 : padded D (i + d) zs = D := by unfold padded; rw [if_neg hzt, if_neg hzl]
        rw [h1, h2, hv]
        exact ⟨D.length - i, by omega, rfl⟩
  obtain ⟨k, hk, he⟩ := key
  have hlt : (n : ℚ) / 10 ^ k < n / 10 ^ d :=
    div_lt_div_of_pos_left hnq hp (pow_lt_pow_right₀ (by norm_num) hk)
  have hpos : (0 : ℚ) ≤ n / 10 ^ k := by positivity
  by_cases hneg : (z : ℚ) / 10 ^ d < 0
  · rw [if_pos hneg]
    refine ⟨_, _, rfl, parse_minus (suppress_all hall zs) hsne hi hd zs, ?_⟩
    rw [he, abs_neg, abs_of_nonneg hpos]; exact hlt
  · rw [if_neg hneg]
    refine ⟨_, _, rfl, parse_digits (suppress_all hall zs) hsne hi hd zs, ?_⟩
    rw [he, abs_of_nonneg hpos]; exact hlt

example : writeGerberValue 100 (2, 5) "leading" = .ok "10000000".toList ∧
    parseGerberValue "10000000".toList (2, 5) "leading" = .ok 10 := by
  constructor <;> decide +kernel

/-! ## C05 -/

/-- **C05.** Meaning of a digit string in leading-suppression mode. -/
theorem C05_parse_leading {s : Str} (hs : s.all isDig = true) (hne : s ≠ []) {i d : ℕ}
    (hi : i ≤ 6) (hd : d ≤ 7) (hlen : s.length ≤ i + d) :
    parseGerberValue s (i, d) "leading" = .ok (natVal s / 10 ^ d) := by
  rw [parse_digits hs hne hi hd, natVal_padded_leading, length_padded (Or.inl rfl),
    max_eq_left hlen, Nat.add_sub_cancel_left]

/-- **C05.** Meaning of a digit string in trailing-suppression mode: the decimal point is after
the `i`-th digit of the text. -/
theorem C05_parse_trailing {s : Str} (hs : s.all isDig = true) (hne : s ≠ []) {i d : ℕ}
    (hi : i ≤ 6) (hd : d ≤ 7) (hlen : s.length ≤ i + d) :
    parseGerberValue s (i, d) "trailing" =
      .ok ((natVal s : ℚ) * (10 : ℚ) ^ ((i : ℤ) - s.length)) := by
  rw [parse_digits hs hne hi hd, length_padded (Or.inr rfl), max_eq_left hlen,
    Nat.add_sub_cancel_left]
  congr 1
  unfold padded
  rw [if_pos rfl, natVal_append]
  simp only [natVal_replicate_zero, List.length_replicate, add_zero]
  push_cast
  rw [mul_div_assoc]
  congr 1
  rw [← zpow_natCast, ← zpow_natCast, ← zpow_sub₀ (by norm_num)]
  congr 1; push_cast [Nat.cast_sub hlen]; ring

/-- **C05.** A leading minus sign negates, a leading plus sign is ignored. -/
theorem C05_parse_sign {s : Str} (hs : s.all isDig = true) (hne : s ≠ []) {i d : ℕ}
    (hi : i ≤ 6) (hd : d ≤ 7) (zs : String) :
    ∃ r, parseGerberValue s (i, d) zs = .ok r ∧ parseGerberValue ('-' :: s) (i, d) zs = .ok (-r) ∧
      parseGerberValue ('+' :: s) (i, d) zs = .ok r := by
  refine ⟨_, parse_digits hs hne hi hd zs, parse_minus hs hne hi hd zs, ?_⟩
  rw [parse_plus _ _ (digits_not_mem hs rfl), parse_digits hs hne hi hd zs]

/-- **C05.** Every signed digit string, of any length and in every mode, denotes a value below
`10^i` in magnitude. -/
theorem C05_parse_bounded {s : Str} (hs : s.all isDig = true) (hne : s ≠ []) {i d : ℕ}
    (hi : i ≤ 6) (hd : d ≤ 7) (zs : String) :
    ∃ r, parseGerberValue s (i, d) zs = .ok r ∧ 0 ≤ r ∧ r < 10 ^ i ∧ r < 10 ^ 6 := by
  refine ⟨_, parse_digits hs hne hi hd zs, by positivity, ?_⟩
  have hlt : ((natVal (padded s (i + d) zs) : ℚ) /
      10 ^ ((padded s (i + d) zs).length - i)) < 10 ^ i := by
    rw [div_lt_iff₀ (by positivity), ← pow_add]
    have h1 := natVal_lt (padded_all hs (i + d) zs)
    have h2 : 10 ^ (padded s (i + d) zs).length ≤ 10 ^ (i + ((padded s (i + d) zs).length - i)) :=
      Nat.pow_le_pow_right (by norm_num) (by omega)
    exact_mod_cast lt_of_lt_of_le h1 h2
  exact ⟨hlt, lt_of_lt_of_le hlt (pow_le_pow_right₀ (by norm_num) hi)⟩

example : parseGerberValue "-001".toList (2, 5) "trailing" = .ok (-1 / 10) := by decide +kernel

/-! ## C06 -/

/-- **C06.** Writing raises (a `ValueError`) exactly for unsupported formats. -/
theorem C06_write_rejects_iff (v : ℚ) (i d : ℕ) (zs : String) :
    (∃ e, writeGerberValue v (i, d) zs = .error e) ↔ (6 < i ∨ 7 < d ∨ 13 < i + d) := by
  constructor
  · rintro ⟨e, he⟩
    by_contra hc
    rw [write_eq (by omega) (by omega)] at he
    cases he
  · intro h
    refine ⟨.valueError, ?_⟩
    unfold writeGerberValue
    rw [if_pos (badFormat_true.2 (by omega))]

/-- **C06.** Parsing a signed digit string raises (a `ValueError`) exactly for unsupported
formats. -/
theorem C06_parse_rejects_iff {s : Str} (hs : s.all isDig = true) (hne : s ≠ [])
    (sign : Str) (hsign : sign = [] ∨ sign = ['+'] ∨ sign = ['-']) (i d : ℕ) (zs : String) :
    (∃ e, parseGerberValue (sign ++ s) (i, d) zs = .error e) ↔ (6 < i ∨ 7 < d ∨ 13 < i + d) := by
  constructor
  · rintro ⟨e, he⟩
    by_contra hc
    obtain ⟨r, h1, h2, h3⟩ := C05_parse_sign hs hne (i := i) (d := d) (by omega) (by omega) zs
    rcases hsign with rfl | rfl | rfl
    · rw [List.nil_append, h1] at he; cases he
    · rw [List.singleton_append, h3] at he; cases he
    · rw [List.singleton_append, h2] at he; cases he
  · intro h
    refine ⟨.valueError, ?_⟩
    unfold parseGerberValue
    rw [if_neg, if_pos (badFormat_true.2 (by omega))]
    have := digits_not_mem hs (c := '.') rfl
    rcases hsign with rfl | rfl | rfl <;> simp [this]

/-- **C06.** An unsupported format is rejected for every text without a decimal point. -/
theorem C06_parse_rejects_format (s : Str) (hs : '.' ∉ s) (i d : ℕ) (zs : String)
    (h : 6 < i ∨ 7 < d ∨ 13 < i + d) : parseGerberValue s (i, d) zs = .error .valueError := by
  unfold parseGerberValue
  rw [if_neg hs, if_pos (badFormat_true.2 (by omega))]

example : parseGerberValue "12".toList (7, 2) "leading" = .error .valueError := by decide +kernel

end Verif.Utils
