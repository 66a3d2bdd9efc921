import Verif.Py.Format
import Verif.Lemmas.PyNum
import Mathlib.Algebra.Order.Field.Power
import Mathlib.Tactic.Linarith
import Mathlib.Tactic.Positivity
import Mathlib.Tactic.FieldSimp
import Mathlib.Tactic.Ring

/-! # Lemmas about `%g` formatting -/

namespace Verif.Py

/-! ## Number of digits and logarithm -/

theorem natStr_lt (n : ℕ) : n < 10 ^ (natStr n).length := by
  have := natVal_lt (natStr_all n)
  rwa [natVal_natStr] at this

theorem natStr_ge {n : ℕ} (h : n ≠ 0) : 10 ^ ((natStr n).length - 1) ≤ n := by
  by_contra hc
  rw [not_le] at hc
  have hlen := natStr_length_pos n
  by_cases h1 : (natStr n).length = 1
  · rw [h1] at hc; simp at hc; exact h hc
  · have := natStr_length_le (n := n) (w := (natStr n).length - 1) (by omega) hc
    omega

theorem log10floor_spec {x : ℚ} (hx : 0 < x) :
    (10 : ℚ) ^ log10floor x ≤ x ∧ x < (10 : ℚ) ^ (log10floor x + 1) := by
  have hn : 0 < x.num := Rat.num_pos.2 hx
  have hn0 : x.num.natAbs ≠ 0 := by omega
  have hd0 : x.den ≠ 0 := x.den_nz
  have hA := natStr_ge hn0
  have hB := natStr_lt x.num.natAbs
  have hC := natStr_ge hd0
  have hD := natStr_lt x.den
  have hla := natStr_length_pos x.num.natAbs
  have hlb := natStr_length_pos x.den
  have hxe : x = (x.num.natAbs : ℚ) / x.den := by
    have h1 : ((x.num.natAbs : ℕ) : ℚ) = (x.num : ℚ) := by
      rw [Nat.cast_natAbs, abs_of_pos hn]
    rw [h1]; exact (Rat.num_div_den x).symm
  unfold log10floor
  generalize (natStr x.num.natAbs).length = la at *
  generalize (natStr x.den).length = lb at *
  have hdpos : (0 : ℚ) < x.den := by exact_mod_cast Nat.pos_of_ne_zero hd0
  have hA' : (10 : ℚ) ^ (la - 1) ≤ (x.num.natAbs : ℚ) := by exact_mod_cast hA
  have hB' : (x.num.natAbs : ℚ) < (10 : ℚ) ^ la := by exact_mod_cast hB
  have hC' : (10 : ℚ) ^ (lb - 1) ≤ (x.den : ℚ) := by exact_mod_cast hC
  have hD' : (x.den : ℚ) < (10 : ℚ) ^ lb := by exact_mod_cast hD
  have h10 : (10 : ℚ) ≠ 0 := by norm_num
  have up : x < (10 : ℚ) ^ ((la : ℤ) - lb + 1) := by
    rw [hxe, div_lt_iff₀ hdpos]
    calc (x.num.natAbs : ℚ) < (10 : ℚ) ^ la := hB'
      _ = (10 : ℚ) ^ ((la : ℤ) - lb + 1) * (10 : ℚ) ^ (lb - 1) := by
          rw [← zpow_natCast, ← zpow_natCast, ← zpow_add₀ h10]
          congr 1; omega
      _ ≤ (10 : ℚ) ^ ((la : ℤ) - lb + 1) * x.den :=
          mul_le_mul_of_nonneg_left hC' (by positivity)
  have low : (10 : ℚ) ^ ((la : ℤ) - lb - 1) ≤ x := by
    rw [hxe, le_div_iff₀ hdpos]
    calc (10 : ℚ) ^ ((la : ℤ) - lb - 1) * x.den ≤ (10 : ℚ) ^ ((la : ℤ) - lb - 1) * (10 : ℚ) ^ lb :=
          mul_le_mul_of_nonneg_left hD'.le (by positivity)
      _ = (10 : ℚ) ^ (la - 1) := by
          rw [← zpow_natCast, ← zpow_natCast, ← zpow_add₀ h10]
          congr 1; omega
      _ ≤ _ := hA'
  simp only
  split
  · rename_i h; exact ⟨h, up⟩
  · rename_i h; exact ⟨low, by rw [sub_add_cancel]; exact not_le.1 h⟩

/-! ## Rounding to significant digits -/

/-- `x` rounded to `P` significant decimal digits, half even. -/
def sigRound (P : ℕ) (x : ℚ) : ℚ :=
  if x = 0 then 0
  else if x < 0 then -((sciRound P (-x)).1 * (10 : ℚ) ^ ((sciRound P (-x)).2 - ((P : ℤ) - 1)))
  else (sciRound P x).1 * (10 : ℚ) ^ ((sciRound P x).2 - ((P : ℤ) - 1))

private theorem mant_bounds {P : ℕ} (hP : 1 ≤ P) {x : ℚ} (hx : 0 < x) :
    (10 : ℚ) ^ (P - 1) ≤ x / (10 : ℚ) ^ (log10floor x - ((P : ℤ) - 1)) ∧
    x / (10 : ℚ) ^ (log10floor x - ((P : ℤ) - 1)) < (10 : ℚ) ^ P := by
  obtain ⟨h1, h2⟩ := log10floor_spec hx
  generalize log10floor x = e at *
  have h10 : (10 : ℚ) ≠ 0 := by norm_num
  have hp : (0 : ℚ) < (10 : ℚ) ^ (e - ((P : ℤ) - 1)) := by positivity
  constructor
  · rw [le_div_iff₀ hp, ← zpow_natCast, ← zpow_add₀ h10]
    rw [show ((P - 1 : ℕ) : ℤ) + (e - ((P : ℤ) - 1)) = e by omega]; exact h1
  · rw [div_lt_iff₀ hp, ← zpow_natCast, ← zpow_add₀ h10]
    rw [show (P : ℤ) + (e - ((P : ℤ) - 1)) = e + 1 by ring]; exact h2

/-- The mantissa has exactly `P` digits and the rounded value is within half a unit of the last
significant digit. -/
theorem sciRound_spec {P : ℕ} (hP : 1 ≤ P) {x : ℚ} (hx : 0 < x) :
    10 ^ (P - 1) ≤ (sciRound P x).1 ∧ (sciRound P x).1 < 10 ^ P ∧
    |((sciRound P x).1 : ℚ) * (10 : ℚ) ^ ((sciRound P x).2 - ((P : ℤ) - 1)) - x| ≤
      (10 : ℚ) ^ (log10floor x - ((P : ℤ) - 1)) / 2 := by
  obtain ⟨h1, h2⟩ := mant_bounds hP hx
  have hp : (0 : ℚ) < (10 : ℚ) ^ (log10floor x - ((P : ℤ) - 1)) := by positivity
  have h10 : (10 : ℚ) ≠ 0 := by norm_num
  unfold sciRound
  have hy0 : 0 ≤ x / (10 : ℚ) ^ (log10floor x - ((P : ℤ) - 1)) := by positivity
  have hs := rne_spec hy0
  have hxe : x = x / (10 : ℚ) ^ (log10floor x - ((P : ℤ) - 1)) *
      (10 : ℚ) ^ (log10floor x - ((P : ℤ) - 1)) := by field_simp
  have err : |(rne (x / (10 : ℚ) ^ (log10floor x - ((P : ℤ) - 1))) : ℚ) *
      (10 : ℚ) ^ (log10floor x - ((P : ℤ) - 1)) - x| ≤
      (10 : ℚ) ^ (log10floor x - ((P : ℤ) - 1)) / 2 := by
    generalize log10floor x - ((P : ℤ) - 1) = w at *
    have : (rne (x / (10 : ℚ) ^ w) : ℚ) * (10 : ℚ) ^ w - x =
        ((rne (x / (10 : ℚ) ^ w) : ℚ) - x / (10 : ℚ) ^ w) * (10 : ℚ) ^ w := by
      rw [sub_mul, ← hxe]
    rw [this, abs_mul, abs_of_pos hp]
    calc _ ≤ 1 / 2 * (10 : ℚ) ^ w := mul_le_mul_of_nonneg_right hs hp.le
      _ = _ := by ring
  generalize hy : x / (10 : ℚ) ^ (log10floor x - ((P : ℤ) - 1)) = y at *
  have hlo : 10 ^ (P - 1) ≤ rne y := by
    rw [abs_le] at hs
    by_contra hc
    have : (rne y : ℚ) ≤ (10 : ℚ) ^ (P - 1) - 1 := by
      have : rne y + 1 ≤ 10 ^ (P - 1) := by omega
      have : ((rne y : ℚ) + 1) ≤ (10 : ℚ) ^ (P - 1) := by exact_mod_cast this
      linarith
    linarith
  have hhi : rne y ≤ 10 ^ P := by
    rw [abs_le] at hs
    by_contra hc
    have : (10 : ℚ) ^ P + 1 ≤ rne y := by
      have : 10 ^ P + 1 ≤ rne y := by omega
      exact_mod_cast this
    linarith
  simp only [hy]
  split
  · rename_i h
    refine ⟨le_refl _, Nat.pow_lt_pow_right (by norm_num) (by omega), ?_⟩
    rw [h] at err
    have : (((10 ^ (P - 1) : ℕ) : ℚ)) * (10 : ℚ) ^ (log10floor x + 1 - ((P : ℤ) - 1)) =
        ((10 ^ P : ℕ) : ℚ) * (10 : ℚ) ^ (log10floor x - ((P : ℤ) - 1)) := by
      push_cast
      rw [← zpow_natCast, ← zpow_natCast, ← zpow_add₀ h10, ← zpow_add₀ h10]
      congr 1; omega
    rw [this]; exact err
  · rename_i h
    exact ⟨hlo, by simp only; omega, err⟩

theorem sigRound_close {P : ℕ} (hP : 1 ≤ P) (x : ℚ) :
    |sigRound P x - x| ≤ |x| / (2 * 10 ^ (P - 1)) := by
  have key : ∀ y : ℚ, 0 < y → (10 : ℚ) ^ (log10floor y - ((P : ℤ) - 1)) / 2 ≤
      y / (2 * 10 ^ (P - 1)) := by
    intro y hy
    obtain ⟨h1, _⟩ := log10floor_spec hy
    rw [div_le_div_iff₀ (by norm_num) (by positivity)]
    have : (10 : ℚ) ^ (log10floor y - ((P : ℤ) - 1)) * 10 ^ (P - 1) = (10 : ℚ) ^ log10floor y := by
      rw [← zpow_natCast, ← zpow_add₀ (by norm_num : (10 : ℚ) ≠ 0)]
      congr 1; omega
    calc _ = 2 * ((10 : ℚ) ^ (log10floor y - ((P : ℤ) - 1)) * 10 ^ (P - 1)) := by ring
      _ ≤ y * 2 := by rw [this]; linarith
  unfold sigRound
  split
  · rename_i h; simp [h]
  · rename_i h
    split
    · rename_i hneg
      have := (sciRound_spec hP (x := -x) (by linarith)).2.2
      have k := key (-x) (by linarith)
      rw [abs_of_neg hneg, show ∀ a : ℚ, |-a - x| = |a - (-x)| by
        intro a; rw [← abs_neg]; congr 1; ring]
      linarith
    · rename_i hneg
      have hpos : 0 < x := lt_of_le_of_ne (not_lt.1 hneg) (Ne.symm h)
      have := (sciRound_spec hP hpos).2.2
      have k := key x hpos
      rw [abs_of_pos hpos]
      linarith

theorem sciRound_exact {P : ℕ} (hP : 1 ≤ P) {x : ℚ} (hx : 0 < x) {z : ℕ} {k : ℤ}
    (hz : z < 10 ^ P) (he : x = z * (10 : ℚ) ^ k) :
    ((sciRound P x).1 : ℚ) * (10 : ℚ) ^ ((sciRound P x).2 - ((P : ℤ) - 1)) = x := by
  obtain ⟨h1, h2⟩ := log10floor_spec hx
  obtain ⟨m1, m2⟩ := mant_bounds hP hx
  have h10 : (10 : ℚ) ≠ 0 := by norm_num
  unfold sciRound
  generalize hE : log10floor x = e at *
  have hke : e - ((P : ℤ) - 1) ≤ k := by
    by_contra hc
    have hlt : x < (10 : ℚ) ^ e := by
      rw [he]
      calc (z : ℚ) * (10 : ℚ) ^ k < (10 : ℚ) ^ P * (10 : ℚ) ^ k := by
            apply mul_lt_mul_of_pos_right _ (by positivity)
            exact_mod_cast hz
        _ = (10 : ℚ) ^ ((P : ℤ) + k) := by rw [← zpow_natCast, ← zpow_add₀ h10]
        _ ≤ (10 : ℚ) ^ e := zpow_le_zpow_right₀ (by norm_num) (by omega)
    linarith
  obtain ⟨j, hj⟩ := Int.eq_ofNat_of_zero_le (sub_nonneg.2 hke)
  have hint : x / (10 : ℚ) ^ (e - ((P : ℤ) - 1)) = ((z * 10 ^ j : ℕ) : ℚ) := by
    rw [div_eq_iff (by positivity), he]
    push_cast
    rw [mul_assoc, ← zpow_natCast, ← zpow_add₀ h10]
    congr 2; omega
  rw [hint] at m2
  have hr : rne ((z * 10 ^ j : ℕ) : ℚ) = z * 10 ^ j := rne_natCast _
  simp only [hint, hr]
  have hlt : z * 10 ^ j < 10 ^ P := by exact_mod_cast m2
  rw [if_neg (by omega)]
  simp only
  rw [← hint]
  field_simp

/-- Values with at most `P` significant digits are printed exactly. -/
theorem sigRound_exact {P : ℕ} (hP : 1 ≤ P) {x : ℚ} {z : ℤ} {k : ℤ}
    (hz : z.natAbs < 10 ^ P) (he : x = z * (10 : ℚ) ^ k) : sigRound P x = x := by
  unfold sigRound
  have h10 : (0 : ℚ) < (10 : ℚ) ^ k := by positivity
  split
  · rename_i h; exact h.symm
  · rename_i h
    split
    · rename_i hneg
      have hzneg : z < 0 := by
        by_contra hc
        have : (0 : ℚ) ≤ (z : ℚ) := by exact_mod_cast not_lt.1 hc
        have : 0 ≤ x := by rw [he]; positivity
        linarith
      rw [sciRound_exact hP (x := -x) (by linarith) (z := z.natAbs) (k := k) hz, neg_neg]
      have : ((z.natAbs : ℕ) : ℚ) = -(z : ℚ) := by
        rw [Nat.cast_natAbs, abs_of_neg hzneg]; push_cast; rfl
      rw [this, he]; ring
    · rename_i hneg
      have hpos : 0 < x := lt_of_le_of_ne (not_lt.1 hneg) (Ne.symm h)
      have hzpos : 0 ≤ z := by
        by_contra hc
        have : (z : ℚ) < 0 := by exact_mod_cast not_le.1 hc
        have : x < 0 := by rw [he]; exact mul_neg_of_neg_of_pos this h10
        linarith
      apply sciRound_exact hP hpos (z := z.natAbs) (k := k) hz
      have : ((z.natAbs : ℕ) : ℚ) = (z : ℚ) := by
        rw [Nat.cast_natAbs, abs_of_nonneg hzpos]
      rw [this, he]

/-! ## The printed text -/

theorem rstripBy_append (p : Char → Bool) (a b : Str) :
    rstripBy p (a ++ b) = if rstripBy p b = [] then rstripBy p a else a ++ rstripBy p b := by
  unfold rstripBy
  rw [List.reverse_append, List.dropWhile_append]
  by_cases h : (b.reverse.dropWhile p) = []
  · simp [h]
  · simp [h]

/-- Shape of a trimmed fixed-notation number: integer part, or integer part, point and a
non-empty fractional part; and its value. -/
theorem trimFrac_shape_last (d m : ℕ) : ∃ ip f : Str, ip ≠ [] ∧ ip.all isDig = true ∧
    f.all isDig = true ∧ (natVal (ip ++ f) : ℚ) / 10 ^ f.length = (m : ℚ) / 10 ^ d ∧
    f.getLast? ≠ some '0' ∧ ((f = [] ∧ trimFrac d m = ip) ∨ (f ≠ [] ∧ trimFrac d m = ip ++ '.' :: f)) := by
  by_cases hd : d = 0
  · subst hd
    refine ⟨natStr m, [], natStr_ne_nil _, natStr_all _, rfl, by simp [natVal_natStr], by simp, ?_⟩
    left; simp [trimFrac, fixedStr]
  · have hfd : (fixDigits d (m % 10 ^ d)).all isDig = true := all_fixDigits _ _
    have hlen := length_fixDigits d (m % 10 ^ d)
    have hval : natVal (fixDigits d (m % 10 ^ d)) = m % 10 ^ d :=
      natVal_fixDigits_of_lt (Nat.mod_lt _ (by positivity))
    have hdm := Nat.div_add_mod m (10 ^ d)
    have hfix : fixedStr d m = natStr (m / 10 ^ d) ++ '.' :: fixDigits d (m % 10 ^ d) := by
      simp [fixedStr, hd]
    have htrim : trimFrac d m = rstripBy (· == '.') (rstripBy (· == '0') (fixedStr d m)) := by
      simp [trimFrac, hd]
    rw [htrim, hfix]
    generalize fixDigits d (m % 10 ^ d) = fp at *
    obtain ⟨k, hk⟩ := rstrip_zero_decomp fp
    have hfall : (rstripBy (· == '0') fp).all isDig = true := by
      unfold rstripBy; rw [List.all_reverse]
      exact all_dropWhile (by rw [List.all_reverse]; exact hfd)
    have h1 : rstripBy (· == '0') (natStr (m / 10 ^ d) ++ '.' :: fp) =
        natStr (m / 10 ^ d) ++ '.' :: rstripBy (· == '0') fp := by
      rw [show natStr (m / 10 ^ d) ++ '.' :: fp = (natStr (m / 10 ^ d) ++ ['.']) ++ fp by simp,
        rstripBy_append]
      split
      · rename_i h
        rw [h, rstripBy_append]
        have : rstripBy (· == '0') ['.'] = ['.'] := by rfl
        rw [this]; simp
      · simp
    rw [h1]
    have hlast : (rstripBy (· == '0') fp).getLast? ≠ some '0' := by
      unfold rstripBy
      rw [List.getLast?_reverse]
      intro h
      cases hc : fp.reverse.dropWhile (· == '0') with
      | nil => rw [hc] at h; cases h
      | cons c t =>
        rw [hc] at h
        simp only [List.head?_cons, Option.some.injEq] at h
        exact head_dropWhile_zero _ _ _ hc h
    generalize rstripBy (· == '0') fp = f at *
    refine ⟨natStr (m / 10 ^ d), f, natStr_ne_nil _, natStr_all _, hfall, ?_, hlast, ?_⟩
    · have hl : fp.length = f.length + k := by rw [hk]; simp
      have hv : natVal fp = natVal f * 10 ^ k := by rw [hk, natVal_append]; simp
      rw [natVal_append, natVal_natStr]
      rw [div_eq_div_iff (by positivity) (by positivity)]
      have hmq : (m : ℚ) = 10 ^ d * (m / 10 ^ d : ℕ) + (natVal f : ℚ) * 10 ^ k := by
        have : m = 10 ^ d * (m / 10 ^ d) + natVal f * 10 ^ k := by rw [← hv, hval]; exact hdm.symm
        exact_mod_cast this
      have hdk : d = f.length + k := by omega
      conv_rhs => rw [hmq]
      push_cast
      generalize ((m / 10 ^ d : ℕ) : ℚ) = q
      rw [hdk, pow_add]; ring
    · by_cases hf : f = []
      · left
        refine ⟨hf, ?_⟩
        subst hf
        rw [rstripBy_append]
        have : rstripBy (· == '.') ['.'] = [] := by rfl
        rw [this, if_pos rfl]
        apply rstripBy_none
        exact all_mono (natStr_all _) fun c hc => by simpa using isDig_ne hc rfl
      · right
        refine ⟨hf, ?_⟩
        have hnone : rstripBy (· == '.') f = f := rstripBy_none
          (all_mono hfall fun c hc => by simpa using isDig_ne hc rfl)
        rw [show natStr (m / 10 ^ d) ++ '.' :: f = (natStr (m / 10 ^ d) ++ ['.']) ++ f by simp,
          rstripBy_append, hnone, if_neg hf]

theorem trimFrac_shape (d m : ℕ) : ∃ ip f : Str, ip ≠ [] ∧ ip.all isDig = true ∧
    f.all isDig = true ∧ (natVal (ip ++ f) : ℚ) / 10 ^ f.length = (m : ℚ) / 10 ^ d ∧
    ((f = [] ∧ trimFrac d m = ip) ∨ (f ≠ [] ∧ trimFrac d m = ip ++ '.' :: f)) := by
  obtain ⟨ip, f, h1, h2, h3, h4, _, h5⟩ := trimFrac_shape_last d m
  exact ⟨ip, f, h1, h2, h3, h4, h5⟩

/-- Reading a trimmed number followed by an exponent part. -/
theorem pyUFloat_trimFrac (d m : ℕ) (tail : Str)
    (ht : ∀ c t, tail = c :: t → isDig c = false ∧ c ≠ '.') :
    pyUFloat (trimFrac d m ++ tail) = pyExpo ((m : ℚ) / 10 ^ d) tail := by
  obtain ⟨ip, f, hne, hip, hf, hv, h⟩ := trimFrac_shape d m
  rcases h with ⟨rfl, h⟩ | ⟨hfne, h⟩
  · rw [h]
    simp only [List.append_nil, List.length_nil, pow_zero, div_one] at hv
    unfold pyUFloat
    have htd : ∀ c t, tail = c :: t → isDig c = false := fun c t hc => (ht c t hc).1
    rw [takeWhile_append_of_all hip htd, dropWhile_append_of_all hip htd]
    cases tail with
    | nil => simp [hne, hv]
    | cons c t =>
      have hc := (ht c t rfl).2
      simp only
      split
      · rename_i heq; exact absurd (List.cons.inj heq).1 hc
      · simp [hne, hv]
  · rw [h]
    have hcons : ∀ c t, ('.' :: (f ++ tail)) = c :: t → isDig c = false := by
      intro c t h; cases h; rfl
    have htd : ∀ c t, tail = c :: t → isDig c = false := fun c t hc => (ht c t hc).1
    unfold pyUFloat
    rw [List.append_assoc, List.cons_append, takeWhile_append_of_all hip hcons,
      dropWhile_append_of_all hip hcons]
    simp only
    rw [takeWhile_append_of_all hf htd, dropWhile_append_of_all hf htd, if_neg (by simp [hne]), hv]

theorem trimFrac_head (d m : ℕ) : ∃ c t, trimFrac d m = c :: t ∧ isDig c = true := by
  obtain ⟨ip, f, hne, hip, hf, hv, h⟩ := trimFrac_shape d m
  cases ip with
  | nil => exact absurd rfl hne
  | cons c t =>
    simp only [List.all_cons, Bool.and_eq_true] at hip
    rcases h with ⟨_, h⟩ | ⟨_, h⟩
    · exact ⟨c, t, h, hip.1⟩
    · exact ⟨c, _, h, hip.1⟩

/-- Characters of printed numbers. -/
def isNumCh (c : Char) : Bool := isDig c || c == '.' || c == '-' || c == '+' || c == 'e'

theorem trimFrac_all (d m : ℕ) : (trimFrac d m).all isNumCh = true := by
  obtain ⟨ip, f, hne, hip, hf, hv, h⟩ := trimFrac_shape d m
  have h1 := all_mono hip (q := isNumCh) fun c hc => by simp [isNumCh, hc]
  have h2 := all_mono hf (q := isNumCh) fun c hc => by simp [isNumCh, hc]
  rcases h with ⟨_, h⟩ | ⟨_, h⟩
  · rw [h]; exact h1
  · rw [h, List.all_append, List.all_cons, h1, h2]; rfl

theorem zeroPad_all (w n : ℕ) : (zeroPad w (natStr n)).all isDig = true := by
  unfold zeroPad
  rw [List.all_append, all_replicate_zero, natStr_all]; rfl

theorem zeroPad_ne_nil (w n : ℕ) : zeroPad w (natStr n) ≠ [] := by
  unfold zeroPad; simp [natStr_ne_nil]

theorem natVal_zeroPad (w n : ℕ) : natVal (zeroPad w (natStr n)) = n := by
  unfold zeroPad; rw [natVal_append]; simp [natVal_natStr]

theorem fmtGPos_head (P : ℕ) (x : ℚ) : ∃ c t, fmtGPos P x = c :: t ∧ isDig c = true := by
  unfold fmtGPos
  simp only
  split
  · exact trimFrac_head _ _
  · obtain ⟨c, t, h, hc⟩ := trimFrac_head (P - 1) (sciRound P x).1
    exact ⟨c, _, by rw [h]; rfl, hc⟩

theorem fmtGPos_all (P : ℕ) (x : ℚ) : (fmtGPos P x).all isNumCh = true := by
  unfold fmtGPos
  simp only
  split
  · exact trimFrac_all _ _
  · rw [List.all_append, trimFrac_all, List.all_cons, List.all_cons,
      all_mono (zeroPad_all _ _) (q := isNumCh) fun c hc => by simp [isNumCh, hc]]
    split <;> rfl

theorem fmtG_all (P : ℕ) (x : ℚ) : (fmtG P x).all isNumCh = true := by
  unfold fmtG
  split
  · rfl
  · split
    · rw [List.all_cons, fmtGPos_all]; rfl
    · exact fmtGPos_all _ _

theorem fmtG_ne_nil (P : ℕ) (x : ℚ) : fmtG P x ≠ [] := by
  unfold fmtG
  obtain ⟨c, t, h, _⟩ := fmtGPos_head P x
  obtain ⟨c', t', h', _⟩ := fmtGPos_head P (-x)
  split
  · simp
  · split
    · simp
    · rw [h]; simp

theorem not_isSpace_of_isNumCh {c : Char} (h : isNumCh c = true) : isSpace c = false := by
  unfold isNumCh at h
  simp only [Bool.or_eq_true, beq_iff_eq] at h
  rcases h with (((h | rfl) | rfl) | rfl) | rfl
  · exact not_isSpace_of_isDig h
  all_goals rfl

theorem pyUFloat_fmtGPos {P : ℕ} (hP : 1 ≤ P) (x : ℚ) :
    pyUFloat (fmtGPos P x) =
      some ((sciRound P x).1 * (10 : ℚ) ^ ((sciRound P x).2 - ((P : ℤ) - 1))) := by
  have h10 : (10 : ℚ) ≠ 0 := by norm_num
  unfold fmtGPos
  simp only
  generalize (sciRound P x).1 = m
  generalize (sciRound P x).2 = e
  split
  · rename_i h
    have := pyUFloat_trimFrac ((P : ℤ) - 1 - e).toNat m [] (by simp)
    rw [List.append_nil] at this
    rw [this]
    unfold pyExpo
    rw [div_eq_mul_inv, ← zpow_natCast, ← zpow_neg,
      show -((((P : ℤ) - 1 - e).toNat : ℕ) : ℤ) = e - ((P : ℤ) - 1) by omega]
  · rename_i h
    rw [pyUFloat_trimFrac _ _ _ (by rintro c t ⟨⟩; exact ⟨rfl, by decide⟩)]
    simp only [pyExpo, true_or, if_true]
    have hz := zeroPad_all 2 e.natAbs
    have hzn := zeroPad_ne_nil 2 e.natAbs
    split
    · rename_i hneg
      rw [takeSign_minus]
      simp only [hzn, ne_eq, not_false_eq_true, hz, and_self, if_true, natVal_zeroPad]
      rw [div_div, div_eq_mul_inv, ← pow_add, ← zpow_natCast, ← zpow_neg,
        show -((P - 1 + e.natAbs : ℕ) : ℤ) = e - ((P : ℤ) - 1) by omega]
    · rename_i hneg
      have hplus : takeSign ('+' :: zeroPad 2 (natStr e.natAbs)) =
        (false, zeroPad 2 (natStr e.natAbs)) := rfl
      rw [hplus]
      simp only [hzn, ne_eq, not_false_eq_true, hz, and_self, if_true, natVal_zeroPad,
        Bool.false_eq_true, if_false]
      rw [div_eq_mul_inv, mul_assoc, ← zpow_natCast, ← zpow_natCast, ← zpow_neg, ← zpow_add₀ h10,
        show -((P - 1 : ℕ) : ℤ) + (e.natAbs : ℕ) = e - ((P : ℤ) - 1) by omega]

/-- A number printed with `%.{P}g` reads back as its value rounded to `P` significant digits. -/
theorem pyFloat_fmtG {P : ℕ} (hP : 1 ≤ P) (x : ℚ) : pyFloat (fmtG P x) = .ok (sigRound P x) := by
  unfold pyFloat
  rw [strip_of_no_space (all_mono (fmtG_all P x) fun c hc => by simp [not_isSpace_of_isNumCh hc])]
  unfold fmtG sigRound
  by_cases h0 : x = 0
  · rw [if_pos h0, if_pos h0]; rfl
  · rw [if_neg h0, if_neg h0]
    by_cases hneg : x < 0
    · rw [if_pos hneg, if_pos hneg, takeSign_minus]
      simp only [pyUFloat_fmtGPos hP, if_true]
    · rw [if_neg hneg, if_neg hneg]
      obtain ⟨c, t, h, hc⟩ := fmtGPos_head P x
      have h1 := pyUFloat_fmtGPos hP x
      rw [h] at h1 ⊢
      rw [takeSign_of_dig hc]
      simp only [h1, Bool.false_eq_true, if_false]


/-! ## Fixed notation -/

/-- Values in the fixed-notation range with at most `p` decimals and `P` digits are printed with
at most `p` decimals and exactly. -/
theorem fmtGPos_fixed {P p : ℕ} (hP : 1 ≤ P) {x : ℚ} {z : ℕ} (hx : x = z / 10 ^ p)
    (hz : z < 10 ^ P) (hlo : (10 : ℚ) ^ (-4 : ℤ) ≤ x) :
    ∃ ip f : Str, ip ≠ [] ∧ ip.all isDig = true ∧ f.all isDig = true ∧ f.length ≤ p ∧
      (natVal (ip ++ f) : ℚ) / 10 ^ f.length = x ∧
      ((f = [] ∧ fmtGPos P x = ip) ∨ (f ≠ [] ∧ fmtGPos P x = ip ++ '.' :: f)) := by
  have h10 : (10 : ℚ) ≠ 0 := by norm_num
  have hpos : 0 < x := lt_of_lt_of_le (by positivity) hlo
  have hex := sciRound_exact hP hpos (z := z) (k := -(p : ℤ)) hz
    (by rw [hx, zpow_neg, zpow_natCast, div_eq_mul_inv])
  obtain ⟨hm1, hm2, _⟩ := sciRound_spec hP hpos
  have hmq1 : (10 : ℚ) ^ (P - 1) ≤ (sciRound P x).1 := by exact_mod_cast hm1
  have hmq2 : ((sciRound P x).1 : ℚ) < (10 : ℚ) ^ P := by exact_mod_cast hm2
  have hxhi : x < (10 : ℚ) ^ (P : ℤ) := by
    rw [zpow_natCast]
    have hzq : (z : ℚ) < (10 : ℚ) ^ P := by exact_mod_cast hz
    have h1 : (1 : ℚ) ≤ (10 : ℚ) ^ p := one_le_pow₀ (by norm_num)
    calc x ≤ z := by rw [hx]; exact div_le_self (by positivity) h1
      _ < _ := hzq
  unfold fmtGPos
  simp only
  generalize (sciRound P x).1 = m at *
  generalize (sciRound P x).2 = e at *
  have hpe : (0 : ℚ) < (10 : ℚ) ^ (e - ((P : ℤ) - 1)) := by positivity
  have hel : -4 ≤ e := by
    by_contra hc
    have : x < (10 : ℚ) ^ (e + 1) := by
      rw [← hex]
      calc _ < (10 : ℚ) ^ P * (10 : ℚ) ^ (e - ((P : ℤ) - 1)) := mul_lt_mul_of_pos_right hmq2 hpe
        _ = _ := by
          rw [← zpow_natCast, ← zpow_add₀ h10]
          rw [show (P : ℤ) + (e - ((P : ℤ) - 1)) = e + 1 by ring]
    have h2 : (10 : ℚ) ^ (e + 1) ≤ (10 : ℚ) ^ (-4 : ℤ) := zpow_le_zpow_right₀ (by norm_num) (by omega)
    linarith
  have heh : e < P := by
    by_contra hc
    have h2 : (10 : ℚ) ^ e ≤ x := by
      rw [← hex]
      calc (10 : ℚ) ^ e = (10 : ℚ) ^ (P - 1) * (10 : ℚ) ^ (e - ((P : ℤ) - 1)) := by
            rw [← zpow_natCast, ← zpow_add₀ h10]
            rw [show ((P - 1 : ℕ) : ℤ) + (e - ((P : ℤ) - 1)) = e by omega]
        _ ≤ _ := mul_le_mul_of_nonneg_right hmq1 hpe.le
    have h3 : (10 : ℚ) ^ (P : ℤ) ≤ (10 : ℚ) ^ e := zpow_le_zpow_right₀ (by norm_num) (by omega)
    linarith
  rw [if_pos ⟨hel, heh⟩]
  obtain ⟨ip, f, h1, h2, h3, h4, h5, h6⟩ := trimFrac_shape_last ((P : ℤ) - 1 - e).toNat m
  have hv : (natVal (ip ++ f) : ℚ) / 10 ^ f.length = x := by
    rw [h4, ← hex, div_eq_mul_inv, ← zpow_natCast, ← zpow_neg]
    rw [show -((((P : ℤ) - 1 - e).toNat : ℕ) : ℤ) = e - ((P : ℤ) - 1) by omega]
  refine ⟨ip, f, h1, h2, h3, ?_, hv, h6⟩
  by_contra hc
  -- too many decimals: the last one would be zero
  obtain ⟨k, hk⟩ : ∃ k, f.length = p + (k + 1) := ⟨f.length - p - 1, by omega⟩
  have hn : natVal (ip ++ f) = z * 10 ^ (k + 1) := by
    rw [hx, hk, div_eq_div_iff (by positivity) (by positivity), pow_add] at hv
    have : (natVal (ip ++ f) : ℚ) * 10 ^ p = (z * 10 ^ (k + 1)) * 10 ^ p := by rw [hv]; ring
    have := mul_right_cancel₀ (by positivity) this
    exact_mod_cast this
  obtain ⟨f', c, rfl⟩ : ∃ f' c, f = f' ++ [c] := by
    refine ⟨f.dropLast, f.getLast (by rintro rfl; simp at hk), ?_⟩
    exact (List.dropLast_append_getLast _).symm
  rw [List.all_append, Bool.and_eq_true] at h3
  have hcd : isDig c = true := by simpa using h3.2
  have hlt := digVal_lt hcd
  rw [← List.append_assoc, natVal_append, natVal_singleton, List.length_singleton, pow_one,
    pow_succ] at hn
  have hc0 : digVal c = 0 := by
    have := congrArg (· % 10) hn
    simp only [← mul_assoc] at this
    omega
  rw [digVal_eq_zero hcd] at hc0
  simp [hc0] at h5

end Verif.Py
