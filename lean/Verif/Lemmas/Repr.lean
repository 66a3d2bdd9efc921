import Verif.Lemmas.Format

/-! # `repr` of floats -/

namespace Verif.Py

/-- Bounds of an exactly represented number. -/
theorem sciRound_bounds {P : ℕ} (hP : 1 ≤ P) {x : ℚ} (hx : 0 < x) {z : ℕ} {k : ℤ} (hz : z < 10 ^ P)
    (he : x = z * (10 : ℚ) ^ k) :
    (10 : ℚ) ^ (sciRound P x).2 ≤ x ∧ x < (10 : ℚ) ^ ((sciRound P x).2 + 1) := by
  have h10 : (10 : ℚ) ≠ 0 := by norm_num
  have hex := sciRound_exact hP hx hz he
  obtain ⟨hm1, hm2, _⟩ := sciRound_spec hP hx
  have hmq1 : (10 : ℚ) ^ (P - 1) ≤ (sciRound P x).1 := by exact_mod_cast hm1
  have hmq2 : ((sciRound P x).1 : ℚ) < (10 : ℚ) ^ P := by exact_mod_cast hm2
  generalize (sciRound P x).1 = m at *
  generalize (sciRound P x).2 = e at *
  have hpe : (0 : ℚ) < (10 : ℚ) ^ (e - ((P : ℤ) - 1)) := by positivity
  rw [← hex]
  constructor
  · calc (10 : ℚ) ^ e = (10 : ℚ) ^ (P - 1) * (10 : ℚ) ^ (e - ((P : ℤ) - 1)) := by
          rw [← zpow_natCast, ← zpow_add₀ h10]
          rw [show ((P - 1 : ℕ) : ℤ) + (e - ((P : ℤ) - 1)) = e by omega]
      _ ≤ _ := mul_le_mul_of_nonneg_right hmq1 hpe.le
  · calc _ < (10 : ℚ) ^ P * (10 : ℚ) ^ (e - ((P : ℤ) - 1)) := mul_lt_mul_of_pos_right hmq2 hpe
      _ = _ := by
        rw [← zpow_natCast, ← zpow_add₀ h10]
        rw [show (P : ℤ) + (e - ((P : ℤ) - 1)) = e + 1 by ring]

/-- With a point as it is, otherwise with `.0`. -/
def withPoint (s : Str) : Str := if '.' ∈ s then s else s ++ ['.', '0']

theorem trimFrac_point (d m : ℕ) : ∃ ip f : Str, ip ≠ [] ∧ ip.all isDig = true ∧ f ≠ [] ∧
    f.all isDig = true ∧ (natVal (ip ++ f) : ℚ) / 10 ^ f.length = (m : ℚ) / 10 ^ d ∧
    withPoint (trimFrac d m) = ip ++ '.' :: f := by
  obtain ⟨ip, f, h1, h2, h3, h4, h⟩ := trimFrac_shape d m
  rcases h with ⟨rfl, h⟩ | ⟨hf, h⟩
  · refine ⟨ip, ['0'], h1, h2, by simp, rfl, ?_, ?_⟩
    · rw [← h4, natVal_append, natVal_append]
      simp [show natVal ['0'] = 0 from rfl]
    · unfold withPoint
      rw [h, if_neg]
      intro hm
      rw [List.all_eq_true] at h2
      exact absurd (h2 _ hm) (by decide)
  · refine ⟨ip, f, h1, h2, hf, h3, h4, ?_⟩
    unfold withPoint
    rw [h, if_pos (by simp)]

theorem reprPos_eq (x : ℚ) : reprPos x =
    if -4 ≤ (sciRound 17 x).2 ∧ (sciRound 17 x).2 < 16 then
      withPoint (trimFrac (16 - (sciRound 17 x).2).toNat (sciRound 17 x).1)
    else trimFrac 16 (sciRound 17 x).1 ++ 'e' :: (if (sciRound 17 x).2 < 0 then '-' else '+') ::
      zeroPad 2 (natStr (sciRound 17 x).2.natAbs) := rfl

theorem reprPos_head (x : ℚ) : ∃ c t, reprPos x = c :: t ∧ isDig c = true := by
  rw [reprPos_eq]
  split
  · obtain ⟨ip, f, h1, h2, -, -, -, h⟩ := trimFrac_point (16 - (sciRound 17 x).2).toNat (sciRound 17 x).1
    rw [h]
    cases ip with
    | nil => exact absurd rfl h1
    | cons c t =>
      simp only [List.all_cons, Bool.and_eq_true] at h2
      exact ⟨c, t ++ '.' :: f, rfl, h2.1⟩
  · obtain ⟨c, t, h, hc⟩ := trimFrac_head 16 (sciRound 17 x).1
    rw [h]
    exact ⟨c, _, rfl, hc⟩

theorem reprPos_all (x : ℚ) : (reprPos x).all isNumCh = true := by
  have hd : ∀ {s : Str}, s.all isDig = true → s.all isNumCh = true := fun h =>
    all_mono h fun c hc => by simp [isNumCh, hc]
  rw [reprPos_eq]
  split
  · obtain ⟨ip, f, h1, h2, -, h3, -, h⟩ := trimFrac_point (16 - (sciRound 17 x).2).toNat (sciRound 17 x).1
    rw [h, List.all_append, List.all_cons, hd h2, hd h3]; rfl
  · rw [List.all_append, trimFrac_all, List.all_cons, List.all_cons, hd (zeroPad_all _ _)]
    split <;> rfl

theorem pyRepr_all (x : ℚ) : (pyRepr x).all isNumCh = true := by
  unfold pyRepr
  split
  · rfl
  · split
    · rw [List.all_cons, reprPos_all]; rfl
    · exact reprPos_all _

theorem pyUFloat_reprPos (x : ℚ) :
    pyUFloat (reprPos x) = some ((sciRound 17 x).1 * (10 : ℚ) ^ ((sciRound 17 x).2 - 16)) := by
  have h10 : (10 : ℚ) ≠ 0 := by norm_num
  rw [reprPos_eq]
  generalize (sciRound 17 x).1 = m
  generalize (sciRound 17 x).2 = e
  split
  · rename_i h
    obtain ⟨ip, f, h1, h2, hf, h3, h4, h5⟩ := trimFrac_point (16 - e).toNat m
    rw [h5, pyUFloat_point h2 h3 (fun h => h1 h.1), h4, div_eq_mul_inv, ← zpow_natCast, ← zpow_neg,
      show -(((16 - e).toNat : ℕ) : ℤ) = e - 16 by omega]
  · rename_i h
    rw [pyUFloat_trimFrac _ _ _ (by rintro c t ⟨⟩; exact ⟨rfl, by decide⟩)]
    simp only [pyExpo, true_or, if_true]
    have hz := zeroPad_all 2 e.natAbs
    have hzn := zeroPad_ne_nil 2 e.natAbs
    split
    · rename_i hneg
      rw [takeSign_minus]
      simp only [hzn, ne_eq, not_false_eq_true, hz, and_self, if_true, natVal_zeroPad]
      rw [div_div, div_eq_mul_inv, ← pow_add, ← zpow_natCast, ← zpow_neg,
        show -((16 + e.natAbs : ℕ) : ℤ) = e - 16 by omega]
    · rename_i hneg
      have hplus : takeSign ('+' :: zeroPad 2 (natStr e.natAbs)) =
        (false, zeroPad 2 (natStr e.natAbs)) := rfl
      rw [hplus]
      simp only [hzn, ne_eq, not_false_eq_true, hz, and_self, if_true, natVal_zeroPad,
        Bool.false_eq_true, if_false]
      rw [div_eq_mul_inv, mul_assoc, ← zpow_natCast, ← zpow_natCast, ← zpow_neg, ← zpow_add₀ h10,
        show -((16 : ℕ) : ℤ) + (e.natAbs : ℕ) = e - 16 by omega]

/-- A printed number reads back as its value rounded to 17 significant digits. -/
theorem pyFloat_pyRepr (x : ℚ) : pyFloat (pyRepr x) = .ok (sigRound 17 x) := by
  unfold pyFloat
  rw [strip_of_no_space (all_mono (pyRepr_all x) fun c hc => by simp [not_isSpace_of_isNumCh hc])]
  unfold pyRepr sigRound
  by_cases h0 : x = 0
  · rw [if_pos h0, if_pos h0]
    rw [show takeSign ['0', '.', '0'] = (false, ['0'] ++ '.' :: ['0']) from rfl]
    simp only
    rw [pyUFloat_point (by rfl) (by rfl) (by simp)]
    simp [show natVal ['0', '0'] = 0 from rfl]
  · rw [if_neg h0, if_neg h0]
    by_cases hneg : x < 0
    · rw [if_pos hneg, if_pos hneg, takeSign_minus]
      simp only [pyUFloat_reprPos, if_true]
      norm_num
    · rw [if_neg hneg, if_neg hneg]
      obtain ⟨c, t, h, hc⟩ := reprPos_head x
      have h1 := pyUFloat_reprPos x
      rw [h] at h1 ⊢
      rw [takeSign_of_dig hc]
      simp only [h1, Bool.false_eq_true, if_false]
      norm_num

/-- Numbers from 0.0001 to below 10^15 with at most 15 digits are printed with a point, exactly. -/
theorem reprPos_fixed {x : ℚ} {z p : ℕ} (hx : x = z / 10 ^ p) (hz : z < 10 ^ 15)
    (hlo : (10 : ℚ) ^ (-4 : ℤ) ≤ x) :
    ∃ ip f : Str, ip ≠ [] ∧ ip.all isDig = true ∧ f ≠ [] ∧ f.all isDig = true ∧
      (natVal (ip ++ f) : ℚ) / 10 ^ f.length = x ∧ reprPos x = ip ++ '.' :: f := by
  have hpos : 0 < x := lt_of_lt_of_le (by positivity) hlo
  have hz' : z < 10 ^ 17 := lt_trans hz (by norm_num)
  have hxz : x = z * (10 : ℚ) ^ (-(p : ℤ)) := by rw [hx, zpow_neg, zpow_natCast, div_eq_mul_inv]
  obtain ⟨b1, b2⟩ := sciRound_bounds (by norm_num) hpos hz' hxz
  have hex := sciRound_exact (by norm_num) hpos hz' hxz
  have hlt : x < (10 : ℚ) ^ (15 : ℤ) := by
    have hzq : (z : ℚ) < (10 : ℚ) ^ 15 := by exact_mod_cast hz
    have h1 : (1 : ℚ) ≤ (10 : ℚ) ^ p := one_le_pow₀ (by norm_num)
    calc x ≤ z := by rw [hx]; exact div_le_self (by positivity) h1
      _ < _ := hzq
  have he1 : -4 ≤ (sciRound 17 x).2 := by
    have := (zpow_lt_zpow_iff_right₀ (by norm_num : (1 : ℚ) < 10)).1 (lt_of_le_of_lt hlo b2)
    omega
  have he2 : (sciRound 17 x).2 < 15 :=
    (zpow_lt_zpow_iff_right₀ (by norm_num : (1 : ℚ) < 10)).1 (lt_of_le_of_lt b1 hlt)
  rw [reprPos_eq, if_pos ⟨he1, by omega⟩]
  obtain ⟨ip, f, h1, h2, hf, h3, h4, h5⟩ :=
    trimFrac_point (16 - (sciRound 17 x).2).toNat (sciRound 17 x).1
  refine ⟨ip, f, h1, h2, hf, h3, ?_, h5⟩
  rw [h4, div_eq_mul_inv, ← zpow_natCast, ← zpow_neg]
  rw [show -(((16 - (sciRound 17 x).2).toNat : ℕ) : ℤ) = (sciRound 17 x).2 - (((17 : ℕ) : ℤ) - 1) by omega]
  exact hex

end Verif.Py
