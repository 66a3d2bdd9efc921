import Verif.Py.Basic
import Mathlib.Tactic.Linarith
import Mathlib.Tactic.Ring
import Mathlib.Tactic.FieldSimp
import Mathlib.Tactic.NormNum
import Mathlib.Tactic.Positivity
import Mathlib.Tactic.IntervalCases

/-! # Arithmetic of decimal digit strings -/

namespace Verif.Py

/-! ## Characters -/

theorem digVal_digChar (n : ℕ) : digVal (digChar n) = n % 10 := by
  have h : n % 10 < 10 := Nat.mod_lt _ (by norm_num)
  unfold digVal digChar
  generalize n % 10 = m at h
  interval_cases m <;> rfl

theorem isDig_digChar (n : ℕ) : isDig (digChar n) = true := by
  have h : n % 10 < 10 := Nat.mod_lt _ (by norm_num)
  unfold isDig digChar
  generalize n % 10 = m at h
  interval_cases m <;> rfl

theorem isDig_iff (c : Char) : isDig c = true ↔ 48 ≤ c.toNat ∧ c.toNat ≤ 57 := by
  unfold isDig
  simp only [Bool.and_eq_true, decide_eq_true_eq, Char.le_def, UInt32.le_iff_toNat_le]
  exact Iff.rfl

theorem digVal_lt {c : Char} (h : isDig c = true) : digVal c < 10 := by
  rw [isDig_iff] at h
  unfold digVal
  have : '0'.toNat = 48 := rfl
  omega

theorem digChar_digVal {c : Char} (h : isDig c = true) : digChar (digVal c) = c := by
  rw [isDig_iff] at h
  unfold digChar digVal
  have h0 : '0'.toNat = 48 := rfl
  rw [h0]
  have : 48 + (c.toNat - 48) % 10 = c.toNat := by omega
  rw [this, Char.ofNat_toNat]

theorem digVal_eq_zero {c : Char} (h : isDig c = true) : digVal c = 0 ↔ c = '0' := by
  constructor
  · intro h0
    rw [← digChar_digVal h, h0]; rfl
  · rintro rfl; rfl

theorem isDig_zero : isDig '0' = true := rfl

theorem not_isDig_minus : isDig '-' = false := rfl

theorem isDig_ne {c d : Char} (h : isDig c = true) (hd : isDig d = false) : c ≠ d := by
  rintro rfl; simp [h] at hd

/-! ## Value of digit strings -/

theorem natVal_foldl (s : Str) (a : ℕ) :
    s.foldl (fun a c => 10 * a + digVal c) a = a * 10 ^ s.length + natVal s := by
  induction s generalizing a with
  | nil => simp [natVal]
  | cons c s ih =>
    simp only [List.foldl_cons, List.length_cons, natVal]
    rw [ih, ih (10 * 0 + digVal c)]
    ring

@[simp] theorem natVal_nil : natVal [] = 0 := rfl

theorem natVal_cons (c : Char) (s : Str) :
    natVal (c :: s) = digVal c * 10 ^ s.length + natVal s := by
  conv_lhs => unfold natVal
  rw [List.foldl_cons, natVal_foldl]; simp

theorem natVal_append (s t : Str) :
    natVal (s ++ t) = natVal s * 10 ^ t.length + natVal t := by
  conv_lhs => unfold natVal
  rw [List.foldl_append, natVal_foldl]; rfl

theorem natVal_singleton (c : Char) : natVal [c] = digVal c := by
  simp [natVal]

@[simp] theorem natVal_replicate_zero (k : ℕ) : natVal (List.replicate k '0') = 0 := by
  induction k with
  | zero => rfl
  | succ k ih => rw [List.replicate_succ, natVal_cons, ih]; simp [digVal]

theorem natVal_lt {s : Str} (h : s.all isDig = true) : natVal s < 10 ^ s.length := by
  induction s with
  | nil => simp
  | cons c s ih =>
    simp only [List.all_cons, Bool.and_eq_true] at h
    have h1 := digVal_lt h.1
    have h2 := ih h.2
    rw [natVal_cons, List.length_cons, pow_succ]
    nlinarith [Nat.pos_of_ne_zero (pow_ne_zero s.length (by norm_num : (10:ℕ) ≠ 0))]

theorem all_replicate_zero (k : ℕ) : (List.replicate k '0').all isDig = true := by
  simp [List.all_replicate]; right; rfl

/-! ## Fixed-width digits -/

@[simp] theorem length_fixDigits (w n : ℕ) : (fixDigits w n).length = w := by
  induction w generalizing n with
  | zero => rfl
  | succ w ih => simp [fixDigits, ih]

theorem all_fixDigits (w n : ℕ) : (fixDigits w n).all isDig = true := by
  induction w generalizing n with
  | zero => rfl
  | succ w ih => simp [fixDigits, ih, isDig_digChar, List.all_append]

theorem natVal_fixDigits (w n : ℕ) : natVal (fixDigits w n) = n % 10 ^ w := by
  induction w generalizing n with
  | zero => simp [fixDigits, Nat.mod_one]
  | succ w ih =>
    rw [fixDigits, natVal_append, natVal_singleton, ih, digVal_digChar]
    simp only [List.length_singleton, pow_one]
    rw [pow_succ, mul_comm (10 ^ w) 10, Nat.mod_mul]
    ring

theorem natVal_fixDigits_of_lt {w n : ℕ} (h : n < 10 ^ w) : natVal (fixDigits w n) = n := by
  rw [natVal_fixDigits, Nat.mod_eq_of_lt h]

/-- A digit string is determined by its length and its value. -/
theorem fixDigits_natVal {s : Str} (h : s.all isDig = true) :
    fixDigits s.length (natVal s) = s := by
  induction s using List.reverseRecOn with
  | nil => rfl
  | append_singleton s c ih =>
    simp only [List.all_append, List.all_cons, List.all_nil, Bool.and_true,
      Bool.and_eq_true] at h
    have hc := digVal_lt h.2
    rw [natVal_append, natVal_singleton]
    simp only [List.length_append, List.length_singleton, pow_one, fixDigits]
    have h1 : (natVal s * 10 + digVal c) / 10 = natVal s := by omega
    have h2 : digChar (natVal s * 10 + digVal c) = digChar (digVal c) := by
      unfold digChar; congr 2; omega
    rw [h1, ih h.1, h2, digChar_digVal h.2]

theorem digits_ext {s t : Str} (hs : s.all isDig = true) (ht : t.all isDig = true)
    (hl : s.length = t.length) (hv : natVal s = natVal t) : s = t := by
  rw [← fixDigits_natVal hs, ← fixDigits_natVal ht, hl, hv]

/-! ## Stripping zeros -/

theorem lstrip_zero_decomp (s : Str) :
    ∃ k, s = List.replicate k '0' ++ s.dropWhile (· == '0') := by
  induction s with
  | nil => exact ⟨0, rfl⟩
  | cons c s ih =>
    by_cases hc : c = '0'
    · obtain ⟨k, hk⟩ := ih
      refine ⟨k + 1, ?_⟩
      subst hc
      simp only [List.replicate_succ, List.cons_append, List.dropWhile_cons, beq_self_eq_true,
        if_true]
      rw [← hk]
    · refine ⟨0, ?_⟩
      simp [hc]

theorem rstrip_zero_decomp (s : Str) :
    ∃ k, s = rstripBy (· == '0') s ++ List.replicate k '0' := by
  obtain ⟨k, hk⟩ := lstrip_zero_decomp s.reverse
  refine ⟨k, ?_⟩
  have := congrArg List.reverse hk
  simpa [rstripBy] using this

theorem head_dropWhile_zero (s : Str) (c : Char) (t : Str)
    (h : s.dropWhile (· == '0') = c :: t) : c ≠ '0' := by
  induction s with
  | nil => simp at h
  | cons a s ih =>
    rw [List.dropWhile_cons] at h
    split at h
    · exact ih h
    · rename_i hne
      simp only [List.cons.injEq] at h
      rw [← h.1]; simpa using hne

theorem natVal_dropWhile_zero (s : Str) : natVal (s.dropWhile (· == '0')) = natVal s := by
  obtain ⟨k, hk⟩ := lstrip_zero_decomp s
  conv_rhs => rw [hk]
  rw [natVal_append]; simp

theorem all_dropWhile {p q : Char → Bool} {s : Str} (h : s.all p = true) :
    (s.dropWhile q).all p = true := by
  rw [List.all_eq_true] at h ⊢
  intro x hx
  exact h x ((List.dropWhile_sublist q).mem hx)

theorem natVal_eq_zero {s : Str} (h : s.all isDig = true) :
    natVal s = 0 ↔ s.dropWhile (· == '0') = [] := by
  constructor
  · intro h0
    cases hd : s.dropWhile (· == '0') with
    | nil => rfl
    | cons c t =>
      exfalso
      have hc := head_dropWhile_zero s c t hd
      have ha := all_dropWhile (q := (· == '0')) h
      rw [hd] at ha
      simp only [List.all_cons, Bool.and_eq_true] at ha
      have hv := natVal_dropWhile_zero s
      rw [hd, h0, natVal_cons] at hv
      have : digVal c ≠ 0 := fun e => hc ((digVal_eq_zero ha.1).1 e)
      have hp : 0 < 10 ^ t.length := by positivity
      have : 0 < digVal c * 10 ^ t.length := Nat.mul_pos (Nat.pos_of_ne_zero this) hp
      omega
  · intro h0
    rw [← natVal_dropWhile_zero, h0]; rfl

/-- If no leading zero then the value determines the length bound. -/
theorem length_le_of_natVal_lt {s : Str} (h : s.all isDig = true) {w : ℕ}
    (hlt : natVal s < 10 ^ w) : (s.dropWhile (· == '0')).length ≤ w := by
  cases hd : s.dropWhile (· == '0') with
  | nil => simp
  | cons c t =>
    have hc := head_dropWhile_zero s c t hd
    have ha := all_dropWhile (q := (· == '0')) h
    rw [hd] at ha
    simp only [List.all_cons, Bool.and_eq_true] at ha
    have hv := natVal_dropWhile_zero s
    rw [hd, natVal_cons] at hv
    have h1 : 1 ≤ digVal c := Nat.pos_of_ne_zero fun e => hc ((digVal_eq_zero ha.1).1 e)
    have h2 : 10 ^ t.length ≤ natVal s := by
      rw [← hv]
      have hp : 0 < 10 ^ t.length := by positivity
      nlinarith
    have h3 : 10 ^ t.length < 10 ^ w := lt_of_le_of_lt h2 hlt
    have h4 := (Nat.pow_lt_pow_iff_right (by norm_num : 1 < 10)).1 h3
    simpa using Nat.succ_le_of_lt h4

/-! ## `str(n)` -/

theorem lt_ten_pow_log2 (n : ℕ) : n < 10 ^ (Nat.log2 n + 1) := by
  calc n < 2 ^ (Nat.log2 n + 1) := Nat.lt_log2_self
    _ ≤ 10 ^ (Nat.log2 n + 1) := Nat.pow_le_pow_left (by norm_num) _

theorem natStr_cases (n : ℕ) :
    (n = 0 ∧ natStr n = ['0']) ∨
    (n ≠ 0 ∧ ∃ c t, natStr n = c :: t ∧ c ≠ '0' ∧
      natStr n = (fixDigits (Nat.log2 n + 1) n).dropWhile (· == '0')) := by
  have hall := all_fixDigits (Nat.log2 n + 1) n
  have hval := natVal_fixDigits_of_lt (lt_ten_pow_log2 n)
  unfold natStr
  cases hd : (fixDigits (Nat.log2 n + 1) n).dropWhile (· == '0') with
  | nil =>
    left
    refine ⟨?_, rfl⟩
    rw [← hval]; exact (natVal_eq_zero hall).2 hd
  | cons c t =>
    right
    refine ⟨?_, c, t, rfl, head_dropWhile_zero _ _ _ hd, rfl⟩
    intro h0
    have := (natVal_eq_zero hall).1 (by rw [hval, h0])
    rw [hd] at this; cases this

theorem natStr_all (n : ℕ) : (natStr n).all isDig = true := by
  rcases natStr_cases n with ⟨_, h⟩ | ⟨_, c, t, _, _, h⟩
  · rw [h]; rfl
  · rw [h]; exact all_dropWhile (all_fixDigits _ _)

@[simp] theorem natVal_natStr (n : ℕ) : natVal (natStr n) = n := by
  rcases natStr_cases n with ⟨h0, h⟩ | ⟨_, c, t, _, _, h⟩
  · rw [h, h0]; rfl
  · rw [h, natVal_dropWhile_zero, natVal_fixDigits_of_lt (lt_ten_pow_log2 n)]

theorem natStr_ne_nil (n : ℕ) : natStr n ≠ [] := by
  rcases natStr_cases n with ⟨h0, h⟩ | ⟨_, c, t, h, _, _⟩ <;> rw [h] <;> simp

theorem natStr_length_pos (n : ℕ) : 1 ≤ (natStr n).length :=
  List.length_pos_iff.2 (natStr_ne_nil n)

theorem natStr_length_le {n w : ℕ} (hw : 1 ≤ w) (h : n < 10 ^ w) : (natStr n).length ≤ w := by
  rcases natStr_cases n with ⟨h0, h'⟩ | ⟨_, c, t, _, _, h'⟩
  · rw [h']; simpa using hw
  · rw [h']
    exact length_le_of_natVal_lt (all_fixDigits _ _)
      (by rw [natVal_fixDigits_of_lt (lt_ten_pow_log2 n)]; exact h)

theorem natStr_injective {a b : ℕ} (h : natStr a = natStr b) : a = b := by
  rw [← natVal_natStr a, h, natVal_natStr]

/-- A digit string without leading zero is the `str` of its value. -/
theorem natStr_natVal {s : Str} (h : s.all isDig = true) (hne : s ≠ [])
    (hz : s.dropWhile (· == '0') = s) : natStr (natVal s) = s := by
  rcases natStr_cases (natVal s) with ⟨h0, h'⟩ | ⟨_, c, t, _, _, h'⟩
  · exfalso
    have := (natVal_eq_zero h).1 h0
    rw [hz] at this; exact hne this
  · rw [h']
    -- both have no leading zeros and the same value
    have hv : natVal ((fixDigits (Nat.log2 (natVal s) + 1) (natVal s)).dropWhile (· == '0'))
        = natVal s := by
      rw [natVal_dropWhile_zero, natVal_fixDigits_of_lt (lt_ten_pow_log2 _)]
    apply digits_ext (all_dropWhile (all_fixDigits _ _)) h _ hv
    apply le_antisymm
    · apply length_le_of_natVal_lt (all_fixDigits _ _)
      rw [natVal_fixDigits_of_lt (lt_ten_pow_log2 _)]
      exact natVal_lt h
    · have := length_le_of_natVal_lt h
        (w := ((fixDigits (Nat.log2 (natVal s) + 1) (natVal s)).dropWhile (· == '0')).length)
        (lt_of_eq_of_lt hv.symm (natVal_lt (all_dropWhile (all_fixDigits _ _))))
      rwa [hz] at this

/-! ## Rounding -/

theorem rne_spec {x : ℚ} (hx : 0 ≤ x) : |(rne x : ℚ) - x| ≤ 1 / 2 := by
  unfold rne
  have hf : ((⌊x⌋.toNat : ℕ) : ℚ) = (⌊x⌋ : ℚ) := by
    have : (0 : ℤ) ≤ ⌊x⌋ := Int.floor_nonneg.2 hx
    have h := Int.toNat_of_nonneg this
    exact_mod_cast h
  have h1 := Int.floor_le x
  have h2 := Int.lt_floor_add_one x
  simp only [hf]
  split
  · rw [hf, abs_le]; constructor <;> linarith
  · split
    · push_cast; rw [hf, abs_le]; constructor <;> linarith
    · split
      · rw [hf, abs_le]; constructor <;> linarith
      · push_cast; rw [hf, abs_le]; constructor <;> linarith

/-- The rounded value is `n` as soon as `x` is less than one half away from `n`. -/
theorem rne_eq_of_close {x : ℚ} {n : ℕ} (hx : 0 ≤ x) (h : |x - n| < 1 / 2) : rne x = n := by
  have h1 := rne_spec hx
  have h2 : |(rne x : ℚ) - n| < 1 := by
    calc |(rne x : ℚ) - n| = |((rne x : ℚ) - x) + (x - n)| := by ring_nf
      _ ≤ |(rne x : ℚ) - x| + |x - n| := abs_add_le _ _
      _ < 1 := by linarith
  have h3 : |((rne x : ℤ) - (n : ℤ))| < 1 := by exact_mod_cast h2
  have h4 := Int.abs_lt_one_iff.1 h3
  omega

@[simp] theorem rne_natCast (n : ℕ) : rne (n : ℚ) = n :=
  rne_eq_of_close (by positivity) (by simp)

end Verif.Py
