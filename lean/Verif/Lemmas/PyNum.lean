import Verif.Lemmas.Digits

/-! # `strip`, `int` and `float` on the texts that occur in the model -/

namespace Verif.Py

/-! ## takeWhile / dropWhile -/

theorem takeWhile_append_of_all {p : Char → Bool} {a b : Str} (ha : a.all p = true)
    (hb : ∀ c t, b = c :: t → p c = false) : (a ++ b).takeWhile p = a := by
  induction a with
  | nil =>
    cases b with
    | nil => rfl
    | cons c t => simp [hb c t rfl]
  | cons x a ih =>
    simp only [List.all_cons, Bool.and_eq_true] at ha
    simp [ha.1, ih ha.2]

theorem dropWhile_append_of_all {p : Char → Bool} {a b : Str} (ha : a.all p = true)
    (hb : ∀ c t, b = c :: t → p c = false) : (a ++ b).dropWhile p = b := by
  induction a with
  | nil =>
    cases b with
    | nil => rfl
    | cons c t => simp [hb c t rfl]
  | cons x a ih =>
    simp only [List.all_cons, Bool.and_eq_true] at ha
    simp [ha.1, ih ha.2]

theorem takeWhile_all {p : Char → Bool} {a : Str} (ha : a.all p = true) : a.takeWhile p = a := by
  simpa using takeWhile_append_of_all (b := []) ha (by simp)

theorem dropWhile_all {p : Char → Bool} {a : Str} (ha : a.all p = true) : a.dropWhile p = [] := by
  simpa using dropWhile_append_of_all (b := []) ha (by simp)

theorem dropWhile_head_false {p : Char → Bool} {c : Char} {t : Str} (h : p c = false) :
    (c :: t).dropWhile p = c :: t := by
  simp [h]

/-! ## strip -/

theorem dropWhile_none {p : Char → Bool} {s : Str} (h : s.all (fun c => !p c) = true) :
    s.dropWhile p = s := by
  cases s with
  | nil => rfl
  | cons c t =>
    simp only [List.all_cons, Bool.and_eq_true, Bool.not_eq_true'] at h
    exact dropWhile_head_false h.1

theorem rstripBy_none {p : Char → Bool} {s : Str} (h : s.all (fun c => !p c) = true) :
    rstripBy p s = s := by
  unfold rstripBy
  rw [dropWhile_none (by rw [List.all_reverse]; exact h), List.reverse_reverse]

theorem stripBy_none {p : Char → Bool} {s : Str} (h : s.all (fun c => !p c) = true) :
    stripBy p s = s := by
  unfold stripBy lstripBy
  rw [dropWhile_none h, rstripBy_none h]

theorem strip_of_no_space {s : Str} (h : s.all (fun c => !isSpace c) = true) : strip s = s :=
  stripBy_none h

theorem not_isSpace_of_isDig {c : Char} (h : isDig c = true) : isSpace c = false := by
  rw [isDig_iff] at h
  unfold isSpace
  have hne : ∀ d : Char, d.toNat < 48 → (c == d) = false := by
    intro d hd
    simp only [beq_eq_false_iff_ne, ne_eq]
    rintro rfl; omega
  simp [hne ' ' (by decide), hne '\t' (by decide), hne '\n' (by decide), hne '\r' (by decide),
    hne '\x0b' (by decide), hne '\x0c' (by decide)]

theorem all_mono {p q : Char → Bool} {s : Str} (h : s.all p = true)
    (hpq : ∀ c, p c = true → q c = true) : s.all q = true := by
  rw [List.all_eq_true] at h ⊢
  exact fun x hx => hpq x (h x hx)

theorem all_not_space_of_digits {s : Str} (h : s.all isDig = true) :
    s.all (fun c => !isSpace c) = true :=
  all_mono h fun c hc => by simp [not_isSpace_of_isDig hc]

/-! ## takeSign -/

theorem takeSign_of_dig {c : Char} {t : Str} (h : isDig c = true) :
    takeSign (c :: t) = (false, c :: t) := by
  have h1 : c ≠ '+' := isDig_ne h rfl
  have h2 : c ≠ '-' := isDig_ne h rfl
  unfold takeSign
  split
  · rename_i heq; simp_all
  · rename_i heq; simp_all
  · rfl

theorem takeSign_minus (s : Str) : takeSign ('-' :: s) = (true, s) := rfl

theorem takeSign_digits {s : Str} (h : s.all isDig = true) : takeSign s = (false, s) := by
  cases s with
  | nil => rfl
  | cons c t =>
    simp only [List.all_cons, Bool.and_eq_true] at h
    exact takeSign_of_dig h.1

/-! ## int() -/

theorem pyInt_digits {s : Str} (h : s.all isDig = true) (hne : s ≠ []) :
    pyInt s = .ok (natVal s : ℤ) := by
  unfold pyInt
  rw [strip_of_no_space (all_not_space_of_digits h), takeSign_digits h]
  simp only
  rw [if_pos ⟨hne, h⟩]; rfl

@[simp] theorem pyInt_natStr (n : ℕ) : pyInt (natStr n) = .ok (n : ℤ) := by
  rw [pyInt_digits (natStr_all n) (natStr_ne_nil n), natVal_natStr]

@[simp] theorem pyInt_intStr (n : ℤ) : pyInt (intStr n) = .ok n := by
  unfold intStr
  split
  · rename_i h
    unfold pyInt
    have hs : ('-' :: natStr n.natAbs).all (fun c => !isSpace c) = true := by
      rw [List.all_cons, all_not_space_of_digits (natStr_all _)]; rfl
    rw [strip_of_no_space hs, takeSign_minus]
    simp only
    rw [if_pos ⟨natStr_ne_nil _, natStr_all _⟩, natVal_natStr]
    simp only [if_true]
    congr 1; omega
  · rw [pyInt_natStr]; congr 1; omega

/-! ## float() -/

theorem pyUFloat_point {a b : Str} (ha : a.all isDig = true) (hb : b.all isDig = true)
    (hne : ¬(a = [] ∧ b = [])) :
    pyUFloat (a ++ '.' :: b) = some ((natVal (a ++ b) : ℚ) / 10 ^ b.length) := by
  have hp : ∀ c t, ('.' :: b) = c :: t → isDig c = false := by
    intro c t h; cases h; rfl
  unfold pyUFloat
  rw [takeWhile_append_of_all ha hp, dropWhile_append_of_all ha hp]
  simp only [takeWhile_all hb, dropWhile_all hb]
  rw [if_neg hne]; rfl

theorem pyUFloat_digits {a : Str} (ha : a.all isDig = true) (hne : a ≠ []) :
    pyUFloat a = some (natVal a : ℚ) := by
  unfold pyUFloat
  rw [takeWhile_all ha, dropWhile_all ha]
  simp [hne, pyExpo]

theorem takeSign_point {a b : Str} (ha : a.all isDig = true) :
    takeSign (a ++ '.' :: b) = (false, a ++ '.' :: b) := by
  cases a with
  | nil => rfl
  | cons c t =>
    simp only [List.all_cons, Bool.and_eq_true] at ha
    exact takeSign_of_dig ha.1

theorem pyFloat_point {a b : Str} (ha : a.all isDig = true) (hb : b.all isDig = true)
    (hne : ¬(a = [] ∧ b = [])) :
    pyFloat (a ++ '.' :: b) = .ok ((natVal (a ++ b) : ℚ) / 10 ^ b.length) := by
  have hs : (a ++ '.' :: b).all (fun c => !isSpace c) = true := by
    rw [List.all_append, List.all_cons, all_not_space_of_digits ha, all_not_space_of_digits hb]
    rfl
  unfold pyFloat
  rw [strip_of_no_space hs, takeSign_point ha]
  simp only [pyUFloat_point ha hb hne]
  rfl

theorem pyFloat_digits {a : Str} (ha : a.all isDig = true) (hne : a ≠ []) :
    pyFloat a = .ok (natVal a : ℚ) := by
  unfold pyFloat
  rw [strip_of_no_space (all_not_space_of_digits ha), takeSign_digits ha]
  simp only [pyUFloat_digits ha hne]
  rfl

end Verif.Py
