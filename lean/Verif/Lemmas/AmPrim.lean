import Verif.Spec.AmPrim
import Verif.Spec.Macro
import Verif.Lemmas.Repr
import Verif.Lemmas.ExcellonText
import Verif.Lemmas.GerberParse

/-! # Text of macro primitives -/

namespace Verif.Am

open Verif.Py Verif.Gerber

/-! ## Fields -/

theorem joinWith_cons (c : Char) (a : Str) (l : List Str) :
    joinWith c (a :: l) = a ++ l.flatMap fun s => c :: s := by
  induction l generalizing a with
  | nil => simp [joinWith]
  | cons b l ih =>
    show a ++ c :: joinWith c (b :: l) = _
    rw [ih]; simp

theorem intercalate_cons (sep a : Str) (l : List Str) :
    List.intercalate sep (a :: l) = a ++ l.flatMap fun s => sep ++ s := by
  induction l generalizing a with
  | nil => simp [List.intercalate]
  | cons b l ih =>
    have := ih b
    simp only [List.intercalate, List.intersperse_cons_cons, List.flatten_cons] at this ⊢
    rw [this]; simp

/-- Text of a number: reads as `v` and has no delimiters. -/
def Fld (s : Str) (v : ℚ) : Prop :=
  (∀ c ∈ s, isNumCh c = true ∨ c = '\n') ∧ pyFloat s = .ok v

theorem fld_repr {v : ℚ} (h : Digits 15 v) : Fld (pyRepr v) v := by
  refine ⟨fun c hc => .inl (List.all_eq_true.1 (pyRepr_all v) c hc), ?_⟩
  obtain ⟨z, k, hz, he⟩ := h
  rw [pyFloat_pyRepr, sigRound_exact (by norm_num) (lt_trans hz (by norm_num)) he]

theorem fld_fmtG {P : ℕ} (hP : 1 ≤ P) {v : ℚ} (h : Digits P v) : Fld (fmtG P v) v := by
  refine ⟨fun c hc => .inl (List.all_eq_true.1 (fmtG_all P v) c hc), ?_⟩
  obtain ⟨z, k, hz, he⟩ := h
  rw [pyFloat_fmtG hP, sigRound_exact hP hz he]

theorem fld_nl {s : Str} {v : ℚ} (h : Fld s v) : Fld ('\n' :: s) v := by
  refine ⟨?_, ?_⟩
  · intro c hc
    rcases List.mem_cons.1 hc with rfl | hc
    · exact .inr rfl
    · exact h.1 c hc
  · rw [← h.2]
    unfold pyFloat strip stripBy lstripBy
    rw [List.dropWhile_cons_of_pos (by decide)]

theorem fld_exp (on : Bool) : Fld (expText on) (if on then 1 else 0) := by
  cases on <;> exact ⟨by decide, by decide +kernel⟩

theorem fld_int (n : ℤ) : Fld (intStr n) n := by
  have hd : ∀ {s : Str}, s.all isDig = true → s.all isNumCh = true := fun h =>
    all_mono h fun c hc => by simp [isNumCh, hc]
  have hall : (intStr n).all isNumCh = true := by
    unfold intStr
    split
    · rw [List.all_cons, hd (natStr_all _)]; rfl
    · exact hd (natStr_all _)
  refine ⟨fun c hc => .inl (List.all_eq_true.1 hall c hc), ?_⟩
  unfold pyFloat
  rw [strip_of_no_space (all_mono hall fun c hc => by simp [not_isSpace_of_isNumCh hc])]
  unfold intStr
  by_cases h : n < 0
  · rw [if_pos h, takeSign_minus]
    simp only [pyUFloat_digits (natStr_all _) (natStr_ne_nil _), natVal_natStr, if_true]
    congr 1
    have : (n : ℚ) = -((n.natAbs : ℤ) : ℚ) := by
      rw [← Int.cast_neg]; congr 1; omega
    rw [this]; simp
  · rw [if_neg h, takeSign_digits (natStr_all _)]
    simp only [pyUFloat_digits (natStr_all _) (natStr_ne_nil _), natVal_natStr, Bool.false_eq_true,
      if_false]
    congr 1
    have : (n : ℚ) = ((n.natAbs : ℤ) : ℚ) := by congr 1; omega
    rw [this]; simp

theorem fld_nat (n : ℕ) : Fld (natStr n) n := by
  have := fld_int n
  rwa [intStr, if_neg (by omega), Int.natAbs_natCast, Int.cast_natCast] at this

/-! ## Fields and values of a primitive -/

/-- Code of a primitive. -/
def code : AmPrim → ℕ
  | .comment _ => 0
  | .circle _ _ _ => 1
  | .vectorLine c _ _ _ _ _ => c
  | .outline _ _ _ _ => 4
  | .polygon _ _ _ _ _ => 5
  | .moire _ _ _ _ _ _ _ _ => 6
  | .thermal _ _ _ _ _ => 7
  | .centerLine _ _ _ _ _ => 21
  | .lowerLeft _ _ _ _ _ => 22
  | .unsupported _ => 9999

/-- Fields of the points of an outline; `nl` stands before all but the first point. -/
def ptFields (nl : Str) : List (ℚ × ℚ) → List Str
  | [] => []
  | p :: l => fmtG 6 p.1 :: fmtG 6 p.2 :: l.flatMap fun q => [nl ++ fmtG 6 q.1, fmtG 6 q.2]

/-- Fields of a shape after its code. -/
def fields (nl : Str) : AmPrim → List Str
  | .circle on d p => [expText on, pyRepr d, pyRepr p.1, pyRepr p.2]
  | .vectorLine _ on w s e r =>
    [expText on, pyRepr w, pyRepr s.1, pyRepr s.2, pyRepr e.1, pyRepr e.2, pyRepr r]
  | .outline on s ps r =>
    [expText on, natStr ps.length, fmtG 6 s.1, fmtG 6 s.2] ++ ptFields nl ps ++ [pyRepr r]
  | .polygon on n p d r => [expText on, intStr n, fmtG 4 p.1, fmtG 4 p.2, fmtG 4 d, pyRepr r]
  | .moire p d t g n ct cl r => [fmtG 4 p.1, fmtG 4 p.2, pyRepr d, pyRepr t, pyRepr g, intStr n,
      pyRepr ct, pyRepr cl, pyRepr r]
  | .thermal p o i g r => [fmtG 4 p.1, fmtG 4 p.2, pyRepr o, pyRepr i, pyRepr g, pyRepr r]
  | .centerLine on w h c r =>
    [expText on, pyRepr w, pyRepr h, fmtG 4 c.1, fmtG 4 c.2, pyRepr r]
  | .lowerLeft on w h c r =>
    [expText on, pyRepr w, pyRepr h, fmtG 4 c.1, fmtG 4 c.2, pyRepr r]
  | .comment _ => []
  | .unsupported _ => []

/-- 1 for on. -/
def expVal (on : Bool) : ℚ := if on then 1 else 0

/-- Values of a shape after its code. -/
def values : AmPrim → List ℚ
  | .circle on d p => [expVal on, d, p.1, p.2]
  | .vectorLine _ on w s e r => [expVal on, w, s.1, s.2, e.1, e.2, r]
  | .outline on s ps r => [expVal on, ps.length, s.1, s.2] ++ (ps.flatMap fun q => [q.1, q.2]) ++ [r]
  | .polygon on n p d r => [expVal on, n, p.1, p.2, d, r]
  | .moire p d t g n ct cl r => [p.1, p.2, d, t, g, n, ct, cl, r]
  | .thermal p o i g r => [p.1, p.2, o, i, g, r]
  | .centerLine on w h c r => [expVal on, w, h, c.1, c.2, r]
  | .lowerLeft on w h c r => [expVal on, w, h, c.1, c.2, r]
  | .comment _ => []
  | .unsupported _ => []

theorem ptFields_eq (p : ℚ × ℚ) (l : List (ℚ × ℚ)) :
    List.intercalate [',', '\n'] ((p :: l).map (ptText 6)) =
      joinWith ',' (ptFields ['\n'] (p :: l)) := by
  rw [List.map_cons, intercalate_cons, ptFields, joinWith_cons]
  simp only [ptText, List.flatMap_cons, List.append_assoc, List.cons_append]
  congr 3
  rw [List.flatMap_map, List.flatMap_assoc]
  simp [ptText]

/-- The text of a shape. -/
theorem toGerber_eq {p : AmPrim} (h : isShape p = true)
    (ho : ∀ on s ps r, p = .outline on s ps r → ps ≠ []) :
    toGerber p = joinWith ',' (natStr (code p) :: fields ['\n'] p) ++ ['*'] := by
  cases p with
  | comment => cases h
  | unsupported => cases h
  | outline on s ps r =>
    cases ps with
    | nil => exact absurd rfl (ho _ _ _ _ rfl)
    | cons q l =>
      simp only [toGerber, commas]
      rw [ptFields_eq]
      simp only [fields, code, joinWith_cons, ptFields, ptText]
      simp [show natStr 4 = ['4'] by decide]
  | circle => simp [toGerber, fields, code, commas, joinWith, show natStr 1 = ['1'] by decide]
  | vectorLine => simp [toGerber, fields, code, commas, joinWith]
  | polygon => simp [toGerber, fields, code, commas, joinWith, ptText, show natStr 5 = ['5'] by decide]
  | moire => simp [toGerber, fields, code, commas, joinWith, ptText, show natStr 6 = ['6'] by decide]
  | thermal => simp [toGerber, fields, code, commas, joinWith, ptText, show natStr 7 = ['7'] by decide]
  | centerLine =>
    simp [toGerber, fields, code, commas, joinWith, ptText, show natStr 21 = ['2', '1'] by decide]
  | lowerLeft =>
    simp [toGerber, fields, code, commas, joinWith, ptText, show natStr 22 = ['2', '2'] by decide]

theorem ShapeOK.isShape {D : ℕ → ℚ → Prop} {p : AmPrim} (h : ShapeOK D p) : isShape p = true := by
  cases p <;> first | rfl | exact h.elim

theorem ShapeOK.points {D : ℕ → ℚ → Prop} {p : AmPrim} (h : ShapeOK D p) :
    ∀ on s ps r, p = .outline on s ps r → ps ≠ [] := by
  rintro on s ps r rfl rfl
  exact absurd h.1 (by simp)

theorem forall₂_ptFields {nl : Str} (hnl : nl = [] ∨ nl = ['\n']) {ps : List (ℚ × ℚ)}
    (h : ∀ q ∈ ps, Digits 6 q.1 ∧ Digits 6 q.2) :
    List.Forall₂ Fld (ptFields nl ps) (ps.flatMap fun q => [q.1, q.2]) := by
  have hf : ∀ q : ℚ × ℚ, Digits 6 q.1 → Fld (nl ++ fmtG 6 q.1) q.1 := by
    intro q hq
    rcases hnl with rfl | rfl
    · exact fld_fmtG (by norm_num) hq
    · exact fld_nl (fld_fmtG (by norm_num) hq)
  cases ps with
  | nil => exact .nil
  | cons p l =>
    have hp := h p (by simp)
    refine .cons (fld_fmtG (by norm_num) hp.1) (.cons (fld_fmtG (by norm_num) hp.2) ?_)
    have hl : ∀ q ∈ l, Digits 6 q.1 ∧ Digits 6 q.2 := fun q hq => h q (by simp [hq])
    clear h
    induction l with
    | nil => exact .nil
    | cons q l ih =>
      have hq := hl q (by simp)
      exact .cons (hf q hq.1) (.cons (fld_fmtG (by norm_num) hq.2)
        (ih fun q hq => hl q (by simp [hq])))

/-- The fields of a shape read as its values. -/
theorem fields_values {nl : Str} (hnl : nl = [] ∨ nl = ['\n']) {p : AmPrim} (h : ShapeOK Digits p) :
    List.Forall₂ Fld (fields nl p) (values p) := by
  have r := @fld_repr
  have f4 : ∀ {v : ℚ}, Digits 4 v → Fld (fmtG 4 v) v := fun h => fld_fmtG (by norm_num) h
  cases p with
  | comment => exact h.elim
  | unsupported => exact h.elim
  | circle on d p => exact .cons (fld_exp on) (.cons (r h.1) (.cons (r h.2.1) (.cons (r h.2.2) .nil)))
  | vectorLine c on w s e ro =>
    obtain ⟨-, h1, h2, h3, h4, h5, h6⟩ := h
    exact .cons (fld_exp on) (.cons (r h1) (.cons (r h2) (.cons (r h3) (.cons (r h4)
      (.cons (r h5) (.cons (r h6) .nil))))))
  | outline on s ps ro =>
    obtain ⟨-, -, h1, h2, h3, h4⟩ := h
    have hp := forall₂_ptFields hnl h3
    refine List.rel_append (List.rel_append ?_ hp) (.cons (r h4) .nil)
    exact .cons (fld_exp on) (.cons (fld_nat _) (.cons (fld_fmtG (by norm_num) h1)
      (.cons (fld_fmtG (by norm_num) h2) .nil)))
  | polygon on n p d ro =>
    obtain ⟨-, h1, h2, h3, h4⟩ := h
    exact .cons (fld_exp on) (.cons (fld_int n) (.cons (f4 h1) (.cons (f4 h2) (.cons (f4 h3)
      (.cons (r h4) .nil)))))
  | moire p d t g n ct cl ro =>
    obtain ⟨h1, h2, h3, h4, h5, -, h6, h7, h8⟩ := h
    exact .cons (f4 h1) (.cons (f4 h2) (.cons (r h3) (.cons (r h4) (.cons (r h5) (.cons (fld_int n)
      (.cons (r h6) (.cons (r h7) (.cons (r h8) .nil))))))))
  | thermal p o i g ro =>
    obtain ⟨h1, h2, h3, h4, h5, h6⟩ := h
    exact .cons (f4 h1) (.cons (f4 h2) (.cons (r h3) (.cons (r h4) (.cons (r h5) (.cons (r h6) .nil)))))
  | centerLine on w h' c ro =>
    obtain ⟨h1, h2, h3, h4, h5⟩ := h
    exact .cons (fld_exp on) (.cons (r h1) (.cons (r h2) (.cons (f4 h3) (.cons (f4 h4)
      (.cons (r h5) .nil)))))
  | lowerLeft on w h' c ro =>
    obtain ⟨h1, h2, h3, h4, h5⟩ := h
    exact .cons (fld_exp on) (.cons (r h1) (.cons (r h2) (.cons (f4 h3) (.cons (f4 h4)
      (.cons (r h5) .nil)))))

/-! ## Reading fields -/

theorem numCh_plain {c : Char} (h : isNumCh c = true ∨ c = '\n') :
    isBlankStar c = false ∧ c ≠ ',' := by
  rcases h with h | rfl
  · constructor
    · unfold isBlankStar
      simp only [Bool.or_eq_false_iff, beq_eq_false_iff_ne]
      constructor <;> rintro rfl <;> revert h <;> decide
    · rintro rfl; revert h; decide
  · decide

theorem stripBy_star {s : Str} {t : Str} (h : ∀ c ∈ s, isBlankStar c = false) (ht : t = [] ∨ t = ['*'])
    : stripBy isBlankStar (s ++ t) = s := by
  have hs : s.all (fun c => !isBlankStar c) = true := by
    rw [List.all_eq_true]; intro c hc; simp [h c hc]
  rcases ht with rfl | rfl
  · rw [List.append_nil]; exact stripBy_none hs
  · cases s with
    | nil => decide
    | cons c s =>
      unfold stripBy lstripBy
      rw [List.cons_append, List.dropWhile_cons_of_neg (by simp [h c]), ← List.cons_append,
        rstripBy_append, show rstripBy isBlankStar ['*'] = [] by decide, if_pos rfl]
      exact rstripBy_none hs

theorem splitOn_joinWith' {l : List Str} {a : Str} (h : ∀ s ∈ a :: l, ',' ∉ s) :
    splitOn ',' (joinWith ',' (a :: l)) = a :: l := by
  induction l generalizing a with
  | nil => exact Excellon.splitOn_none (h a (by simp))
  | cons b l ih =>
    show splitOn ',' (a ++ ',' :: joinWith ',' (b :: l)) = _
    rw [Excellon.splitOn_one (h a (by simp)), ih fun s hs => h s (by simp at hs ⊢; tauto)]

theorem modifiersOf_fields {n : ℕ} {strs : List Str} {vals : List ℚ}
    (h : List.Forall₂ Fld strs vals) {t : Str} (ht : t = [] ∨ t = ['*']) :
    modifiersOf (joinWith ',' (natStr n :: strs) ++ t) = natStr n :: strs := by
  have hn : ∀ s ∈ natStr n :: strs, ∀ c ∈ s, isNumCh c = true ∨ c = '\n' := by
    intro s hs
    rcases List.mem_cons.1 hs with rfl | hs
    · exact (fld_nat n).1
    · obtain ⟨v, -, hv⟩ : ∃ v ∈ vals, Fld s v := by
        induction h with
        | nil => cases hs
        | cons hab hl ih =>
          rcases List.mem_cons.1 hs with rfl | hs
          · exact ⟨_, by simp, hab⟩
          · obtain ⟨v, h1, h2⟩ := ih (by simp [hs]) hs
            exact ⟨v, by simp [h1], h2⟩
      exact hv.1
  unfold modifiersOf
  rw [stripBy_star _ ht]
  · exact splitOn_joinWith' fun s hs hc => (numCh_plain (hn s hs _ hc)).2 rfl
  · intro c hc
    rw [joinWith_cons] at hc
    rcases List.mem_append.1 hc with hc | hc
    · exact (numCh_plain (hn _ (by simp) c hc)).1
    · rw [List.mem_flatMap] at hc
      obtain ⟨s, hs, hc⟩ := hc
      rcases List.mem_cons.1 hc with rfl | hc
      · decide
      · exact (numCh_plain (hn s (by simp [hs]) c hc)).1

theorem floatAt_fields {a : Str} {strs : List Str} {vals : List ℚ} (h : List.Forall₂ Fld strs vals)
    (i : ℕ) : floatAt (a :: strs) (i + 1) = pyIdx vals i := by
  unfold floatAt
  have : ∀ i : ℕ, (do let m ← pyIdx strs i; pyFloat m) = pyIdx vals i := by
    intro i
    induction h generalizing i with
    | nil => simp [pyIdx, bind, Except.bind]
    | cons hab hl ih =>
      cases i with
      | zero => simp [pyIdx, bind, Except.bind, hab.2]
      | succ i =>
        have := ih i
        simpa [pyIdx] using this
  have h2 := this i
  simpa [pyIdx] using h2

theorem pointAt_fields {a : Str} {strs : List Str} {vals : List ℚ} (h : List.Forall₂ Fld strs vals)
    (i : ℕ) : pointAt (a :: strs) (i + 1) = (do
      let x ← pyIdx vals i
      let y ← pyIdx vals (i + 1)
      .ok (x, y)) := by
  unfold pointAt
  rw [floatAt_fields h, show i + 1 + 1 = (i + 1) + 1 from rfl, floatAt_fields h]

theorem lastFloat_fields {a : Str} {strs : List Str} {vals : List ℚ} {v : ℚ}
    (h : List.Forall₂ Fld strs (vals ++ [v])) : lastFloat (a :: strs) = .ok v := by
  obtain ⟨s1, s2, h1, h2, rfl⟩ : ∃ s1 s2, List.Forall₂ Fld s1 vals ∧ List.Forall₂ Fld s2 [v] ∧
      strs = s1 ++ s2 := by
    refine ⟨strs.take vals.length, strs.drop vals.length, ?_, ?_, by simp⟩
    · have := List.forall₂_take vals.length h
      simpa using this
    · have := List.forall₂_drop vals.length h
      simpa using this
  cases h2 with
  | cons hs hn =>
    cases hn
    unfold lastFloat
    rw [← List.cons_append, List.getLast?_append]
    simp [hs.2]

theorem codeOf_fields (n : ℕ) (strs : List Str) : codeOf (natStr n :: strs) = .ok (n : ℤ) := by
  simp [codeOf, pyIdx, bind, Except.bind]

theorem truncate_nat (n : ℕ) : truncate (n : ℚ) = n := by
  rw [truncate, if_pos (by positivity)]; exact Int.floor_natCast n

theorem truncate_int (n : ℤ) : truncate (n : ℚ) = n := by
  unfold truncate
  split
  · exact Int.floor_intCast n
  · exact Int.ceil_intCast n

theorem pointsFrom_fields {a : Str} {strs : List Str} {vals : List ℚ} (h : List.Forall₂ Fld strs vals)
    (pre : List ℚ) (ps : List (ℚ × ℚ)) (post : List ℚ)
    (hv : vals = pre ++ (ps.flatMap fun q => [q.1, q.2]) ++ post) :
    pointsFrom (a :: strs) (pre.length + 1) ps.length = .ok ps := by
  induction ps generalizing pre with
  | nil => rfl
  | cons q ps ih =>
    have := ih (pre ++ [q.1, q.2]) (by rw [hv]; simp)
    simp only [List.length_cons, pointsFrom]
    rw [pointAt_fields h]
    have e : (pre ++ [q.1, q.2]).length + 1 = pre.length + 1 + 2 := by simp
    rw [e] at this
    rw [this, hv]
    have h1 : pyIdx (pre ++ (List.flatMap (fun q => [q.1, q.2]) (q :: ps)) ++ post) pre.length = .ok q.1 := by
      simp [pyIdx]
    have h2 : pyIdx (pre ++ (List.flatMap (fun q => [q.1, q.2]) (q :: ps)) ++ post) (pre.length + 1) =
        .ok q.2 := by
      simp [pyIdx]
    rw [h1, h2]
    simp [bind, Except.bind]

theorem exposure_eq (on : Bool) : (expVal on == 1) = on := by cases on <;> decide

/-- Fields that read as the values of a shape read as the shape. -/
theorem fromGerber_fields {D : ℕ → ℚ → Prop} {p : AmPrim} (hp : ShapeOK D p) {strs : List Str}
    (h : List.Forall₂ Fld strs (values p)) {t : Str} (ht : t = [] ∨ t = ['*']) :
    fromGerber (joinWith ',' (natStr (code p) :: strs) ++ t) = .ok p := by
  have hms := modifiersOf_fields (n := code p) h ht
  have hne : ∃ r, joinWith ',' (natStr (code p) :: strs) ++ t = natStr (code p) ++ ',' :: r := by
    cases h' : strs with
    | nil =>
      rw [h'] at h
      have : values p = [] := List.forall₂_nil_left_iff.1 h
      revert this
      cases p <;> first | exact hp.elim | simp [values]
    | cons s l => exact ⟨s ++ l.flatMap (fun s => ',' :: s) ++ t, by simp [joinWith_cons]⟩
  obtain ⟨r, hr⟩ := hne
  have f := fun i => floatAt_fields (a := natStr (code p)) h i
  have q := fun i => pointAt_fields (a := natStr (code p)) h i
  have c := codeOf_fields (code p) strs
  rw [hr] at hms ⊢
  have n1 : natStr 1 = ['1'] := by decide
  have n2 : natStr 2 = ['2'] := by decide
  have n20 : natStr 20 = ['2', '0'] := by decide
  have n4 : natStr 4 = ['4'] := by decide
  have n5 : natStr 5 = ['5'] := by decide
  have n6 : natStr 6 = ['6'] := by decide
  have n7 : natStr 7 = ['7'] := by decide
  have n21 : natStr 21 = ['2', '1'] := by decide
  have n22 : natStr 22 = ['2', '2'] := by decide
  cases p with
  | comment => exact hp.elim
  | unsupported => exact hp.elim
  | circle on d p =>
    have : fromGerber (natStr 1 ++ ',' :: r) = circleOf (natStr 1 ++ ',' :: r) := by
      simp [n1, fromGerber]
    simp only [code] at *
    rw [this]
    simp only [circleOf, hms, exposureOf, c, f 0, f 1, q 2, values, pyIdx, bind, Except.bind, require]
    simp [exposure_eq]
  | vectorLine k on w s e ro =>
    have hk := hp.1
    simp only [code] at *
    have : fromGerber (natStr k ++ ',' :: r) = vectorLineOf (natStr k ++ ',' :: r) := by
      rcases hk with rfl | rfl <;> simp [n2, n20, fromGerber]
    rw [this]
    have hk' : ((k : ℤ) == 2 || (k : ℤ) == 20) = true := by
      rcases hk with rfl | rfl <;> rfl
    simp only [vectorLineOf, hms, exposureOf, c, f 0, f 1, q 2, q 4, f 6, values, pyIdx, bind,
      Except.bind, require, hk']
    simp [exposure_eq]
  | outline on s ps ro =>
    have hl := hp.1
    have hpts := pointsFrom_fields (a := natStr 4) h [expVal on, ps.length, s.1, s.2] ps [ro] rfl
    have hlast := lastFloat_fields (a := natStr 4) (vals := [expVal on, ps.length, s.1, s.2] ++
      (ps.flatMap fun q => [q.1, q.2])) h
    simp only [code] at *
    have : fromGerber (natStr 4 ++ ',' :: r) = outlineOf (natStr 4 ++ ',' :: r) := by
      simp [n4, fromGerber]
    rw [this]
    simp only [List.length_cons, List.length_nil] at hpts
    simp only [outlineOf, hms, exposureOf, c, f 0, f 1, q 2, values, pyIdx, bind, Except.bind, require]
    simp [exposure_eq, truncate_nat, hpts, hlast, hl]
  | polygon on n p d ro =>
    have hn := hp.1
    simp only [code] at *
    have : fromGerber (natStr 5 ++ ',' :: r) = polygonOf (natStr 5 ++ ',' :: r) := by
      simp [n5, fromGerber]
    rw [this]
    simp only [polygonOf, hms, exposureOf, c, f 0, f 1, q 2, f 4, f 5, values, pyIdx, bind,
      Except.bind, require]
    simp [exposure_eq, truncate_int, hn]
  | moire p d t g n ct cl ro =>
    simp only [code] at *
    have : fromGerber (natStr 6 ++ ',' :: r) = moireOf (natStr 6 ++ ',' :: r) := by
      simp [n6, fromGerber]
    rw [this]
    simp only [moireOf, hms, c, q 0, f 2, f 3, f 4, f 5, f 6, f 7, f 8, values, pyIdx, bind,
      Except.bind, require]
    simp [truncate_int]
  | thermal p o i g ro =>
    simp only [code] at *
    have : fromGerber (natStr 7 ++ ',' :: r) = thermalOf (natStr 7 ++ ',' :: r) := by
      simp [n7, fromGerber]
    rw [this]
    simp only [thermalOf, hms, c, q 0, f 2, f 3, f 4, f 5, values, pyIdx, bind, Except.bind, require]
    simp
  | centerLine on w h' z ro =>
    simp only [code] at *
    have : fromGerber (natStr 21 ++ ',' :: r) = centerLineOf (natStr 21 ++ ',' :: r) := by
      simp [n21, fromGerber]
    rw [this]
    simp only [centerLineOf, hms, exposureOf, c, f 0, f 1, f 2, q 3, f 5, values, pyIdx, bind,
      Except.bind, require]
    simp [exposure_eq]
  | lowerLeft on w h' z ro =>
    simp only [code] at *
    have : fromGerber (natStr 22 ++ ',' :: r) = lowerLeftOf (natStr 22 ++ ',' :: r) := by
      simp [n22, fromGerber]
    rw [this]
    simp only [lowerLeftOf, hms, exposureOf, c, f 0, f 1, f 2, q 3, f 5, values, pyIdx, bind,
      Except.bind, require]
    simp [exposure_eq]

end Verif.Am

/-! ## Numbers as macro modifiers -/

namespace Verif.Py

theorem trimFrac_int (d m : ℕ) : trimFrac d m = natStr (m / 10 ^ d) ∨
    ∃ f, trimFrac d m = natStr (m / 10 ^ d) ++ '.' :: f := by
  by_cases hd : d = 0
  · subst hd
    left; simp [trimFrac, fixedStr]
  · have htrim : trimFrac d m = rstripBy (· == '.') (rstripBy (· == '0')
        ((natStr (m / 10 ^ d) ++ ['.']) ++ fixDigits d (m % 10 ^ d))) := by
      simp [trimFrac, fixedStr, hd]
    have hfall : (rstripBy (· == '0') (fixDigits d (m % 10 ^ d))).all isDig = true := by
      unfold rstripBy; rw [List.all_reverse]
      exact all_dropWhile (by rw [List.all_reverse]; exact all_fixDigits _ _)
    have hnd : ∀ {s : Str}, s.all isDig = true → s.all (fun c => !(c == '.')) = true := fun h =>
      all_mono h fun c hc => by
        simp only [Bool.not_eq_true', beq_eq_false_iff_ne]; rintro rfl; revert hc; decide
    rw [htrim, rstripBy_append]
    split
    · left
      rw [rstripBy_append, show rstripBy (· == '0') ['.'] = ['.'] from rfl, if_neg (by simp),
        rstripBy_append, show rstripBy (· == '.') ['.'] = [] from rfl, if_pos rfl]
      exact rstripBy_none (hnd (natStr_all _))
    · right
      rename_i hne
      rw [rstripBy_append, rstripBy_none (hnd hfall), if_neg hne]
      exact ⟨rstripBy (· == '0') (fixDigits d (m % 10 ^ d)), by simp⟩

theorem takeWhile_trimFrac (d m : ℕ) (tail : Str) (ht : ∀ c t, tail = c :: t → isDig c = false) :
    (trimFrac d m ++ tail).takeWhile isDig = natStr (m / 10 ^ d) := by
  rcases trimFrac_int d m with h | ⟨f, h⟩ <;> rw [h]
  · exact takeWhile_append_of_all (natStr_all _) ht
  · rw [List.append_assoc]
    exact takeWhile_append_of_all (natStr_all _) (by rintro c t ⟨⟩; rfl)

theorem fmtGPos_int (P : ℕ) (x : ℚ) : ∃ n, (fmtGPos P x).takeWhile isDig = natStr n := by
  unfold fmtGPos
  simp only
  split
  · exact ⟨_, by rw [← takeWhile_trimFrac _ _ [] (by simp), List.append_nil]⟩
  · exact ⟨_, takeWhile_trimFrac _ _ _ (by rintro c t ⟨⟩; rfl)⟩

theorem reprPos_int (x : ℚ) : ∃ n, (reprPos x).takeWhile isDig = natStr n := by
  rw [reprPos_eq]
  split
  · unfold withPoint
    split
    · exact ⟨_, by rw [← takeWhile_trimFrac _ _ [] (by simp), List.append_nil]⟩
    · exact ⟨_, takeWhile_trimFrac _ _ _ (by rintro c t ⟨⟩; rfl)⟩
  · exact ⟨_, takeWhile_trimFrac _ _ _ (by rintro c t ⟨⟩; rfl)⟩

end Verif.Py

namespace Verif.Am
open Verif.Py Verif.Macro

theorem natStr_lead (n : ℕ) : natStr n = ['0'] ∨ (natStr n).head? ≠ some '0' := by
  rcases natStr_cases n with ⟨-, h⟩ | ⟨-, c, t, h, hc, -⟩
  · exact .inl h
  · right; rw [h]; simpa using hc

/-- A modifier that is just a number. -/
def numMod (sp : Str) (neg : Bool) (l : Lit) : Modifier := ⟨neg, .term (.fac (.num l)), sp⟩

/-- The text of a number as a macro modifier. -/
def IsNum (s : Str) (v : ℚ) : Prop := ∃ neg l, Lit.WF l ∧ (neg = true → l.text ≠ ['0']) ∧
  s = (if neg then ['-'] else []) ++ l.text ∧ v = if neg then -l.value else l.value

theorem isNum_nat (n : ℕ) : IsNum (natStr n) n := by
  refine ⟨false, ⟨natStr n, none⟩, ⟨natStr_all n, by simp, fun h => absurd h (natStr_ne_nil n), natStr_lead n⟩,
    by simp, by simp [Lit.text], by simp [Lit.value, natVal_natStr]⟩

theorem isNum_int (n : ℤ) : IsNum (intStr n) n := by
  unfold intStr
  by_cases h : n < 0
  · rw [if_pos h]
    refine ⟨true, ⟨natStr n.natAbs, none⟩, ⟨natStr_all _, by simp, fun h => absurd h (natStr_ne_nil _),
      natStr_lead _⟩, ?_, by simp [Lit.text], ?_⟩
    · intro _ h'
      have : natVal (natStr n.natAbs) = natVal ['0'] := by
        simp only [Lit.text, List.append_nil] at h'; rw [h']
      rw [natVal_natStr, show natVal ['0'] = 0 from rfl] at this
      omega
    · simp only [Lit.value, Option.getD_none, List.append_nil, natVal_natStr, List.length_nil, pow_zero,
        div_one, if_true]
      have : (n : ℚ) = -((n.natAbs : ℤ) : ℚ) := by
        rw [← Int.cast_neg]; congr 1; omega
      rw [this]; simp
  · rw [if_neg h]
    have := isNum_nat n.natAbs
    have e : (n : ℚ) = (n.natAbs : ℕ) := by
      have : (n : ℚ) = ((n.natAbs : ℤ) : ℚ) := by congr 1; omega
      rw [this]; simp
    rwa [e]

theorem isNum_pos {s : Str} {x : ℚ} {ip f : Str} {n : ℕ} (h1 : ip ≠ []) (h2 : ip.all isDig = true)
    (h3 : f.all isDig = true) (hv : (natVal (ip ++ f) : ℚ) / 10 ^ f.length = x) (hn : s.takeWhile isDig = natStr n)
    (hs : (f = [] ∧ s = ip) ∨ (f ≠ [] ∧ s = ip ++ '.' :: f)) (neg : Bool) (hx : neg = true → x ≠ 0) :
    IsNum ((if neg then ['-'] else []) ++ s) (if neg then -x else x) := by
  have hip : ip = natStr n := by
    rw [← hn]
    rcases hs with ⟨-, rfl⟩ | ⟨-, rfl⟩
    · have := takeWhile_append_of_all (b := []) h2 (by rintro c t ⟨⟩)
      rw [List.append_nil] at this; exact this.symm
    · exact (takeWhile_append_of_all h2 (by rintro c t ⟨⟩; rfl)).symm
  have hz : natVal ['0'] = 0 := rfl
  rcases hs with ⟨rfl, rfl⟩ | ⟨hf, rfl⟩
  · refine ⟨neg, ⟨s, none⟩, ⟨h2, by simp, fun h => absurd h h1, hip ▸ natStr_lead n⟩, ?_, by simp [Lit.text], ?_⟩
    · intro hneg h'
      simp only [Lit.text, List.append_nil] at h'
      subst h'
      exact hx hneg (by rw [← hv]; simp [hz])
    · rw [← hv]; simp [Lit.value]
  · refine ⟨neg, ⟨ip, some f⟩, ⟨h2, by rintro _ ⟨⟩; exact h3, by simp, hip ▸ natStr_lead n⟩, ?_,
      by simp [Lit.text], ?_⟩
    · intro _ h'
      have := congrArg List.length h'
      simp [Lit.text] at this
      exact hf (List.length_eq_zero_iff.1 (by have := List.length_pos_iff.2 h1; omega))
    · rw [← hv]; simp [Lit.value]

theorem FixedDigits.abs {P : ℕ} {v : ℚ} (h : FixedDigits P v) (h0 : v ≠ 0) :
    ∃ z p : ℕ, z < 10 ^ P ∧ |v| = z / 10 ^ p ∧ (10 : ℚ) ^ (-4 : ℤ) ≤ |v| := by
  obtain ⟨z, p, hz, hv, h⟩ := h
  refine ⟨z.natAbs, p, hz, ?_, ?_⟩
  · rw [hv, abs_div, abs_of_pos (by positivity : (0 : ℚ) < 10 ^ p), ← Int.cast_abs, Int.abs_eq_natAbs]
    rfl
  · have := h.resolve_left h0
    rw [zpow_neg]; norm_num at this ⊢; exact this

theorem FixedDigits.digits {P : ℕ} {v : ℚ} (h : FixedDigits P v) : Digits P v := by
  obtain ⟨z, p, hz, hv, -⟩ := h
  exact ⟨z, -(p : ℤ), hz, by rw [hv, zpow_neg, zpow_natCast, div_eq_mul_inv]⟩

theorem isNum_fmtG {P : ℕ} (hP : 1 ≤ P) {v : ℚ} (h : FixedDigits P v) : IsNum (fmtG P v) v := by
  unfold fmtG
  by_cases h0 : v = 0
  · rw [if_pos h0, h0]; exact isNum_nat 0
  rw [if_neg h0]
  obtain ⟨z, p, hz, hv, hlo⟩ := h.abs h0
  obtain ⟨ip, f, h1, h2, h3, -, h4, h5⟩ := fmtGPos_fixed hP hv hz hlo
  obtain ⟨n, hn⟩ := fmtGPos_int P |v|
  by_cases hneg : v < 0
  · have := isNum_pos h1 h2 h3 h4 hn h5 true (by simp [h0])
    rw [abs_of_neg hneg] at this
    simpa [if_pos hneg] using this
  · have := isNum_pos h1 h2 h3 h4 hn h5 false (by simp)
    rw [abs_of_nonneg (not_lt.1 hneg)] at this
    simpa [if_neg hneg] using this

theorem isNum_repr {v : ℚ} (h : FixedDigits 15 v) : IsNum (pyRepr v) v := by
  unfold pyRepr
  by_cases h0 : v = 0
  · rw [if_pos h0, h0]
    exact ⟨false, ⟨['0'], some ['0']⟩, ⟨by decide, by rintro _ ⟨⟩; rfl, by simp, .inl rfl⟩, by simp, rfl,
      by simp [Lit.value, show natVal ['0', '0'] = 0 from rfl]⟩
  rw [if_neg h0]
  obtain ⟨z, p, hz, hv, hlo⟩ := h.abs h0
  obtain ⟨ip, f, h1, h2, hf, h3, h4, h5⟩ := reprPos_fixed hv hz hlo
  obtain ⟨n, hn⟩ := reprPos_int |v|
  by_cases hneg : v < 0
  · have := isNum_pos h1 h2 h3 h4 hn (.inr ⟨hf, h5⟩) true (by simp [h0])
    rw [abs_of_neg hneg] at this
    simpa [if_pos hneg] using this
  · have := isNum_pos h1 h2 h3 h4 hn (.inr ⟨hf, h5⟩) false (by simp)
    rw [abs_of_nonneg (not_lt.1 hneg)] at this
    simpa [if_neg hneg] using this

end Verif.Am
