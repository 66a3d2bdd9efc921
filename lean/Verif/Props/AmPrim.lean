import Verif.Lemmas.AmPrim
import Verif.Props.Macro

/-! # C48: text round trips of macro primitives; C47: macros are written as they were defined -/

namespace Verif.Am

open Verif.Py Verif.Gerber

/-! ## C48 -/

theorem stripBy_blankStar_pad {c : Str} (h : CommentOK c) :
    stripBy isBlankStar (' ' :: c ++ [' ', '*']) = c := by
  cases c with
  | nil => decide
  | cons x c =>
    have hx : isBlankStar x = false := by
      have := h.1 x (by simp); simp [isBlankStar, this]
    unfold stripBy lstripBy
    rw [List.cons_append, List.dropWhile_cons_of_pos (by decide), List.cons_append,
      List.dropWhile_cons_of_neg (by simp [hx]), ← List.cons_append, rstripBy_append,
      show rstripBy isBlankStar [' ', '*'] = [] by decide, if_pos rfl]
    obtain ⟨c', y, hy⟩ : ∃ c' y, x :: c = c' ++ [y] :=
      ⟨_, _, (List.dropLast_append_getLast (List.cons_ne_nil x c)).symm⟩
    have hyb : isBlankStar y = false := by
      have := h.2 y (by rw [hy]; simp); simp [isBlankStar, this]
    rw [hy, rstripBy_append, show rstripBy isBlankStar [y] = [y] by simp [rstripBy, hyb],
      if_neg (by simp)]

theorem strip_comment (c : Str) : strip ('0' :: ' ' :: c ++ [' ', '*']) = '0' :: ' ' :: c ++ [' ', '*'] := by
  unfold strip stripBy lstripBy
  rw [List.cons_append, List.dropWhile_cons_of_neg (by decide), ← List.cons_append,
    show '0' :: ' ' :: c ++ [' ', '*'] = ('0' :: ' ' :: c ++ [' ']) ++ ['*'] by simp, rstripBy_append,
    show rstripBy isSpace ['*'] = ['*'] by decide, if_neg (by simp)]

/-- **C48.** Writing a macro primitive whose values have at most the printed number of digits and
reading the text back gives the same primitive: circle, vector line, outline, polygon, moire, thermal,
centre line and lower-left line (and also comments and primitives of unknown code). -/
theorem C48_round_trip (p : AmPrim) (h : Printable p) : fromGerber (toGerber p) = .ok p := by
  by_cases hs : ShapeOK Digits p
  · rw [toGerber_eq hs.isShape hs.points]
    exact fromGerber_fields hs (fields_values (.inr rfl) hs) (.inr rfl)
  · cases p with
    | comment c =>
      have hc : CommentOK c := h
      show commentOf ('0' :: ' ' :: c ++ [' ', '*']) = _
      unfold commentOf
      rw [strip_comment]
      simp only [List.cons_append, bind, Except.bind, show pyInt ['0'] = .ok 0 by decide, require,
        List.drop_succ_cons, List.drop_zero]
      rw [show ' ' :: (c ++ [' ', '*']) = ' ' :: c ++ [' ', '*'] from rfl, stripBy_blankStar_pad hc]
      rfl
    | unsupported t =>
      obtain ⟨c, r, rfl, h1, h2⟩ := h
      simp only [List.mem_cons, List.not_mem_nil, or_false, not_or] at h1
      show fromGerber (c :: r) = _
      unfold fromGerber
      have ht : ∀ d, d ∈ [',', '0', '1', '2'] → (c :: r).take 2 ≠ ['2', d] := by
        intro d hd he
        cases r with
        | nil => simp at he
        | cons e r =>
          simp only [List.take_succ_cons, List.take_zero, List.cons.injEq, and_true] at he
          exact h2 he.1 e (by simp) (he.2 ▸ hd)
      simp only [h1, if_false]
      rw [if_neg (by rintro (h | h); exacts [ht ',' (by simp) h, ht '0' (by simp) h]),
        if_neg (ht '1' (by simp)), if_neg (ht '2' (by simp))]
    | circle => exact absurd h hs
    | vectorLine => exact absurd h hs
    | outline => exact absurd h hs
    | polygon => exact absurd h hs
    | moire => exact absurd h hs
    | thermal => exact absurd h hs
    | centerLine => exact absurd h hs
    | lowerLeft => exact absurd h hs

/-- A triangle and a hexagon meet the conditions. -/
example : Printable (.outline true (0, 0) [(1 / 2, -3 / 4), (123456, 1 / 1000), (0, 0)] 45) ∧
    Printable (.polygon false 6 (1 / 4, -12) (5 / 2) 30) := by
  have d : ∀ {P : ℕ} {v : ℚ} (z k : ℤ), z.natAbs < 10 ^ P → v = z * (10 : ℚ) ^ k → Digits P v :=
    fun z k h1 h2 => ⟨z, k, h1, h2⟩
  refine ⟨⟨rfl, by norm_num, d 0 0 (by norm_num) (by norm_num), d 0 0 (by norm_num) (by norm_num), ?_,
    d 45 0 (by norm_num) (by norm_num)⟩, ⟨by norm_num, d 25 (-2) (by norm_num) (by norm_num),
    d (-12) 0 (by norm_num) (by norm_num), d 25 (-1) (by norm_num) (by norm_num),
    d 30 0 (by norm_num) (by norm_num)⟩⟩
  intro q hq
  simp only [List.mem_cons, List.not_mem_nil, or_false] at hq
  rcases hq with rfl | rfl | rfl
  · exact ⟨d 5 (-1) (by norm_num) (by norm_num), d (-75) (-2) (by norm_num) (by norm_num)⟩
  · exact ⟨d 123456 0 (by norm_num) (by norm_num), d 1 (-3) (by norm_num) (by norm_num)⟩
  · exact ⟨d 0 0 (by norm_num) (by norm_num), d 0 0 (by norm_num) (by norm_num)⟩

example : toGerber (.polygon false 6 (1 / 4, -12) (5 / 2) 30) = "5,0,6,0.25,-12,2.5,30.0*".toList := by
  decide +kernel

/-- More digits than are printed are lost: the condition on the digits is needed. -/
theorem C48_digits_needed :
    fromGerber (toGerber (.polygon true 6 (12345 / 10000, 0) 1 0)) =
      .ok (.polygon true 6 (1234 / 1000, 0) 1 0) := by decide +kernel

/-! ## Rebuilding a written macro -/

section
open Verif.Macro

/-- The text `s` is a modifier with value `v`. -/
def FieldMod (s : Str) (v : ℚ) : Prop := ∃ m : Modifier, m.WF ∧ m.e.NoSub ∧ m.text = s ∧
  ∀ ρ mi, m.valueWith mi ρ = some v

theorem IsNum.fieldMod {s : Str} {v : ℚ} (h : IsNum s v) {nl : Str} (hnl : nl.all isSpace = true) :
    FieldMod (nl ++ s) v := by
  obtain ⟨neg, l, h1, h2, h3, h4⟩ := h
  refine ⟨numMod nl neg l, ⟨h1, h2, hnl⟩, trivial, ?_, ?_⟩
  · rw [h3]
    cases neg <;> simp [numMod, Modifier.text, Sum.text, Term.text, Fac.text]
  · intro ρ mi
    rw [h4]; rfl

theorem IsNum.fieldMod' {s : Str} {v : ℚ} (h : IsNum s v) : FieldMod s v :=
  h.fieldMod (nl := []) rfl

theorem isNum_exp (on : Bool) : IsNum (expText on) (expVal on) := by
  cases on
  · have := isNum_nat 0
    rwa [Nat.cast_zero] at this
  · have := isNum_nat 1
    rwa [Nat.cast_one] at this

theorem forall₂_ptMods {nl : Str} (hnl : nl = [] ∨ nl = ['\n']) {ps : List (ℚ × ℚ)}
    (h : ∀ q ∈ ps, FixedDigits 6 q.1 ∧ FixedDigits 6 q.2) :
    List.Forall₂ FieldMod (ptFields nl ps) (ps.flatMap fun q => [q.1, q.2]) := by
  have g : ∀ {v : ℚ}, FixedDigits 6 v → FieldMod (fmtG 6 v) v := fun h =>
    (isNum_fmtG (by norm_num) h).fieldMod'
  have hf : ∀ q : ℚ × ℚ, FixedDigits 6 q.1 → FieldMod (nl ++ fmtG 6 q.1) q.1 := fun q hq =>
    (isNum_fmtG (by norm_num) hq).fieldMod (by rcases hnl with rfl | rfl <;> rfl)
  cases ps with
  | nil => exact .nil
  | cons p l =>
    have hp := h p (by simp)
    refine .cons (g hp.1) (.cons (g hp.2) ?_)
    have hl : ∀ q ∈ l, FixedDigits 6 q.1 ∧ FixedDigits 6 q.2 := fun q hq => h q (by simp [hq])
    clear h
    induction l with
    | nil => exact .nil
    | cons q l ih =>
      have hq := hl q (by simp)
      exact .cons (hf q hq.1) (.cons (g hq.2) (ih fun q hq => hl q (by simp [hq])))

theorem fields_mods {nl : Str} (hnl : nl = [] ∨ nl = ['\n']) {p : AmPrim} (h : ShapeOK FixedDigits p) :
    List.Forall₂ FieldMod (fields nl p) (values p) := by
  have r : ∀ {v : ℚ}, FixedDigits 15 v → FieldMod (pyRepr v) v := fun h => (isNum_repr h).fieldMod'
  have f4 : ∀ {v : ℚ}, FixedDigits 4 v → FieldMod (fmtG 4 v) v := fun h =>
    (isNum_fmtG (by norm_num) h).fieldMod'
  have f6 : ∀ {v : ℚ}, FixedDigits 6 v → FieldMod (fmtG 6 v) v := fun h =>
    (isNum_fmtG (by norm_num) h).fieldMod'
  have ex := fun on => (isNum_exp on).fieldMod'
  have it := fun n => (isNum_int n).fieldMod'
  cases p with
  | comment => exact h.elim
  | unsupported => exact h.elim
  | circle on d p => exact .cons (ex on) (.cons (r h.1) (.cons (r h.2.1) (.cons (r h.2.2) .nil)))
  | vectorLine c on w s e ro =>
    obtain ⟨-, h1, h2, h3, h4, h5, h6⟩ := h
    exact .cons (ex on) (.cons (r h1) (.cons (r h2) (.cons (r h3) (.cons (r h4)
      (.cons (r h5) (.cons (r h6) .nil))))))
  | outline on s ps ro =>
    obtain ⟨-, -, h1, h2, h3, h4⟩ := h
    refine List.rel_append (List.rel_append ?_ (forall₂_ptMods hnl h3)) (.cons (r h4) .nil)
    exact .cons (ex on) (.cons (isNum_nat _).fieldMod' (.cons (f6 h1) (.cons (f6 h2) .nil)))
  | polygon on n p d ro =>
    obtain ⟨-, h1, h2, h3, h4⟩ := h
    exact .cons (ex on) (.cons (it n) (.cons (f4 h1) (.cons (f4 h2) (.cons (f4 h3)
      (.cons (r h4) .nil)))))
  | moire p d t g n ct cl ro =>
    obtain ⟨h1, h2, h3, h4, h5, -, h6, h7, h8⟩ := h
    exact .cons (f4 h1) (.cons (f4 h2) (.cons (r h3) (.cons (r h4) (.cons (r h5) (.cons (it n)
      (.cons (r h6) (.cons (r h7) (.cons (r h8) .nil))))))))
  | thermal p o i g ro =>
    obtain ⟨h1, h2, h3, h4, h5, h6⟩ := h
    exact .cons (f4 h1) (.cons (f4 h2) (.cons (r h3) (.cons (r h4) (.cons (r h5) (.cons (r h6) .nil)))))
  | centerLine on w h' c ro =>
    obtain ⟨h1, h2, h3, h4, h5⟩ := h
    exact .cons (ex on) (.cons (r h1) (.cons (r h2) (.cons (f4 h3) (.cons (f4 h4)
      (.cons (r h5) .nil)))))
  | lowerLeft on w h' c ro =>
    obtain ⟨h1, h2, h3, h4, h5⟩ := h
    exact .cons (ex on) (.cons (r h1) (.cons (r h2) (.cons (f4 h3) (.cons (f4 h4)
      (.cons (r h5) .nil)))))

theorem digits_int {n : ℤ} (h : n.natAbs < 10 ^ 15) : Digits 15 n := ⟨n, 0, h, by simp⟩

theorem digits_exp (on : Bool) : Digits 15 (expVal on) := by
  cases on
  · exact ⟨0, 0, by norm_num, by simp [expVal]⟩
  · exact ⟨1, 0, by norm_num, by simp [expVal]⟩

theorem Digits.mono {P Q : ℕ} (hPQ : P ≤ Q) {v : ℚ} (h : Digits P v) : Digits Q v := by
  obtain ⟨z, k, hz, hv⟩ := h
  exact ⟨z, k, lt_of_lt_of_le hz (Nat.pow_le_pow_right (by norm_num) hPQ), hv⟩

/-- All values of a shape have at most 15 digits. -/
theorem values_digits {p : AmPrim} (h : ShapeOK FixedDigits p) : ∀ v ∈ values p, Digits 15 v := by
  have r : ∀ {v : ℚ}, FixedDigits 15 v → Digits 15 v := fun h => h.digits
  have f4 : ∀ {v : ℚ}, FixedDigits 4 v → Digits 15 v := fun h => h.digits.mono (by norm_num)
  have f6 : ∀ {v : ℚ}, FixedDigits 6 v → Digits 15 v := fun h => h.digits.mono (by norm_num)
  cases p with
  | comment => exact h.elim
  | unsupported => exact h.elim
  | circle on d p =>
    intro v hv
    simp only [values, List.mem_cons, List.not_mem_nil, or_false] at hv
    rcases hv with rfl | rfl | rfl | rfl
    exacts [digits_exp on, r h.1, r h.2.1, r h.2.2]
  | vectorLine c on w s e ro =>
    obtain ⟨-, h1, h2, h3, h4, h5, h6⟩ := h
    intro v hv
    simp only [values, List.mem_cons, List.not_mem_nil, or_false] at hv
    rcases hv with rfl | rfl | rfl | rfl | rfl | rfl | rfl
    exacts [digits_exp on, r h1, r h2, r h3, r h4, r h5, r h6]
  | outline on s ps ro =>
    obtain ⟨-, hn, h1, h2, h3, h4⟩ := h
    intro v hv
    simp only [values, List.mem_append, List.mem_cons, List.not_mem_nil, or_false, List.mem_flatMap] at hv
    rcases hv with ((rfl | rfl | rfl | rfl) | ⟨q, hq, rfl | rfl⟩) | rfl
    · exact digits_exp on
    · have := digits_int (n := (ps.length : ℤ)) (by simpa using hn)
      simpa using this
    · exact f6 h1
    · exact f6 h2
    · exact f6 (h3 q hq).1
    · exact f6 (h3 q hq).2
    · exact r h4
  | polygon on n p d ro =>
    obtain ⟨hn, h1, h2, h3, h4⟩ := h
    intro v hv
    simp only [values, List.mem_cons, List.not_mem_nil, or_false] at hv
    rcases hv with rfl | rfl | rfl | rfl | rfl | rfl
    exacts [digits_exp on, digits_int (by omega), f4 h1, f4 h2, f4 h3, r h4]
  | moire p d t g n ct cl ro =>
    obtain ⟨h1, h2, h3, h4, h5, hn, h6, h7, h8⟩ := h
    intro v hv
    simp only [values, List.mem_cons, List.not_mem_nil, or_false] at hv
    rcases hv with rfl | rfl | rfl | rfl | rfl | rfl | rfl | rfl | rfl
    exacts [f4 h1, f4 h2, r h3, r h4, r h5, digits_int hn, r h6, r h7, r h8]
  | thermal p o i g ro =>
    obtain ⟨h1, h2, h3, h4, h5, h6⟩ := h
    intro v hv
    simp only [values, List.mem_cons, List.not_mem_nil, or_false] at hv
    rcases hv with rfl | rfl | rfl | rfl | rfl | rfl
    exacts [f4 h1, f4 h2, r h3, r h4, r h5, r h6]
  | centerLine on w h' c ro =>
    obtain ⟨h1, h2, h3, h4, h5⟩ := h
    intro v hv
    simp only [values, List.mem_cons, List.not_mem_nil, or_false] at hv
    rcases hv with rfl | rfl | rfl | rfl | rfl | rfl
    exacts [digits_exp on, r h1, r h2, f4 h3, f4 h4, r h5]
  | lowerLeft on w h' c ro =>
    obtain ⟨h1, h2, h3, h4, h5⟩ := h
    intro v hv
    simp only [values, List.mem_cons, List.not_mem_nil, or_false] at hv
    rcases hv with rfl | rfl | rfl | rfl | rfl | rfl
    exacts [digits_exp on, r h1, r h2, f4 h3, f4 h4, r h5]

/-- The modifiers behind fields. -/
theorem mods_of_fields {strs : List Str} {vals : List ℚ} (h : List.Forall₂ FieldMod strs vals) :
    ∃ mods : List Modifier, (∀ m ∈ mods, m.WF ∧ m.e.NoSub) ∧ mods.map (·.text) = strs ∧
      ∀ mi ρ, modValuesWith mi ρ mods = some vals := by
  induction h with
  | nil => exact ⟨[], by simp, rfl, fun _ _ => rfl⟩
  | cons hab hl ih =>
    obtain ⟨m, h1, h2, h3, h4⟩ := hab
    obtain ⟨mods, i1, i2, i3⟩ := ih
    refine ⟨m :: mods, ?_, by simp [h3, i2], ?_⟩
    · intro x hx
      rcases List.mem_cons.1 hx with rfl | hx
      · exact ⟨h1, h2⟩
      · exact i1 x hx
    · intro mi ρ
      simp [modValuesWith, h4, i3, bind, Option.bind]

/-- What a block contributes: the block `B` evaluates to `o`, which reads as `q`. -/
structure Gives (B : Block) (q : AmPrim) : Prop where
  wf : B.WF
  noSub : B.NoSub
  out : ∃ o : Out, (∀ ρ l, meaning ρ (B :: l) = (meaning ρ l).map (o :: ·)) ∧
    fromGerber (outText o) = .ok q

theorem values_ne_nil {D : ℕ → ℚ → Prop} {p : AmPrim} (h : ShapeOK D p) : values p ≠ [] := by
  cases p <;> first | exact h.elim | simp [values]

/-- A shape's text is a block that gives the shape. -/
theorem shape_gives {nl : Str} (hnl : nl = [] ∨ nl = ['\n']) {p : AmPrim} (h : ShapeOK FixedDigits p) :
    ∃ B, Gives B p ∧ B.text = joinWith ',' (natStr (code p) :: fields nl p) := by
  obtain ⟨mods, h1, h2, h3⟩ := mods_of_fields (fields_mods hnl h)
  refine ⟨.prim (code p) mods, ⟨?_, fun m hm => (h1 m hm).2, ?_⟩, ?_⟩
  · refine ⟨?_, ?_, fun m hm => (h1 m hm).1⟩
    · cases p <;> first | exact h.elim | (simp only [code]; omega) | skip
      rcases h.1 with rfl | rfl <;> simp [code]
    · rintro rfl
      have := h3 (fun a _ => a) (fun _ => 0)
      simp [modValuesWith] at this
      exact values_ne_nil h this
  · refine ⟨(code p, (values p).map .num), ?_, ?_⟩
    · intro ρ l
      show meaningWith _ ρ (.prim (code p) mods :: l) = _
      rw [meaningWith, h3]
      cases hm : meaningWith (fun a b => a - b) ρ l <;> simp [meaning, bind, Option.bind, hm]
    · have hf : List.Forall₂ Fld ((values p).map pyRepr) (values p) := by
        rw [List.forall₂_map_left_iff, List.forall₂_same]
        intro v hv
        exact fld_repr (values_digits h v hv)
      have := fromGerber_fields h hf (t := []) (.inl rfl)
      rw [List.append_nil] at this
      rw [← this]
      congr 1
      unfold outText commas
      cases hv : values p with
      | nil => exact absurd hv (values_ne_nil h)
      | cons v l =>
        simp only [List.map_cons, List.map_map]
        show natStr (code p) ++ ',' :: joinWith ',' _ = natStr (code p) ++ ',' :: joinWith ',' _
        congr 3
  · rw [Block.text, joinWith_cons, ← h2, List.flatMap_map]

/-- A comment's text is a block that gives a comment. -/
theorem comment_gives {c : Str} (h1 : '*' ∉ c) (h2 : '=' ∉ c) :
    ∃ B q, Gives B q ∧ isShape q = false ∧ B.text = '0' :: ' ' :: c ++ [' '] := by
  refine ⟨.comment (c ++ [' ']), .comment (stripBy isBlankStar ((strip
    ('0' :: ',' :: strip (c ++ [' ']))).drop 1)), ⟨⟨by simp [h1], by simp [h2]⟩, trivial,
    (0, [.txt (strip (c ++ [' ']))]), ?_, ?_⟩, rfl, by simp [Block.text]⟩
  · intro ρ l
    show meaningWith _ ρ (.comment _ :: l) = _
    rw [meaningWith]
    cases hm : meaningWith (fun a b => a - b) ρ l <;> simp [meaning, bind, Option.bind, hm]
  · generalize strip (c ++ [' ']) = u
    show commentOf ('0' :: ',' :: u) = _
    unfold commentOf
    have : ∃ t, strip ('0' :: ',' :: u) = '0' :: t := by
      unfold strip stripBy lstripBy
      rw [List.dropWhile_cons_of_neg (by decide),
        show '0' :: ',' :: u = ['0', ','] ++ u from rfl, rstripBy_append]
      split
      · exact ⟨[','], by decide⟩
      · exact ⟨',' :: rstripBy isSpace u, rfl⟩
    obtain ⟨t, ht⟩ := this
    rw [ht]
    simp [bind, Except.bind, show pyInt ['0'] = .ok 0 by decide, require]

/-- Blocks that give primitives are built into these primitives. -/
theorem build_gives {Bs : List Block} {qs : List AmPrim} (h : List.Forall₂ Gives Bs qs) (mods : List ℚ) :
    build (macroText Bs) mods = .ok qs := by
  have key : ∀ ρ, ∃ os, meaning ρ Bs = some os ∧
      os.mapM (fun o => fromGerber (outText o)) = .ok qs := by
    intro ρ
    induction h with
    | nil => exact ⟨[], rfl, rfl⟩
    | cons hab hl ih =>
      obtain ⟨o, h1, h2⟩ := hab.out
      obtain ⟨os, i1, i2⟩ := ih
      refine ⟨o :: os, by rw [h1, i1]; rfl, ?_⟩
      rw [List.mapM_cons, h2, i2]; rfl
  have hwf : ∀ B ∈ Bs, B.WF ∧ B.NoSub := by
    clear key
    induction h with
    | nil => simp
    | cons hab hl ih =>
      intro B hB
      rcases List.mem_cons.1 hB with rfl | hB
      · exact ⟨hab.wf, hab.noSub⟩
      · exact ih B hB
  obtain ⟨os, k1, k2⟩ := key (paramValues mods)
  have := C10_expression_values_partial Bs mods (fun B hB => (hwf B hB).1) (fun B hB => (hwf B hB).2)
  unfold build
  rw [k1] at this
  cases hr : readMacro (macroText Bs) with
  | error e => rw [hr] at this; cases this
  | ok is =>
    rw [hr] at this
    simp only [bind, Except.bind] at this ⊢
    rw [this]
    exact k2

/-- A primitive that the theorems on rebuilding cover: a shape whose numbers are printed exactly and
without exponent, or a comment without star or equals sign. -/
def Rebuildable (p : AmPrim) : Prop :=
  ShapeOK FixedDigits p ∨ ∃ c, p = .comment c ∧ '*' ∉ c ∧ '=' ∉ c

/-- Removal of line breaks. -/
def oneLine (s : Str) : Str := s.filter (· ≠ '\n')

theorem oneLine_num {s : Str} (h : s.all Py.isNumCh = true) : oneLine s = s := by
  unfold oneLine
  rw [List.filter_eq_self]
  intro c hc
  have := List.all_eq_true.1 h c hc
  simp only [ne_eq, decide_not, Bool.not_eq_eq_eq_not, Bool.not_true, decide_eq_false_iff_not]
  rintro rfl
  revert this; decide

theorem natStr_num (n : ℕ) : (natStr n).all Py.isNumCh = true :=
  all_mono (natStr_all n) fun c hc => by simp [Py.isNumCh, hc]

theorem intStr_num (n : ℤ) : (intStr n).all Py.isNumCh = true := by
  unfold intStr
  split
  · rw [List.all_cons, natStr_num]; rfl
  · exact natStr_num _

theorem oneLine_fields (p : AmPrim) : (fields ['\n'] p).map oneLine = fields [] p := by
  have r := fun x => oneLine_num (pyRepr_all x)
  have g := fun P x => oneLine_num (fmtG_all P x)
  have n := fun k => oneLine_num (natStr_num k)
  have z := fun k => oneLine_num (intStr_num k)
  have e : ∀ on, oneLine (expText on) = expText on := by intro on; cases on <;> decide
  have nlg : ∀ P x, oneLine ('\n' :: fmtG P x) = fmtG P x := fun P x => by
    rw [show oneLine ('\n' :: fmtG P x) = oneLine (fmtG P x) by simp [oneLine], g]
  cases p with
  | outline on s ps ro =>
    cases ps with
    | nil => simp [fields, ptFields, r, g, n, e]
    | cons q l => simp [fields, ptFields, r, g, n, e, nlg, List.map_flatMap]
  | _ => simp [fields, r, g, z, e]

theorem oneLine_append (a b : Str) : oneLine (a ++ b) = oneLine a ++ oneLine b := List.filter_append ..

theorem oneLine_joinWith (a : Str) (l : List Str) :
    oneLine (joinWith ',' (a :: l)) = joinWith ',' (oneLine a :: l.map oneLine) := by
  rw [joinWith_cons, joinWith_cons, oneLine_append]
  congr 1
  induction l with
  | nil => rfl
  | cons b l ih =>
    rw [List.map_cons, List.flatMap_cons, List.flatMap_cons, oneLine_append, ih]
    rfl

theorem oneLine_toGerber {p : AmPrim} (h : ShapeOK FixedDigits p) :
    oneLine (toGerber p) = joinWith ',' (natStr (code p) :: fields [] p) ++ ['*'] := by
  rw [toGerber_eq h.isShape h.points, oneLine_append, oneLine_joinWith, oneLine_fields,
    oneLine_num (natStr_num _)]
  rfl

/-- The text of each primitive is a block that gives the primitive (or a comment) again, with or
without the line breaks. -/
theorem prim_gives (f : Str → Str) (hf : f = id ∨ f = oneLine) {p : AmPrim} (h : Rebuildable p) :
    ∃ B q, Gives B q ∧ (isShape p = true → q = p) ∧ (isShape p = false → isShape q = false) ∧
      f (toGerber p) = B.text ++ ['*'] := by
  rcases h with h | ⟨c, rfl, h1, h2⟩
  · rcases hf with rfl | rfl
    · obtain ⟨B, hB, ht⟩ := shape_gives (.inr rfl) h
      exact ⟨B, p, hB, fun _ => rfl, fun hn => hn, by
        rw [ht]; exact toGerber_eq h.isShape h.points⟩
    · obtain ⟨B, hB, ht⟩ := shape_gives (.inl rfl) h
      exact ⟨B, p, hB, fun _ => rfl, fun hn => hn, by rw [ht]; exact oneLine_toGerber h⟩
  · rcases hf with rfl | rfl
    · obtain ⟨B, q, hB, hq, ht⟩ := comment_gives h1 h2
      exact ⟨B, q, hB, fun h => (by cases h), fun _ => hq, by rw [ht]; simp [toGerber]⟩
    · obtain ⟨B, q, hB, hq, ht⟩ := comment_gives (c := oneLine c)
        (fun h => h1 (List.mem_filter.1 h).1) (fun h => h2 (List.mem_filter.1 h).1)
      exact ⟨B, q, hB, fun h => (by cases h), fun _ => hq, by rw [ht]; simp [toGerber, oneLine]⟩

theorem macroText_cons (B : Block) (l : List Block) (h : l ≠ []) :
    macroText (B :: l) = B.text ++ '*' :: macroText l := by
  cases l with
  | nil => exact absurd rfl h
  | cons => rfl

theorem prims_give (f : Str → Str) (hf : f = id ∨ f = oneLine) (ps : List AmPrim)
    (h : ∀ p ∈ ps, Rebuildable p) (hne : ps ≠ []) :
    ∃ Bs qs, List.Forall₂ Gives Bs qs ∧ qs.filter isShape = ps.filter isShape ∧ Bs ≠ [] ∧
      f (bodyText ps) = macroText Bs ++ ['*'] := by
  have happ : ∀ a b, f (a ++ b) = f a ++ f b := by
    rcases hf with rfl | rfl
    · intro a b; rfl
    · exact oneLine_append
  induction ps with
  | nil => exact absurd rfl hne
  | cons p ps ih =>
    obtain ⟨B, q, hB, h1, h2, ht⟩ := prim_gives f hf (h p (by simp))
    have hfil : ∀ l l' : List AmPrim, l'.filter isShape = l.filter isShape →
        (q :: l').filter isShape = (p :: l).filter isShape := by
      intro l l' hl
      cases hp : isShape p with
      | true => rw [h1 hp]; simp [hp, hl]
      | false => simp [hp, h2 hp, hl]
    have hcons : bodyText (p :: ps) = toGerber p ++ bodyText ps := rfl
    by_cases hps : ps = []
    · subst hps
      refine ⟨[B], [q], .cons hB .nil, hfil [] [] rfl, by simp, ?_⟩
      rw [show bodyText [p] = toGerber p by simp [bodyText], ht]
      rfl
    · obtain ⟨Bs, qs, i1, i2, i3, i4⟩ := ih (fun p hp => h p (by simp [hp])) hps
      refine ⟨B :: Bs, q :: qs, .cons hB i1, hfil _ _ i2, by simp, ?_⟩
      rw [hcons, happ, ht, i4, macroText_cons B Bs i3]
      simp

/-- Building again from the written text (with line breaks, or without them as the reader joins the
lines) gives the same shapes, for any modifiers. -/
theorem rebuild (f : Str → Str) (hf : f = id ∨ f = oneLine) (ps : List AmPrim)
    (h : ∀ p ∈ ps, Rebuildable p) {b : Str} (hb : f (bodyText ps) = b ++ ['*']) (mods : List ℚ) :
    ∃ qs, build b mods = .ok qs ∧ qs.filter isShape = ps.filter isShape := by
  have hne : ps ≠ [] := by
    rintro rfl
    rcases hf with rfl | rfl <;> simp [bodyText, oneLine] at hb
  obtain ⟨Bs, qs, h1, h2, -, h4⟩ := prims_give f hf ps h hne
  rw [h4] at hb
  rw [← List.append_cancel_right hb]
  exact ⟨qs, build_gives h1 mods, h2⟩

/-! ## C47 -/

theorem amRun_uses {k : ℕ} {st s : AmState} {l : List Stmt} (h : amRun k st l = .ok s) :
    ∃ U, s.uses = st.uses ++ U := by
  induction l generalizing k st with
  | nil => cases h; exact ⟨[], by simp⟩
  | cons a l ih =>
    obtain ⟨st', h1, h2⟩ := Excellon.bindOk h
    obtain ⟨U, hU⟩ := ih h2
    have : ∃ V, st'.uses = st.uses ++ V := by
      cases a with
      | am n b bs =>
        obtain ⟨_, -, h1⟩ := Excellon.bindOk h1
        cases h1; exact ⟨[], by simp⟩
      | ad d shape mods =>
        simp only [amStep] at h1
        split at h1
        · cases h1; exact ⟨[], by simp⟩
        · split at h1
          · cases h1
          · obtain ⟨_, -, h1⟩ := Excellon.bindOk h1
            obtain ⟨_, -, h1⟩ := Excellon.bindOk h1
            cases h1; exact ⟨_, rfl⟩
      | _ => cases h1; exact ⟨[], by simp⟩
    obtain ⟨V, hV⟩ := this
    exact ⟨V ++ U, by rw [hU, hV, List.append_assoc]⟩

/-- Primitives of an AM statement come from some use of it. -/
theorem amRun_prims {k : ℕ} {st s : AmState} {l : List Stmt} (h : amRun k st l = .ok s)
    (hst : ∀ i, st.prims i ≠ [] → ∃ d, (i, d, st.prims i) ∈ st.uses) :
    ∀ i, s.prims i ≠ [] → ∃ d, (i, d, s.prims i) ∈ s.uses := by
  induction l generalizing k st with
  | nil => cases h; exact hst
  | cons a l ih =>
    obtain ⟨st', h1, h2⟩ := Excellon.bindOk h
    refine ih h2 ?_
    cases a with
    | am n b bs =>
      obtain ⟨_, -, h1⟩ := Excellon.bindOk h1
      cases h1
      intro i hi
      by_cases hik : i = k
      · subst hik; simp at hi
      · simp only [Function.update_of_ne hik] at hi ⊢; exact hst i hi
    | ad d shape mods =>
      simp only [amStep] at h1
      split at h1
      · cases h1; exact hst
      · split at h1
        · cases h1
        · rename_i i b _
          obtain ⟨_, -, h1⟩ := Excellon.bindOk h1
          obtain ⟨ps, -, h1⟩ := Excellon.bindOk h1
          cases h1
          intro j hj
          by_cases hji : j = i
          · subst hji; exact ⟨d, by simp⟩
          · simp only [Function.update_of_ne hji] at hj ⊢
            obtain ⟨e, he⟩ := hst j hj
            exact ⟨e, by simp [he]⟩
    | _ => cases h1; exact hst

theorem bodyText_star {ps : List AmPrim} (h : ∀ p ∈ ps, Rebuildable p) (hne : ps ≠ []) :
    oneLine (bodyText ps) = reread ps ++ ['*'] := by
  obtain ⟨Bs, qs, -, -, -, h4⟩ := prims_give oneLine (.inr rfl) ps h hne
  have : reread ps = macroText Bs := by
    show (oneLine (bodyText ps)).dropLast = _
    rw [h4]; simp
  rw [h4, this]

theorem readMacro_of_build {b : Str} {mods : List ℚ} {qs : List AmPrim} (h : build b mods = .ok qs) :
    ∃ is, readMacro b = .ok is := by
  obtain ⟨is, h1, -⟩ := Excellon.bindOk h
  exact ⟨is, h1⟩

/-- What is seen of a use: which aperture, and the shapes it consists of. -/
def seen (u : ℕ × ℕ × List AmPrim) : ℕ × ℕ × List AmPrim := (u.1, u.2.1, u.2.2.filter isShape)

/-- A use with other primitives. -/
def useOf (c : AmPrim → AmPrim) (u : ℕ × ℕ × List AmPrim) : ℕ × ℕ × List AmPrim := (u.1, u.2.1, u.2.2.map c)

/-- A change of statements that keeps macros and aperture definitions, but for the modifiers. -/
structure KeepsMacros (g : Stmt → Stmt) : Prop where
  am : ∀ n b is, g (.am n b is) = .am n b is
  ad : ∀ d s m, ∃ m', g (.ad d s m) = .ad d s m' ∧ (m ≠ [] → m' ≠ [])
  other : ∀ a, (∀ n b is, a ≠ .am n b is) → (∀ d s m, a ≠ .ad d s m) →
    (∀ n b is, g a ≠ .am n b is) ∧ ∀ d s m, g a ≠ .ad d s m

theorem amStep_other {a : Stmt} (h1 : ∀ n b is, a ≠ .am n b is) (h2 : ∀ d s m, a ≠ .ad d s m) (k : ℕ)
    (st : AmState) : amStep k st a = .ok st := by
  cases a with
  | am n b is => exact absurd rfl (h1 n b is)
  | ad d s m => exact absurd rfl (h2 d s m)
  | _ => rfl

theorem rewritten_other {a : Stmt} (h1 : ∀ n b is, a ≠ .am n b is) (fin : ℕ → List AmPrim) (k : ℕ)
    (l : List Stmt) : rewritten fin k (a :: l) = a :: rewritten fin (k + 1) l := by
  cases a with
  | am n b is => exact absurd rfl (h1 n b is)
  | _ => rfl

/-- Statements whose AM statements have the text of other primitives, `fin`. -/
theorem run_converted {fin : ℕ → List AmPrim} (hfin : ∀ i, ∀ p ∈ fin i, Rebuildable p) (c : AmPrim → AmPrim)
    {g : Stmt → Stmt} (hg : KeepsMacros g) {l : List Stmt} :
    ∀ {k : ℕ} {st st' s : AmState}, amRun k st l = .ok s →
      (∀ u ∈ s.uses, u.2.2.map c = fin u.1 ∧ u.2.2 ≠ []) →
      (∀ n i b, st.macros n = some (i, b) → fin i ≠ [] → st'.macros n = some (i, reread (fin i))) →
      st'.uses.map seen = st.uses.map (seen ∘ useOf c) →
      ∃ s', amRun k st' (rewritten fin k (l.map g)) = .ok s' ∧
        s'.uses.map seen = s.uses.map (seen ∘ useOf c) := by
  induction l with
  | nil =>
    intro k st st' s h _ _ hu
    cases h
    exact ⟨st', rfl, hu⟩
  | cons a l ih =>
    intro k st st' s h huse hm hu
    obtain ⟨st1, h1, h2⟩ := Excellon.bindOk h
    have skip : amStep k st a = .ok st → amStep k st' (g a) = .ok st' →
        rewritten fin k (g a :: l.map g) = g a :: rewritten fin (k + 1) (l.map g) →
        ∃ s', amRun k st' (rewritten fin k (g a :: l.map g)) = .ok s' ∧
          s'.uses.map seen = s.uses.map (seen ∘ useOf c) := by
      intro e1 e2 e3
      rw [h1] at e1
      cases e1
      obtain ⟨s', g1, g2⟩ := ih h2 huse hm hu
      refine ⟨s', ?_, g2⟩
      rw [e3]
      show (do let st ← amStep k st' (g a); amRun (k + 1) st _) = _
      rw [e2]; exact g1
    rw [List.map_cons]
    by_cases ham : ∃ n b is, a = .am n b is
    · obtain ⟨n, b, bs, rfl⟩ := ham
      rw [hg.am]
      obtain ⟨_, -, h1⟩ := Excellon.bindOk h1
      cases h1
      by_cases hk : fin k = []
      · obtain ⟨s', g1, g2⟩ := ih (st' := st') h2 huse (by
          intro m i b' hmi hi
          by_cases hmn : m = n
          · subst hmn
            simp only [Function.update_self, Option.some.injEq, Prod.mk.injEq] at hmi
            rw [← hmi.1] at hi; exact absurd hk hi
          · simp only [Function.update_of_ne hmn] at hmi
            exact hm m i b' hmi hi) hu
        refine ⟨s', ?_, g2⟩
        rw [rewritten, if_pos hk]
        exact g1
      · obtain ⟨qs, hq, -⟩ := rebuild oneLine (.inr rfl) (fin k) (hfin k)
          (bodyText_star (hfin k) hk) []
        obtain ⟨is, his⟩ := readMacro_of_build hq
        obtain ⟨s', g1, g2⟩ := ih (st' := { st' with
            macros := Function.update st'.macros n (some (k, reread (fin k)))
            prims := Function.update st'.prims k [] }) h2 huse (by
          intro m i b' hmi hi
          by_cases hmn : m = n
          · subst hmn
            simp only [Function.update_self, Option.some.injEq, Prod.mk.injEq] at hmi
            simp [← hmi.1]
          · simp only [Function.update_of_ne hmn] at hmi ⊢
            exact hm m i b' hmi hi) hu
        refine ⟨s', ?_, g2⟩
        rw [rewritten, if_neg hk]
        show (do let st ← amStep k st' (.am n (reread (fin k)) []); amRun (k + 1) st _) = _
        simp only [amStep, his, bind, Except.bind]
        exact g1
    by_cases had : ∃ d shape mods, a = .ad d shape mods
    · obtain ⟨d, shape, mods, rfl⟩ := had
      obtain ⟨mods', hg', hne'⟩ := hg.ad d shape mods
      rw [hg'] at skip ⊢
      by_cases hs : shape = ['C'] ∨ shape = ['R'] ∨ shape = ['O'] ∨ shape = ['P']
      · exact skip (by simp only [amStep, if_pos hs]) (by simp only [amStep, if_pos hs]) rfl
      · simp only [amStep, if_neg hs] at h1
        split at h1
        · cases h1
        · rename_i i b hib
          obtain ⟨m, hm1, h1⟩ := Excellon.bindOk h1
          obtain ⟨ps, -, h1⟩ := Excellon.bindOk h1
          cases h1
          obtain ⟨U, hU⟩ := amRun_uses h2
          have hps := huse (i, d, ps) (by rw [hU]; simp)
          simp only at hps
          have hi : fin i ≠ [] := by rw [← hps.1]; simpa using hps.2
          obtain ⟨m', hm'⟩ : ∃ m', firstMods mods' = .ok m' := by
            have : mods' ≠ [] := hne' (by rintro rfl; cases hm1)
            cases mods' with
            | nil => exact absurd rfl this
            | cons m' _ => exact ⟨m', rfl⟩
          obtain ⟨qs, hq1, hq2⟩ := rebuild oneLine (.inr rfl) (fin i) (hfin i)
            (bodyText_star (hfin i) hi) m'
          obtain ⟨s', g1, g2⟩ := ih (st' := { st' with
              prims := Function.update st'.prims i qs, uses := st'.uses ++ [(i, d, qs)] }) h2 huse hm (by
            simp only [List.map_append, hu, List.map_cons, List.map_nil, seen, hq2, useOf,
              Function.comp_apply, hps.1])
          refine ⟨s', ?_, g2⟩
          show (do let st ← amStep k st' (.ad d shape mods'); amRun (k + 1) st _) = _
          simp only [amStep, if_neg hs, hm shape i b hib hi, hm', hq1, bind, Except.bind]
          exact g1
    · push Not at ham had
      obtain ⟨o1, o2⟩ := hg.other a ham had
      exact skip (amStep_other ham had ..) (amStep_other o1 o2 ..) (rewritten_other o1 ..)

theorem run_rewritten {fin : ℕ → List AmPrim} (hfin : ∀ i, ∀ p ∈ fin i, Rebuildable p) {l : List Stmt}
    {k : ℕ} {st st' s : AmState} (h : amRun k st l = .ok s)
    (huse : ∀ u ∈ s.uses, u.2.2 = fin u.1 ∧ u.2.2 ≠ [])
    (hm : ∀ n i b, st.macros n = some (i, b) → fin i ≠ [] → st'.macros n = some (i, reread (fin i)))
    (hu : st'.uses.map seen = st.uses.map seen) :
    ∃ s', amRun k st' (rewritten fin k l) = .ok s' ∧ s'.uses.map seen = s.uses.map seen := by
  have e : seen ∘ useOf id = seen := by funext u; simp [seen, useOf]
  have := run_converted hfin id (g := id) ⟨fun _ _ _ => rfl, fun _ _ m => ⟨m, rfl, id⟩, fun _ h1 h2 => ⟨h1, h2⟩⟩ h
    (by simpa using huse) hm (by rw [e]; exact hu)
  rwa [e, List.map_id] at this

/-- **C47** (part).  A file is read, giving `s`, and the statements written afterwards are read again:
every aperture made from a macro consists of the same shapes as before - provided that all uses of one
AM statement make the same primitives (as when the macro has no variables, or is used once), that each
use makes at least one primitive, and that these are shapes whose numbers are printed exactly and
without exponent, or comments without star or equals sign.  Missing: a macro used with different
modifiers (`C47_two_uses_violated`), primitives of unknown code (`C47_unknown_code_violated`), values
that are printed rounded or with an exponent (`C47_rounded_violated`, `C47_exponent_violated`), macros
without primitives (`C47_empty_violated`). -/
theorem C47_rebuilt_partial (l : List Stmt) {s : AmState} (h : amRun 0 {} l = .ok s)
    (hsame : ∀ u ∈ s.uses, u.2.2 = s.prims u.1) (hne : ∀ u ∈ s.uses, u.2.2 ≠ [])
    (hok : ∀ u ∈ s.uses, ∀ p ∈ u.2.2, Rebuildable p) :
    ∃ s', amRun 0 {} (rewritten s.prims 0 l) = .ok s' ∧ s'.uses.map seen = s.uses.map seen := by
  refine run_rewritten ?_ h (fun u hu => ⟨hsame u hu, hne u hu⟩) (fun n i b h => by cases h) rfl
  intro i p hp
  obtain ⟨d, hd⟩ := amRun_prims h (fun i hi => absurd rfl hi) i (List.ne_nil_of_mem hp)
  exact hok _ hd p hp

/-- Building from the written text of primitives gives their shapes again whatever the modifiers (also
with the line breaks that outlines are written with). -/
theorem C47_written_text_partial (ps : List AmPrim) (h : ∀ p ∈ ps, Rebuildable p) {b : Str}
    (hb : bodyText ps = b ++ ['*']) (mods : List ℚ) :
    ∃ qs, build b mods = .ok qs ∧ qs.filter isShape = ps.filter isShape :=
  rebuild id (.inl rfl) ps h hb mods

/-- The macro apertures of a file, and those of the file written and read again. -/
def before (l : List Stmt) : Option (List (ℕ × ℕ × List AmPrim)) :=
  (amRun 0 {} l).toOption.map fun s => s.uses.map seen
def after (l : List Stmt) : Option (List (ℕ × ℕ × List AmPrim)) := do
  let s ← (amRun 0 {} l).toOption
  let s' ← (amRun 0 {} (rewritten s.prims 0 l)).toOption
  some (s'.uses.map seen)

/-- A file with a macro of a comment and two shapes, one with a computed value, used by two apertures
in the same way; and another aperture. -/
def sampleFile : List Stmt :=
  [.am "DONUT".toList "0 ring*1,1,$1x2,0,0*4,1,3,-0.5,0,1,0,0,1,-0.5,0,30".toList [],
   .ad 10 "DONUT".toList [[3 / 4]], .ad 11 ['C'] [[1]], .ad 12 "DONUT".toList [[3 / 4]],
   .aperture 10 false]

/-- The primitives of the sample. -/
def samplePrims : List AmPrim := [.comment ",ring".toList, .circle true (3 / 2) (0, 0),
  .outline true (-1 / 2, 0) [(1, 0), (0, 1), (-1 / 2, 0)] 30]

example : (amRun 0 {} sampleFile).toOption.map (fun s => (s.uses, s.prims 0)) =
    some ([(0, 10, samplePrims), (0, 12, samplePrims)], samplePrims) := by decide +kernel

example : ∀ p ∈ samplePrims, Rebuildable p := by
  have d : ∀ {P : ℕ} {v : ℚ} (z : ℤ) (p : ℕ), z.natAbs < 10 ^ P → v = z / 10 ^ p →
      (v = 0 ∨ 1 / 10 ^ 4 ≤ |v|) → FixedDigits P v := fun z p h1 h2 h3 => ⟨z, p, h1, h2, h3⟩
  have d0 : ∀ {P : ℕ}, FixedDigits P 0 := d 0 0 (by norm_num) (by norm_num) (.inl rfl)
  have d1 : ∀ {P : ℕ} (_ : 1 < 10 ^ P), FixedDigits P 1 := fun h =>
    d 1 0 (by simpa using h) (by norm_num) (.inr (by norm_num))
  have dh : ∀ {P : ℕ} (_ : 5 < 10 ^ P), FixedDigits P (-1 / 2) := fun h =>
    d (-5) 1 (by simpa using h) (by norm_num) (.inr (by rw [abs_of_neg] <;> norm_num))
  intro p hp
  simp only [samplePrims, List.mem_cons, List.not_mem_nil, or_false] at hp
  rcases hp with rfl | rfl | rfl
  · exact .inr ⟨_, rfl, by decide, by decide⟩
  · exact .inl ⟨d 15 1 (by norm_num) (by norm_num) (.inr (by rw [abs_of_pos] <;> norm_num)), d0, d0⟩
  · refine .inl ⟨rfl, by norm_num, dh (by norm_num), d0, ?_,
      d 30 0 (by norm_num) (by norm_num) (.inr (by rw [abs_of_pos] <;> norm_num))⟩
    intro q hq
    simp only [List.mem_cons, List.not_mem_nil, or_false] at hq
    rcases hq with rfl | rfl | rfl
    exacts [⟨d1 (by norm_num), d0⟩, ⟨d0, d1 (by norm_num)⟩, ⟨dh (by norm_num), d0⟩]

example : before sampleFile = after sampleFile := by decide +kernel

/-- A macro used by two apertures with different modifiers is written with the values of the last
use: the first aperture gets the size of the second. -/
theorem C47_two_uses_violated :
    let l : List Stmt := [.am "DOT".toList "1,1,$1,0,0".toList [], .ad 10 "DOT".toList [[1]],
      .ad 11 "DOT".toList [[2]]]
    before l = some [(0, 10, [.circle true 1 (0, 0)]), (0, 11, [.circle true 2 (0, 0)])] ∧
    after l = some [(0, 10, [.circle true 2 (0, 0)]), (0, 11, [.circle true 2 (0, 0)])] := by
  decide +kernel

/-- A primitive of unknown code is written without its star, so that it swallows the next one. -/
theorem C47_unknown_code_violated :
    let l : List Stmt := [.am "ODD".toList "3,1*1,1,2,0,0".toList [], .ad 10 "ODD".toList [[]]]
    before l = some [(0, 10, [.circle true 2 (0, 0)])] ∧ after l ≠ before l := by
  decide +kernel

/-- Positions of polygons are written with four digits. -/
theorem C47_rounded_violated :
    let l : List Stmt := [.am "POLY".toList "5,1,6,1.23456,0,2,0".toList [], .ad 10 "POLY".toList [[]]]
    before l = some [(0, 10, [.polygon true 6 (123456 / 100000, 0) 2 0])] ∧
    after l = some [(0, 10, [.polygon true 6 (1235 / 1000, 0) 2 0])] := by
  decide +kernel

/-- Small numbers are written with an exponent, which macros cannot contain. -/
theorem C47_exponent_violated :
    let l : List Stmt := [.am "TINY".toList "1,1,2,0.00001,0".toList [], .ad 10 "TINY".toList [[]]]
    before l = some [(0, 10, [.circle true 2 (1 / 100000, 0)])] ∧ after l ≠ before l := by
  decide +kernel

/-- A used macro without primitives is written as `%AMname*%`, which is not read as a macro: the
aperture definition then fails. -/
theorem C47_empty_violated :
    let l : List Stmt := [.am "NONE".toList "$1=5".toList [], .ad 10 "NONE".toList [[]]]
    before l = some [(0, 10, [])] ∧ after l = none := by
  decide +kernel

end

end Verif.Am
