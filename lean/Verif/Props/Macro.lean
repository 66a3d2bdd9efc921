import Verif.Lemmas.Macro

/-! # C10, C11: aperture macros -/

namespace Verif.Macro
open Verif.Py

/-! ## The stack machine computes the value of postfix code -/

/-- The dictionary holds the numbers `ρ`, missing entries counting as 0. -/
def Env.Holds (env : Env) (ρ : ℕ → ℚ) : Prop := ∀ n, (env n).getD (.num 0) = .num (ρ n)

/-- Go on with the value, or fail. -/
def cont (x : Option ℚ) (k : ℚ → PyR (List Out × Env)) : PyR (List Out × Env) := match x with
  | some v => k v
  | none => .error .zeroDivisionError

mutual
theorem eval_sum (mi : ℚ → ℚ → ℚ) (e : Sum) {env : Env} {ρ : ℕ → ℚ} (he : env.Holds ρ) (m : Bool)
    (l : List Instr) (st : List Val) : evalLoopWith mi (e.code m ++ l) env st =
      cont (e.valueWith mi ρ m) fun v => evalLoopWith mi l env (.num v :: st) := by
  match e with
  | .term t => exact eval_term mi t he m l st
  | .add e t =>
    have h : Sum.code m (.add e t) ++ l = e.code m ++ (t.code false ++ .add :: l) := by
      simp [Sum.code, Sum.pre, Sum.pend, Term.code, tokenToOpcode]
    rw [h, eval_sum mi e he m, Sum.valueWith]
    cases e.valueWith mi ρ m with
    | none => rfl
    | some a =>
      show evalLoopWith mi (t.code false ++ _) env _ = _
      rw [eval_term mi t he false]
      cases t.valueWith mi ρ false with
      | none => rfl
      | some b => rfl
  | .sub e t =>
    have h : Sum.code m (.sub e t) ++ l = e.code m ++ (t.code false ++ .sub :: l) := by
      simp [Sum.code, Sum.pre, Sum.pend, Term.code, tokenToOpcode]
    rw [h, eval_sum mi e he m, Sum.valueWith]
    cases e.valueWith mi ρ m with
    | none => rfl
    | some a =>
      show evalLoopWith mi (t.code false ++ _) env _ = _
      rw [eval_term mi t he false]
      cases t.valueWith mi ρ false with
      | none => rfl
      | some b => rfl

theorem eval_term (mi : ℚ → ℚ → ℚ) (t : Term) {env : Env} {ρ : ℕ → ℚ} (he : env.Holds ρ) (m : Bool)
    (l : List Instr) (st : List Val) : evalLoopWith mi (t.code m ++ l) env st =
      cont (t.valueWith mi ρ m) fun v => evalLoopWith mi l env (.num v :: st) := by
  match t with
  | .fac f =>
    have h : Term.code m (.fac f) = f.code m := by simp [Term.code, Term.pre, Term.pend]
    rw [h]; exact eval_fac mi f he m l st
  | .mul t u f =>
    have h : Term.code m (.mul t u f) ++ l = t.code m ++ (f.code false ++ .mul :: l) := by
      simp [Term.pre, Term.pend, Term.code, (mulChar_op u).2.2.1]
    rw [h, eval_term mi t he m, Term.valueWith]
    cases t.valueWith mi ρ m with
    | none => rfl
    | some a =>
      show evalLoopWith mi (f.code false ++ _) env _ = _
      rw [eval_fac mi f he false]
      cases f.valueWith mi ρ false with
      | none => rfl
      | some b => rfl
  | .div t f =>
    have h : Term.code m (.div t f) ++ l = t.code m ++ (f.code false ++ .div :: l) := by
      simp [Term.pre, Term.pend, Term.code, tokenToOpcode]
    rw [h, eval_term mi t he m, Term.valueWith]
    cases t.valueWith mi ρ m with
    | none => rfl
    | some a =>
      show evalLoopWith mi (f.code false ++ _) env _ = _
      rw [eval_fac mi f he false]
      cases f.valueWith mi ρ false with
      | none => rfl
      | some b =>
        show evalLoopWith mi (.div :: l) env (.num b :: .num a :: st) =
          cont (if b = 0 then none else some (a / b)) _
        simp only [evalLoopWith, binop, arith, bind, Except.bind]
        by_cases hb : b = 0
        · simp [hb, cont]
        · simp [hb, cont]

theorem eval_fac (mi : ℚ → ℚ → ℚ) (f : Fac) {env : Env} {ρ : ℕ → ℚ} (he : env.Holds ρ) (m : Bool)
    (l : List Instr) (st : List Val) : evalLoopWith mi (f.code m ++ l) env st =
      cont (f.valueWith mi ρ m) fun v => evalLoopWith mi l env (.num v :: st) := by
  match f with
  | .num l' => rfl
  | .var n =>
    show evalLoopWith mi l env ((env n).getD (.num 0) :: st) = _
    rw [he n]; rfl
  | .par e => exact eval_sum mi e he m l st
end

/-! ## Blocks -/

/-- Code of a modifier list. -/
def modsCode (mods : List Modifier) : List Instr := mods.flatMap fun m => m.e.code m.neg

/-- Code of a block. -/
def Block.code : Block → List Instr
  | .prim c mods => modsCode mods ++ [.prim c]
  | .eqn n e => e.code false ++ [.store n]
  | .comment t => [.push (.txt (strip t)), .prim 0]
  | .blank _ => []

/-- Written form of a modifier list. -/
def modsText (mods : List Modifier) : Str := mods.flatMap fun m => ',' :: m.text

theorem stop_modsText (mods : List Modifier) : Stop (modsText mods) := by
  intro c hc
  cases mods with
  | nil => cases hc
  | cons m l =>
    simp only [modsText, List.flatMap_cons, List.cons_append, List.head?_cons, Option.some.injEq] at hc
    subst hc; decide

/-- White space is skipped. -/
theorem runR_spaces {w : Str} (hw : w.all isSpace = true) (st : RState) (s : Str) :
    runR st (w ++ s) = runR st s := by
  induction w with
  | nil => rfl
  | cons c w ih =>
    simp only [List.all_cons, Bool.and_eq_true] at hw
    have r : readChar st c (w ++ s) = .ok (st, w ++ s) := by
      have hc := hw.1
      simp only [isSpace, Bool.or_eq_true, beq_iff_eq] at hc
      rcases hc with ((((rfl | rfl) | rfl) | rfl) | rfl) | rfl <;> rfl
    rw [List.cons_append, runR_cons r, ih hw.2]

theorem run_mods (mods : List Modifier) (hwf : ∀ m ∈ mods, m.WF)
    (hsub : ∀ m ∈ mods, m.neg = true ∨ m.e.NoSub) (st : RState) (h1 : st.isEquation = false)
    (h2 : st.minus = false) (h3 : mods = [] → st.foundCode = true) :
    ∃ st', runR st (modsText mods) = .ok st' ∧ st'.isEquation = false ∧ st'.foundCode = true ∧
      st'.primCode = st.primCode ∧ st'.code ++ st'.ops.map tokenToOpcode =
        st.code ++ st.ops.map tokenToOpcode ++ modsCode mods := by
  induction mods generalizing st with
  | nil => exact ⟨st, rfl, h1, h3 rfl, rfl, by simp [modsCode]⟩
  | cons m mods ih =>
    have hm := hwf m (by simp)
    have hs := hsub m (by simp)
    have e : modsText (m :: mods) = ',' :: (m.sp ++ (((if m.neg then ['-'] else []) ++ m.e.text) ++
        modsText mods)) := by simp [modsText, Modifier.text]
    have r1 : readChar st ',' (m.sp ++ (((if m.neg then ['-'] else []) ++ m.e.text) ++
        modsText mods)) = .ok ({ st with
        foundCode := true, code := st.code ++ st.ops.map tokenToOpcode, ops := [],
        minusAllowed := true }, m.sp ++ (((if m.neg then ['-'] else []) ++ m.e.text) ++
        modsText mods)) := rfl
    rw [e, runR_cons r1, runR_spaces hm.2.2]
    have key : ∃ ma, runR { st with
          foundCode := true,
          code := st.code ++ st.ops.map tokenToOpcode, ops := [], minusAllowed := true }
          (((if m.neg then ['-'] else []) ++ m.e.text) ++ modsText mods) = runR { st with
          foundCode := true,
          code := st.code ++ st.ops.map tokenToOpcode ++ m.e.pre m.neg,
          ops := m.e.pend, minus := false, minusAllowed := ma } (modsText mods) := by
      cases hn : m.neg with
      | false =>
        refine ⟨true, ?_⟩
        have hs' : m.e.NoSub := hs.resolve_left (by simp [hn])
        have := run_sum m.e { st with
          foundCode := true,
          code := st.code ++ st.ops.map tokenToOpcode, ops := [], minusAllowed := true }
          (modsText mods) (.inr ⟨h1, rfl⟩) hm.1 (.inr hs') (by
            intro h; rw [show st.minus = true from h] at h2; cases h2) rfl (stop_modsText _)
        simp only [Bool.false_eq_true, if_false, List.nil_append]
        rw [this]
        simp [RState.after, h2]
      | true =>
        refine ⟨false, ?_⟩
        have := run_sum m.e { st with
          foundCode := true,
          code := st.code ++ st.ops.map tokenToOpcode, ops := [], minusAllowed := false,
          minus := true }
          (modsText mods) (.inr ⟨h1, rfl⟩) hm.1 (.inl rfl) (fun _ => hm.2.1 hn) rfl (stop_modsText _)
        have r2 : readChar { st with
          foundCode := true,
          code := st.code ++ st.ops.map tokenToOpcode, ops := [], minusAllowed := true } '-'
          (m.e.text ++ modsText mods) = .ok ({ st with
          foundCode := true,
          code := st.code ++ st.ops.map tokenToOpcode, ops := [], minusAllowed := false,
          minus := true }, m.e.text ++ modsText mods) := rfl
        simp only [if_true, List.cons_append, List.nil_append]
        rw [runR_cons r2, this]
        simp [RState.after]
    obtain ⟨ma, key⟩ := key
    rw [key]
    obtain ⟨st', g1, g2, g3, g4, g5⟩ := ih (fun m' h => hwf m' (List.mem_cons_of_mem _ h))
      (fun m' h => hsub m' (List.mem_cons_of_mem _ h)) { st with
          foundCode := true,
          code := st.code ++ st.ops.map tokenToOpcode ++ m.e.pre m.neg,
          ops := m.e.pend, minus := false, minusAllowed := ma } h1 rfl (fun _ => rfl)
    refine ⟨st', g1, g2, g3, g4, ?_⟩
    rw [g5]
    simp [modsCode, Sum.code]

/-! ### Characters of the written forms -/

/-- Neither a separator of blocks nor an equals sign. -/
def Plain (s : Str) : Prop := '*' ∉ s ∧ '=' ∉ s

theorem Plain.append {a b : Str} (ha : Plain a) (hb : Plain b) : Plain (a ++ b) := by
  simp only [Plain, List.mem_append, not_or]
  exact ⟨⟨ha.1, hb.1⟩, ha.2, hb.2⟩

theorem Plain.cons {c : Char} {b : Str} (h1 : '*' ≠ c) (h2 : '=' ≠ c) (hb : Plain b) :
    Plain (c :: b) := by
  simp only [Plain, List.mem_cons, not_or]
  exact ⟨⟨h1, hb.1⟩, h2, hb.2⟩

theorem Plain.nil : Plain [] := by simp [Plain]

theorem plain_digits {s : Str} (h : s.all isDig = true) : Plain s := by
  rw [List.all_eq_true] at h
  exact ⟨fun hm => absurd (h _ hm) (by decide), fun hm => absurd (h _ hm) (by decide)⟩

theorem plain_spaces {s : Str} (h : s.all isSpace = true) : Plain s := by
  rw [List.all_eq_true] at h
  exact ⟨fun hm => absurd (h _ hm) (by decide), fun hm => absurd (h _ hm) (by decide)⟩

theorem plain_lit {l : Lit} (h : l.WF) : Plain l.text := by
  obtain ⟨h1, h2, -⟩ := h
  unfold Lit.text
  apply (plain_digits h1).append
  cases hf : l.fp with
  | none => exact .nil
  | some f => exact (plain_digits (h2 f hf)).cons (by decide) (by decide)

mutual
theorem plain_sum (e : Sum) (h : e.WF) : Plain e.text := by
  match e with
  | .term t => exact plain_term t h
  | .add e t => exact (plain_sum e h.1).append ((plain_term t h.2).cons (by decide) (by decide))
  | .sub e t => exact (plain_sum e h.1).append ((plain_term t h.2).cons (by decide) (by decide))
theorem plain_term (t : Term) (h : t.WF) : Plain t.text := by
  match t with
  | .fac f => exact plain_fac f h
  | .mul t u f =>
    exact (plain_term t h.1).append ((plain_fac f h.2).cons (by cases u <;> decide)
      (by cases u <;> decide))
  | .div t f => exact (plain_term t h.1).append ((plain_fac f h.2).cons (by decide) (by decide))
theorem plain_fac (f : Fac) (h : f.WF) : Plain f.text := by
  match f with
  | .num l => exact plain_lit h
  | .var n => exact (plain_digits (natStr_all n)).cons (by decide) (by decide)
  | .par e =>
    exact ((plain_sum e h).append (Plain.nil.cons (by decide) (by decide))).cons (by decide)
      (by decide)
end

theorem plain_mods (mods : List Modifier) (h : ∀ m ∈ mods, m.WF) : Plain (modsText mods) := by
  induction mods with
  | nil => exact .nil
  | cons m mods ih =>
    have e : modsText (m :: mods) = ',' :: (m.text ++ modsText mods) := by simp [modsText]
    rw [e]
    refine Plain.cons (by decide) (by decide) (Plain.append ?_
      (ih fun m' hm => h m' (List.mem_cons_of_mem _ hm)))
    have := plain_sum m.e (h m (by simp)).1
    unfold Modifier.text
    rw [List.append_assoc]
    apply (plain_spaces (h m (by simp)).2.2).append
    split
    · exact this.cons (by decide) (by decide)
    · exact this

theorem block_no_star (b : Block) (h : b.WF) : '*' ∉ b.text := by
  match b with
  | .prim c mods => exact ((plain_digits (natStr_all c)).append (plain_mods mods h.2.2)).1
  | .eqn n e =>
    have h1 : Plain ('$' :: natStr n) := (plain_digits (natStr_all n)).cons (by decide) (by decide)
    have h2 := plain_sum e h
    simp only [Block.text, List.mem_cons, List.mem_append, not_or]
    refine ⟨by decide, (plain_digits (natStr_all n)).1, by decide, h2.1⟩
  | .comment t =>
    simp only [Block.text, List.mem_cons, not_or]
    exact ⟨by decide, by decide, h.1⟩
  | .blank t => exact (plain_spaces h).1

theorem strip_space (t : Str) : strip (' ' :: t) = strip t := by
  have h : isSpace ' ' = true := by decide
  simp [strip, stripBy, lstripBy, h]

theorem readBlock_code (b : Block) (hwf : b.WF) (hsub : b.SubOk) :
    readBlock b.text = .ok b.code := by
  match b with
  | .comment t =>
    obtain ⟨h1, h2⟩ := hwf
    have he : ('=' ∈ Block.text (.comment t)) = False := by
      simp only [Block.text, List.mem_cons, eq_iff_iff, iff_false, not_or]
      exact ⟨by decide, by decide, h2⟩
    unfold readBlock
    have hrun : runR { isEquation := decide ('=' ∈ Block.text (.comment t)) }
        (Block.text (.comment t)) = .ok {
          isEquation := false, foundCode := true, code := [.push (.txt (strip t))] } := by
      rw [show decide ('=' ∈ Block.text (.comment t)) = false by simp only [he]; rfl]
      have r : readChar { isEquation := false } '0' (' ' :: t) = .ok ({
          isEquation := false, foundCode := true, code := [.push (.txt (strip t))] }, []) := by
        rw [← strip_space]; rfl
      exact runR_cons r
    show (do let st ← runR _ _; Except.ok (finish st)) = _
    rw [hrun]; rfl
  | .prim c mods =>
    obtain ⟨h1, h2, h3⟩ := hwf
    have he : '=' ∉ Block.text (.prim c mods) :=
      ((plain_digits (natStr_all c)).append (plain_mods mods h3)).2
    have hcm : ∀ ch, (modsText mods).head? = some ch → isDig ch = false := (stop_modsText mods).dig
    have hint := readInt_nat c hcm
    have htext : Block.text (.prim c mods) = natStr c ++ modsText mods := rfl
    show (do let st ← runR _ _; Except.ok (finish st)) = _
    rw [show decide ('=' ∈ Block.text (.prim c mods)) = false from decide_eq_false he, htext]
    rcases natStr_cases c with ⟨h0, _⟩ | ⟨_, d, t, hd, hd0, _⟩
    · omega
    have hdig : isDig d = true := by
      have := natStr_all c
      rw [hd] at this
      simp only [List.all_cons, Bool.and_eq_true] at this
      exact this.1
    have r : readChar { isEquation := false } d (t ++ modsText mods) =
        .ok ({ isEquation := false, primCode := c }, modsText mods) := by
      obtain ⟨c1, c2, c3, c4, c5, c6⟩ := isNumCh_cases (c := d) (by simp [isNumCh, hdig])
      unfold readChar
      rw [if_neg c1, c2, if_neg (by simp), if_neg c3, if_neg c4, if_neg c5, if_neg c6, if_neg hd0,
        if_pos (by simp [hdig]), if_pos (by decide), ← List.cons_append, ← hd, hint]
      rfl
    obtain ⟨st', g1, g2, g3, g4, g5⟩ := run_mods mods h3 hsub { isEquation := false, primCode := c }
      rfl rfl (fun h => absurd h h2)
    rw [hd, List.cons_append, runR_cons r, g1]
    show Except.ok (finish st') = _
    unfold finish
    rw [g2, g3, g4, g5]
    simp [Block.code]
  | .eqn n e =>
    have he : '=' ∈ Block.text (.eqn n e) := by simp [Block.text]
    show (do let st ← runR _ _; Except.ok (finish st)) = _
    rw [show decide ('=' ∈ Block.text (.eqn n e)) = true from decide_eq_true he]
    have htext : Block.text (.eqn n e) = '$' :: (natStr n ++ '=' :: (e.text ++ [])) := by
      simp [Block.text]
    have r1 : readChar { isEquation := true } '$' (natStr n ++ '=' :: (e.text ++ [])) =
        .ok ({ isEquation := true, left := n }, '=' :: (e.text ++ [])) := by
      unfold readChar
      rw [if_neg (by decide), if_neg (by decide), if_neg (by decide), if_neg (by decide), if_pos rfl,
        readInt_nat n (by intro c hc; cases hc; decide)]
      rfl
    have r2 : readChar { isEquation := true, left := n } '=' (e.text ++ []) =
        .ok ({ isEquation := true, left := n, foundLeft := true }, e.text ++ []) := rfl
    have r3 := run_sum e { isEquation := true, left := n, foundLeft := true } [] (.inl ⟨rfl, rfl⟩)
      hwf (.inl rfl) (by intro h; cases h) rfl (by intro c hc; cases hc)
    rw [htext, runR_cons r1, runR_cons r2, r3]
    simp [finish, RState.after, Block.code, Sum.code, bind, Except.bind]
  | .blank t =>
    have he : '=' ∉ Block.text (.blank t) := (plain_spaces hwf).2
    show (do let st ← runR _ _; Except.ok (finish st)) = _
    rw [show decide ('=' ∈ Block.text (.blank t)) = false from decide_eq_false he]
    have := runR_spaces hwf { isEquation := false } []
    rw [List.append_nil] at this
    rw [show Block.text (.blank t) = t from rfl, this]
    rfl

theorem splitStar_plain {a : Str} (h : '*' ∉ a) : splitStar a = [a] := by
  induction a with
  | nil => rfl
  | cons c a ih =>
    simp only [List.mem_cons, not_or] at h
    rw [splitStar, if_neg (fun e => h.1 e.symm), ih h.2]

theorem splitStar_append {a b : Str} (h : '*' ∉ a) :
    splitStar (a ++ '*' :: b) = a :: splitStar b := by
  induction a with
  | nil => simp [splitStar]
  | cons c a ih =>
    simp only [List.mem_cons, not_or] at h
    rw [List.cons_append, splitStar, if_neg (fun e => h.1 e.symm), ih h.2]

theorem readBlocks_code (l : List Block) (hwf : ∀ b ∈ l, b.WF) (hsub : ∀ b ∈ l, b.SubOk) :
    readBlocks (l.map Block.text) = .ok (l.flatMap Block.code) := by
  induction l with
  | nil => rfl
  | cons b l ih =>
    simp only [List.map_cons, readBlocks, List.flatMap_cons]
    rw [readBlock_code b (hwf b (by simp)) (hsub b (by simp)),
      ih (fun b' h => hwf b' (List.mem_cons_of_mem _ h))
        (fun b' h => hsub b' (List.mem_cons_of_mem _ h))]
    rfl

theorem splitStar_macro (l : List Block) (hne : l ≠ []) (hwf : ∀ b ∈ l, b.WF) :
    splitStar (macroText l) = l.map Block.text := by
  induction l with
  | nil => exact absurd rfl hne
  | cons b l ih =>
    have hb := block_no_star b (hwf b (by simp))
    cases l with
    | nil => exact splitStar_plain hb
    | cons b' l =>
      show splitStar (b.text ++ '*' :: macroText (b' :: l)) = _
      rw [splitStar_append hb, ih (by simp) (fun b'' h => hwf b'' (List.mem_cons_of_mem _ h))]
      rfl

theorem readMacro_code (l : List Block) (hwf : ∀ b ∈ l, b.WF) (hsub : ∀ b ∈ l, b.SubOk) :
    readMacro (macroText l) = .ok (l.flatMap Block.code) := by
  cases l with
  | nil => decide
  | cons b l =>
    unfold readMacro
    rw [splitStar_macro _ (by simp) hwf, readBlocks_code _ hwf hsub]

/-! ## Evaluation of blocks -/

theorem eval_mods (mi : ℚ → ℚ → ℚ) (mods : List Modifier) {env : Env} {ρ : ℕ → ℚ}
    (he : env.Holds ρ) (l : List Instr) (st : List Val) :
    evalLoopWith mi (modsCode mods ++ l) env st = match modValuesWith mi ρ mods with
      | some vs => evalLoopWith mi l env ((vs.map .num).reverse ++ st)
      | none => .error .zeroDivisionError := by
  induction mods generalizing st with
  | nil => rfl
  | cons m mods ih =>
    have h : modsCode (m :: mods) ++ l = m.e.code m.neg ++ (modsCode mods ++ l) := by
      simp [modsCode]
    rw [h, eval_sum mi m.e he]
    simp only [modValuesWith, Modifier.valueWith]
    cases m.e.valueWith mi ρ m.neg with
    | none => rfl
    | some v =>
      simp only [cont]
      rw [ih]
      cases modValuesWith mi ρ mods with
      | none => rfl
      | some vs => simp

theorem Env.Holds.set {env : Env} {ρ : ℕ → ℚ} (he : env.Holds ρ) (n : ℕ) (v : ℚ) :
    (env.set n (.num v)).Holds fun k => if k = n then v else ρ k := by
  intro k
  simp only [Env.set]
  split
  · rfl
  · exact he k

theorem eval_blocks (mi : ℚ → ℚ → ℚ) (l : List Block) {env : Env} {ρ : ℕ → ℚ} (he : env.Holds ρ) :
    match meaningWith mi ρ l with
      | some o => ∃ env', evalLoopWith mi (l.flatMap Block.code) env [] = .ok (o, env')
      | none => evalLoopWith mi (l.flatMap Block.code) env [] = .error .zeroDivisionError := by
  induction l generalizing env ρ with
  | nil => exact ⟨env, rfl⟩
  | cons b l ih =>
    match b with
    | .prim c mods =>
      have h : (Block.prim c mods :: l).flatMap Block.code =
          modsCode mods ++ (.prim c :: l.flatMap Block.code) := by simp [Block.code]
      rw [h, meaningWith, eval_mods mi mods he]
      cases modValuesWith mi ρ mods with
      | none => rfl
      | some vs =>
        have := ih he
        simp only [Option.bind_eq_bind, Option.bind_some]
        cases hm : meaningWith mi ρ l with
        | none => rw [hm] at this; simp [evalLoopWith, this, bind, Except.bind]
        | some o =>
          rw [hm] at this
          obtain ⟨env', h'⟩ := this
          exact ⟨env', by simp [evalLoopWith, h', bind, Except.bind]⟩
    | .eqn n e =>
      have h : (Block.eqn n e :: l).flatMap Block.code =
          e.code false ++ (.store n :: l.flatMap Block.code) := by simp [Block.code]
      rw [h, meaningWith, eval_sum mi e he]
      cases e.valueWith mi ρ false with
      | none => rfl
      | some v =>
        simp only [cont, evalLoopWith, Option.bind_eq_bind, Option.bind_some]
        exact ih (he.set n v)
    | .comment t =>
      have h : (Block.comment t :: l).flatMap Block.code =
          .push (.txt (strip t)) :: .prim 0 :: l.flatMap Block.code := by simp [Block.code]
      rw [h, meaningWith]
      have := ih he
      cases hm : meaningWith mi ρ l with
      | none => rw [hm] at this; simp [evalLoopWith, this, bind, Except.bind]
      | some o =>
        rw [hm] at this
        obtain ⟨env', h'⟩ := this
        exact ⟨env', by simp [evalLoopWith, h', bind, Except.bind]⟩
    | .blank t => exact ih he

theorem envOf_holds (mods : List ℚ) : (envOf mods).Holds (paramValues mods) := by
  intro n
  unfold envOf paramValues
  split
  · rfl
  · rw [List.getD_eq_getElem?_getD]
    cases mods[n - 1]? <;> rfl

theorem eval_macro_with (mi : ℚ → ℚ → ℚ) (l : List Block) (mods : List ℚ) :
    evalMacroWith mi (l.flatMap Block.code) mods = asResult (meaningWith mi (paramValues mods) l) := by
  have := eval_blocks mi l (envOf_holds mods)
  unfold evalMacroWith
  cases hm : meaningWith mi (paramValues mods) l with
  | none => rw [hm] at this; rw [this]; rfl
  | some o =>
    rw [hm] at this
    obtain ⟨env', h'⟩ := this
    rw [h']; rfl

theorem evalMacro_eq (is : List Instr) (mods : List ℚ) :
    evalMacro is mods = evalMacroWith codeMinus is mods := rfl

/-! ### Without subtraction the meaning of `-` does not matter -/

mutual
theorem noSub_sum (mi mj : ℚ → ℚ → ℚ) (e : Sum) (h : e.NoSub) (ρ : ℕ → ℚ) (m : Bool) :
    e.valueWith mi ρ m = e.valueWith mj ρ m := by
  match e with
  | .term t => exact noSub_term mi mj t h ρ m
  | .add e t =>
    rw [Sum.valueWith, Sum.valueWith, noSub_sum mi mj e h.1, noSub_term mi mj t h.2]
  | .sub e t => exact absurd h (by simp [Sum.NoSub])
theorem noSub_term (mi mj : ℚ → ℚ → ℚ) (t : Term) (h : t.NoSub) (ρ : ℕ → ℚ) (m : Bool) :
    t.valueWith mi ρ m = t.valueWith mj ρ m := by
  match t with
  | .fac f => exact noSub_fac mi mj f h ρ m
  | .mul t u f =>
    rw [Term.valueWith, Term.valueWith, noSub_term mi mj t h.1, noSub_fac mi mj f h.2]
  | .div t f =>
    rw [Term.valueWith, Term.valueWith, noSub_term mi mj t h.1, noSub_fac mi mj f h.2]
theorem noSub_fac (mi mj : ℚ → ℚ → ℚ) (f : Fac) (h : f.NoSub) (ρ : ℕ → ℚ) (m : Bool) :
    f.valueWith mi ρ m = f.valueWith mj ρ m := by
  match f with
  | .num l => rfl
  | .var n => rfl
  | .par e => exact noSub_sum mi mj e h ρ m
end

theorem noSub_mods (mi mj : ℚ → ℚ → ℚ) (l : List Modifier) (h : ∀ m ∈ l, m.e.NoSub) (ρ : ℕ → ℚ) :
    modValuesWith mi ρ l = modValuesWith mj ρ l := by
  induction l with
  | nil => rfl
  | cons m l ih =>
    simp only [modValuesWith, Modifier.valueWith]
    rw [noSub_sum mi mj m.e (h m (by simp)), ih fun m' hm => h m' (List.mem_cons_of_mem _ hm)]

theorem noSub_meaning (mi mj : ℚ → ℚ → ℚ) (l : List Block) (h : ∀ b ∈ l, b.NoSub) (ρ : ℕ → ℚ) :
    meaningWith mi ρ l = meaningWith mj ρ l := by
  induction l generalizing ρ with
  | nil => rfl
  | cons b l ih =>
    have ih' := ih fun b' hb => h b' (List.mem_cons_of_mem _ hb)
    have hb := h b (by simp)
    match b with
    | .prim c mods => simp only [meaningWith, noSub_mods mi mj mods hb, ih']
    | .eqn n e => simp only [meaningWith, noSub_sum mi mj e hb, ih']
    | .comment t => simp only [meaningWith, ih']
    | .blank t => simp only [meaningWith, ih']

theorem Block.NoSub.subOk {b : Block} (h : b.NoSub) : b.SubOk := by
  match b with
  | .prim c mods => exact fun m hm => .inr (h m hm)
  | .eqn n e => trivial
  | .comment t => trivial
  | .blank t => trivial

/-! ## C10 -/

/-- The macro of the given blocks is read, and evaluated with the given modifiers gives exactly the
primitives of the macro with the conventional values of the expressions (the only failure being a
division by zero) - provided no expression contains a subtraction.  Missing: subtraction, which the
stack machine gets wrong (`C10_subtraction_violated`), and in modifiers also the compiler
(`C10_modifier_minus_violated`); a minus sign before a variable, a parenthesis or a bare `0`
(`C10_negated_variable_violated`). -/
theorem C10_expression_values_partial (l : List Block) (mods : List ℚ) (hwf : ∀ b ∈ l, b.WF)
    (hsub : ∀ b ∈ l, b.NoSub) :
    (do let is ← readMacro (macroText l); evalMacro is mods) =
      asResult (meaning (paramValues mods) l) := by
  rw [readMacro_code l hwf fun b hb => (hsub b hb).subOk]
  show evalMacro (l.flatMap Block.code) mods = _
  rw [evalMacro_eq, eval_macro_with, meaning, noSub_meaning codeMinus _ l hsub]

/-- With a machine that subtracts properly the compiled code has the conventional meaning also for
subtractions in variable definitions and in modifiers that start with a minus sign: there the
compiler is right. -/
theorem C10_compiler_partial (l : List Block) (mods : List ℚ) (hwf : ∀ b ∈ l, b.WF)
    (hsub : ∀ b ∈ l, b.SubOk) :
    (do let is ← readMacro (macroText l); evalMacroWith (fun a b => a - b) is mods) =
      asResult (meaning (paramValues mods) l) := by
  rw [readMacro_code l hwf hsub]
  exact eval_macro_with _ l mods

/-- What the code as it is computes: every difference is 0. -/
theorem C10_actual_values_partial (l : List Block) (mods : List ℚ) (hwf : ∀ b ∈ l, b.WF)
    (hsub : ∀ b ∈ l, b.SubOk) :
    (do let is ← readMacro (macroText l); evalMacro is mods) =
      asResult (meaningWith (fun _ _ => 0) (paramValues mods) l) := by
  rw [readMacro_code l hwf hsub]
  show evalMacro (l.flatMap Block.code) mods = _
  rw [evalMacro_eq, eval_macro_with, show codeMinus = fun _ _ => 0 by
    funext a b; simp [codeMinus]]

/-! ### A concrete macro -/

/-- Literal from its text. -/
def lit (i : String) : Lit := ⟨i.toList, none⟩

/-- `$4=($1+2)x$2/0.5`, then a circle primitive `1,1,$4+1x2,-3.25,$3X(2+$9)` with a line break in
it, then a comment and an empty line. -/
def sampleMacro : List Block :=
  [.eqn 4 (.term (.div (.mul (.fac (.par (.add (.term (.fac (.var 1))) (.fac (.num (lit "2")))))) false
      (.var 2)) (.num ⟨['0'], some ['5']⟩))),
   .prim 1 [⟨false, .term (.fac (.num (lit "1"))), []⟩,
     ⟨false, .add (.term (.fac (.var 4))) (.mul (.fac (.num (lit "1"))) false (.num (lit "2"))), []⟩,
     ⟨true, .term (.fac (.num ⟨['3'], some ['2', '5']⟩)), ['\n', ' ']⟩,
     ⟨false, .term (.mul (.fac (.var 3)) true
       (.par (.add (.term (.fac (.num (lit "2")))) (.fac (.var 9))))), []⟩],
   .comment ['h', 'i'], .blank ['\n']]

theorem lit_wf {s : Str} (h : s.all isDig = true) (h1 : s ≠ []) (h2 : s.head? ≠ some '0')
    : Lit.WF ⟨s, none⟩ := ⟨h, (by intro f hf; cases hf), fun e => absurd e h1, .inr h2⟩

theorem sampleMacro_wf : ∀ b ∈ sampleMacro, b.WF := by
  intro b hb
  have w1 : Lit.WF (lit "1") := lit_wf (by decide) (by decide) (by decide)
  have w2 : Lit.WF (lit "2") := lit_wf (by decide) (by decide) (by decide)
  have w3 : Lit.WF ⟨['0'], some ['5']⟩ :=
    ⟨by decide, by intro f hf; cases hf; decide, by simp, .inl rfl⟩
  have w4 : Lit.WF ⟨['3'], some ['2', '5']⟩ :=
    ⟨by decide, by intro f hf; cases hf; decide, by simp, .inr (by decide)⟩
  simp only [sampleMacro, List.mem_cons, List.not_mem_nil, or_false] at hb
  rcases hb with rfl | rfl | rfl | rfl
  · simp only [Block.WF, Sum.WF, Term.WF, Fac.WF]
    exact ⟨⟨⟨trivial, w2⟩, trivial⟩, w3⟩
  · refine ⟨by decide, by simp, ?_⟩
    intro m hm
    simp only [List.mem_cons, List.not_mem_nil, or_false] at hm
    rcases hm with rfl | rfl | rfl | rfl
    · exact ⟨w1, by simp⟩
    · exact ⟨⟨trivial, ⟨w1, w2⟩⟩, by simp⟩
    · exact ⟨w4, fun _ => by simp [Sum.StartsNum, Term.StartsNum, Fac.StartsNum, Lit.text], by decide⟩
    · exact ⟨⟨trivial, ⟨w2, trivial⟩⟩, by simp⟩
  · exact ⟨by decide, by decide⟩
  · show List.all ['\n'] isSpace = true
    decide

theorem sampleMacro_noSub : ∀ b ∈ sampleMacro, b.NoSub := by
  intro b hb
  simp only [sampleMacro, List.mem_cons, List.not_mem_nil, or_false] at hb
  rcases hb with rfl | rfl | rfl | rfl
  · simp [Block.NoSub, Sum.NoSub, Term.NoSub, Fac.NoSub]
  · simp [Block.NoSub, Sum.NoSub, Term.NoSub, Fac.NoSub]
  · trivial
  · trivial

example : macroText sampleMacro =
    "$4=($1+2)x$2/0.5*1,1,$4+1x2,\n -3.25,$3X(2+$9)*0 hi*\n".toList := by decide +kernel

example : (do let is ← readMacro (macroText sampleMacro); evalMacro is [1, 2, 3]) =
    .ok [(1, [.num 1, .num 14, .num (-13 / 4), .num 6]), (0, [.txt ['h', 'i']])] := by
  rw [C10_expression_values_partial sampleMacro _ sampleMacro_wf sampleMacro_noSub]
  decide +kernel

/-- `$3=$1-$2` is a block the compiler handles. -/
example : (do
      let is ← readMacro (macroText [.eqn 3 (.sub (.term (.fac (.var 1))) (.fac (.var 2))),
        .prim 1 [⟨false, .term (.fac (.var 3)), []⟩]])
      evalMacroWith (fun a b => a - b) is [5, 3]) = .ok [(1, [.num 2])] := by
  rw [C10_compiler_partial]
  · decide +kernel
  · intro b hb
    simp only [List.mem_cons, List.not_mem_nil, or_false] at hb
    rcases hb with rfl | rfl
    · exact ⟨trivial, trivial⟩
    · refine ⟨by decide, by simp, ?_⟩
      intro m hm
      simp only [List.mem_cons, List.not_mem_nil, or_false] at hm
      subst hm
      exact ⟨trivial, by simp⟩
  · intro b hb
    simp only [List.mem_cons, List.not_mem_nil, or_false] at hb
    rcases hb with rfl | rfl
    · trivial
    · intro m hm
      simp only [List.mem_cons, List.not_mem_nil, or_false] at hm
      subst hm
      exact .inr trivial

/-! ### Violations -/

/-- `SUB` pushes `op2 - op2`: with `$1=5`, `$2=3` the definition `$3=$1-$2` gives 0, not 2. -/
theorem C10_subtraction_violated :
    (do let is ← readMacro "$3=$1-$2*1,$3".toList; evalMacro is [5, 3]) = .ok [(1, [.num 0])] ∧
    meaning (paramValues [5, 3]) [.eqn 3 (.sub (.term (.fac (.var 1))) (.fac (.var 2))),
      .prim 1 [⟨false, .term (.fac (.var 3)), []⟩]] = some [(1, [.num 2])] := by
  decide +kernel

/-- A minus sign anywhere in a modifier that does not start with one is taken as a sign: `1,$1-$2`
is a primitive with two modifiers. -/
theorem C10_modifier_minus_violated :
    (do let is ← readMacro "1,$1-$2".toList; evalMacro is [5, 3]) =
      .ok [(1, [.num 5, .num 3])] := by
  decide +kernel

/-- The sign of `-$1` is dropped, or moves to a later number: `1,-$1,2` is read as `1,$1,-2`. -/
theorem C10_negated_variable_violated :
    (do let is ← readMacro "1,-$1,2".toList; evalMacro is [5]) =
      .ok [(1, [.num 5, .num (-2)])] := by
  decide +kernel

/-- A definition that starts with a minus sign fails with an `IndexError`. -/
theorem C10_negative_definition_violated :
    (do let is ← readMacro "$3=-5*1,$3".toList; evalMacro is []) = .error .indexError := by
  decide +kernel

/-- A number with a leading zero counts as two modifiers. -/
theorem C10_leading_zero_violated :
    (do let is ← readMacro "1,05".toList; evalMacro is []) = .ok [(1, [.num 0, .num 5])] := by
  decide +kernel

/-! ## C11 -/

/-- Code of a primitive instruction. -/
def Instr.primCode : Instr → Option ℕ
  | .prim c => some c
  | _ => none

theorem evalLoop_codes {mi : ℚ → ℚ → ℚ} {is : List Instr} {env : Env} {st : List Val} {o : List Out}
    {env' : Env} (h : evalLoopWith mi is env st = .ok (o, env')) :
    o.map Prod.fst = is.filterMap Instr.primCode := by
  induction is generalizing env st o with
  | nil => cases h; rfl
  | cons i is ih =>
    cases i with
    | push v => exact ih h
    | load n => exact ih h
    | nop => exact ih h
    | store n =>
      cases st with
      | nil => cases h
      | cons v st => exact ih h
    | add => obtain ⟨st', _, h2⟩ := bind_ok h; exact ih h2
    | sub => obtain ⟨st', _, h2⟩ := bind_ok h; exact ih h2
    | mul => obtain ⟨st', _, h2⟩ := bind_ok h; exact ih h2
    | div => obtain ⟨st', _, h2⟩ := bind_ok h; exact ih h2
    | prim c =>
      obtain ⟨⟨o', e'⟩, h1, h2⟩ := bind_ok h
      cases h2
      simp [Instr.primCode, ih h1]

/-- For every instruction sequence, modifier list and history of earlier calls: the evaluation that
succeeds yields exactly one primitive for every primitive instruction, in their order. -/
theorem C11_one_per_primitive (h : List Call) (is : List Instr) (mods : List ℚ) {o : List Out}
    (ho : Call.result (sharedAfter h) ⟨is, some mods⟩ = .ok o) :
    o.map Prod.fst = is.filterMap Instr.primCode := by
  obtain ⟨⟨o', e⟩, h1, h2⟩ := bind_ok ho
  cases h2
  exact evalLoop_codes h1

theorem evalLoop_append (mi : ℚ → ℚ → ℚ) (a b : List Instr) (c : ℕ) (env : Env) (st : List Val) :
    evalLoopWith mi (a ++ .prim c :: b) env st = (do
      let (o1, env1) ← evalLoopWith mi (a ++ [.prim c]) env st
      let (o2, env2) ← evalLoopWith mi b env1 []
      .ok (o1 ++ o2, env2)) := by
  induction a generalizing env st with
  | nil =>
    simp only [List.nil_append, evalLoopWith, bind, Except.bind]
    cases evalLoopWith mi b env [] <;> simp
  | cons i a ih =>
    cases i with
    | push v => exact ih ..
    | load n => exact ih ..
    | nop => exact ih ..
    | store n =>
      cases st with
      | nil => rfl
      | cons v st => exact ih ..
    | add =>
      simp only [List.cons_append, evalLoopWith]
      cases binop (fun a b => .ok (a + b)) st with
      | error e => rfl
      | ok st' => exact ih ..
    | sub =>
      simp only [List.cons_append, evalLoopWith]
      cases binop (fun a b => .ok (mi a b)) st with
      | error e => rfl
      | ok st' => exact ih ..
    | mul =>
      simp only [List.cons_append, evalLoopWith]
      cases binop (fun a b => .ok (a * b)) st with
      | error e => rfl
      | ok st' => exact ih ..
    | div =>
      simp only [List.cons_append, evalLoopWith]
      cases binop (fun a b => if b = 0 then .error .zeroDivisionError else .ok (a / b)) st with
      | error e => rfl
      | ok st' => exact ih ..
    | prim c' =>
      simp only [List.cons_append, evalLoopWith]
      rw [ih]
      cases evalLoopWith mi (a ++ [.prim c]) env [] with
      | error e => rfl
      | ok x =>
        simp only [bind, Except.bind]
        cases evalLoopWith mi b x.2 [] <;> rfl

/-- Nothing but the variables passes from one primitive to the next: what precedes and what follows
a primitive instruction can be evaluated separately, the rest starting from an empty stack. -/
theorem C11_primitives_separate (a b : List Instr) (c : ℕ) (env : Env) :
    evalLoop (a ++ .prim c :: b) env [] = (do
      let (o1, env1) ← evalLoop (a ++ [.prim c]) env []
      let (o2, env2) ← evalLoop b env1 []
      .ok (o1 ++ o2, env2)) := evalLoop_append _ a b c env []

example : evalLoop ([.push (.num 3), .load 1] ++ .prim 1 :: [.push (.num 4), .prim 5])
    (envOf [7]) [] = .ok ([(1, [.num 3, .num 7]), (5, [.num 4])], envOf [7]) := rfl

/-- The result of a call with modifiers does not depend on earlier calls, with or without
modifiers. -/
theorem C11_independent (h h' : List Call) (is : List Instr) (mods : List ℚ) :
    Call.result (sharedAfter h) ⟨is, some mods⟩ = Call.result (sharedAfter h') ⟨is, some mods⟩ := rfl

/-- The whole: after any history, a macro made of well-formed blocks and evaluated with modifiers
gives one primitive per primitive block (and comment) in source order, each with the values of its
own modifiers.  (Subtractions in the sense of the code, see C10.)  Missing: comments that contain an
equals sign (`C11_comment_violated`) and evaluation without modifiers
(`C11_default_dictionary_violated`), which the package itself never does. -/
theorem C11_own_modifiers_partial (h : List Call) (l : List Block) (mods : List ℚ)
    (hwf : ∀ b ∈ l, b.WF) (hsub : ∀ b ∈ l, b.SubOk) :
    (do let is ← readMacro (macroText l); Call.result (sharedAfter h) ⟨is, some mods⟩) =
      asResult (meaningWith codeMinus (paramValues mods) l) := by
  rw [readMacro_code l hwf hsub]
  exact eval_macro_with _ l mods

example : (do
      let is ← readMacro (macroText sampleMacro)
      Call.result (sharedAfter [⟨[.push (.num 9), .store 9], none⟩]) ⟨is, some [1, 2, 3]⟩) =
    .ok [(1, [.num 1, .num 14, .num (-13 / 4), .num 6]), (0, [.txt ['h', 'i']])] := by
  rw [C11_own_modifiers_partial _ sampleMacro _ sampleMacro_wf fun b hb =>
    (sampleMacro_noSub b hb).subOk]
  decide +kernel

/-- A comment with an equals sign is taken for a definition, and what it leaves on the stack becomes
a modifier of the next primitive: here the circle gets a modifier 0 in front. -/
theorem C11_comment_violated :
    (do let is ← readMacro "0 w=5*1,1,2".toList; evalMacro is []) =
      .ok [(1, [.num 0, .num 1, .num 2])] := by
  decide +kernel

/-- Called without modifiers, an evaluation sees the variables defined by earlier ones. -/
theorem C11_default_dictionary_violated :
    Call.result (sharedAfter []) ⟨[.load 9, .prim 1], none⟩ = .ok [(1, [.num 0])] ∧
    Call.result (sharedAfter [⟨[.push (.num 7), .store 9], none⟩]) ⟨[.load 9, .prim 1], none⟩ =
      .ok [(1, [.num 7])] := by
  decide +kernel

end Verif.Macro
