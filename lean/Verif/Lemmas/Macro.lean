import Verif.Spec.Macro
import Verif.Lemmas.PyNum

/-! # The macro compiler produces the conventional postfix code -/

namespace Verif.Macro
open Verif.Py

/-! ## The loop does not need more rounds than characters -/

theorem bind_ok {α β : Type} {x : PyR α} {f : α → PyR β} {b : β} (h : (x >>= f) = .ok b) :
    ∃ a, x = .ok a ∧ f a = .ok b := by
  cases x with
  | error e => cases h
  | ok a => exact ⟨a, rfl, h⟩

theorem ite_or {α : Type} {p : Prop} [Decidable p] {a b x : α} (h : (if p then a else b) = x) :
    (p ∧ a = x) ∨ (¬ p ∧ b = x) := by
  by_cases hp : p
  · exact .inl ⟨hp, by rwa [if_pos hp] at h⟩
  · exact .inr ⟨hp, by rwa [if_neg hp] at h⟩

theorem dropWhile_length_le {α : Type} (p : α → Bool) (s : List α) :
    (s.dropWhile p).length ≤ s.length := by
  induction s with
  | nil => simp
  | cons c s ih =>
    simp only [List.dropWhile_cons]
    split
    · simp only [List.length_cons]; omega
    · simp

theorem readInt_shorter {s r : Str} {n : ℕ} (h : readInt s = .ok (n, r)) :
    r.length < s.length := by
  unfold readInt at h
  split at h
  · cases h
  · rename_i ds hne
    cases h
    cases s with
    | nil => exact absurd (by simp) (hne)
    | cons c s =>
      have : isDig c = true := by
        by_contra hc
        apply hne
        simp [hc]
      simp only [List.dropWhile_cons, this, if_true, List.length_cons]
      have := dropWhile_length_le isDig s
      omega

theorem readFloat_shorter {c : Char} {s r : Str} {n : ℚ} (hc : isNumCh c = true)
    (h : readFloat (c :: s) = .ok (n, r)) : r.length < (c :: s).length := by
  have key : ((c :: s).dropWhile isNumCh).length < (c :: s).length := by
    simp only [List.dropWhile_cons, hc, if_true, List.length_cons]
    have := dropWhile_length_le isNumCh s
    omega
  unfold readFloat at h
  dsimp only at h
  split at h
  · cases h; exact key
  · split at h <;> cases h
    exact key

/-- Every round removes at least one character. -/
theorem readChar_shorter {st st' : RState} {c : Char} {rest rest' : Str}
    (h : readChar st c rest = .ok (st', rest')) : rest'.length ≤ rest.length := by
  unfold readChar at h
  rcases ite_or h with ⟨-, h⟩ | ⟨-, h⟩
  · cases h; rfl
  rcases ite_or h with ⟨-, h⟩ | ⟨-, h⟩
  · rcases ite_or h with ⟨-, h⟩ | ⟨-, h⟩ <;> cases h <;> rfl
  rcases ite_or h with ⟨-, h⟩ | ⟨-, h⟩
  · cases h; rfl
  rcases ite_or h with ⟨-, h⟩ | ⟨-, h⟩
  · split at h <;> cases h
    rfl
  rcases ite_or h with ⟨-, h⟩ | ⟨-, h⟩
  · obtain ⟨⟨n, r⟩, h1, h2⟩ := bind_ok h
    have := readInt_shorter h1
    rcases ite_or h2 with ⟨-, h2⟩ | ⟨-, h2⟩ <;> cases h2 <;> omega
  rcases ite_or h with ⟨-, h⟩ | ⟨-, h⟩
  · cases h; rfl
  rcases ite_or h with ⟨-, h⟩ | ⟨-, h⟩
  · rcases ite_or h with ⟨-, h⟩ | ⟨-, h⟩
    · cases h; simp
    rcases ite_or h with ⟨-, h⟩ | ⟨-, h⟩ <;> cases h <;> rfl
  rcases ite_or h with ⟨hc, h⟩ | ⟨-, h⟩
  · rcases ite_or h with ⟨-, h⟩ | ⟨-, h⟩
    · obtain ⟨⟨n, r⟩, h1, h2⟩ := bind_ok h
      have := readInt_shorter h1
      cases h2
      simp only [List.length_cons] at this; omega
    · obtain ⟨⟨n, r⟩, h1, h2⟩ := bind_ok h
      have := readFloat_shorter (by simpa [isNumCh] using hc) h1
      simp only [List.length_cons] at this
      rcases ite_or h2 with ⟨-, h2⟩ | ⟨-, h2⟩ <;> cases h2 <;> omega
  · cases h; rfl

theorem readLoop_fuel (n : ℕ) (st : RState) (s : Str) (h : s.length ≤ n) :
    readLoop n st s = readLoop s.length st s := by
  induction n using Nat.strong_induction_on generalizing st s with
  | _ n ih =>
    rcases Nat.eq_or_lt_of_le h with rfl | hlt
    · rfl
    obtain ⟨n, rfl⟩ : ∃ m, n = m + 1 := ⟨n - 1, by omega⟩
    cases s with
    | nil => rfl
    | cons c t =>
      simp only [List.length_cons] at hlt
      simp only [List.length_cons, readLoop]
      cases hr : readChar st c t with
      | error e => rfl
      | ok x =>
        have hl := readChar_shorter (st' := x.1) (rest' := x.2) (by simpa using hr)
        show readLoop n x.1 x.2 = readLoop t.length x.1 x.2
        rw [ih n (by omega) _ _ (by omega), ← ih t.length (by omega) _ _ hl]

/-- Reading with as many rounds as needed. -/
def runR (st : RState) (s : Str) : PyR RState := readLoop s.length st s

@[simp] theorem runR_nil (st : RState) : runR st [] = .ok st := rfl

theorem runR_cons {st st' : RState} {c : Char} {rest rest' : Str}
    (h : readChar st c rest = .ok (st', rest')) : runR st (c :: rest) = runR st' rest' := by
  unfold runR
  simp only [List.length_cons, readLoop, h]
  show readLoop rest.length st' rest' = _
  exact readLoop_fuel _ _ _ (readChar_shorter h)

/-! ## Numbers and variables -/

/-- What may follow a number. -/
def Stop (s : Str) : Prop := ∀ c, s.head? = some c → isNumCh c = false

theorem takeWhile_stop {p : Char → Bool} {a s : Str} (ha : a.all p = true)
    (hs : ∀ c, s.head? = some c → p c = false) : (a ++ s).takeWhile p = a ∧
      (a ++ s).dropWhile p = s := by
  induction a with
  | nil =>
    cases s with
    | nil => simp
    | cons c s =>
      have := hs c rfl
      simp [this]
  | cons c a ih =>
    simp only [List.all_cons, Bool.and_eq_true] at ha
    simp [ha.1, (ih ha.2).1, (ih ha.2).2]

theorem Stop.dig {s : Str} (h : Stop s) : ∀ c, s.head? = some c → isDig c = false := by
  intro c hc
  have := h c hc
  simp only [isNumCh, Bool.or_eq_false_iff] at this
  exact this.1

theorem readInt_nat (n : ℕ) {s : Str} (hs : ∀ c, s.head? = some c → isDig c = false) :
    readInt (natStr n ++ s) = .ok (n, s) := by
  have h := takeWhile_stop (natStr_all n) hs
  unfold readInt
  rw [h.1, h.2]
  have hne := natStr_ne_nil n
  have hv := natVal_natStr n
  cases hn : natStr n with
  | nil => exact absurd hn hne
  | cons c t =>
    show Except.ok (natVal (c :: t), s) = _
    rw [← hn, hv]

/-- The state is inside an expression. -/
def InExpr (st : RState) : Prop :=
  (st.isEquation = true ∧ st.foundLeft = true) ∨ (st.isEquation = false ∧ st.foundCode = true)

/-- Add instructions. -/
def RState.emit (st : RState) (l : List Instr) : RState := { st with code := st.code ++ l }

theorem RState.emit_emit (st : RState) (a b : List Instr) :
    (st.emit a).emit b = st.emit (a ++ b) := by simp [RState.emit]

theorem readFloat_lit {l : Lit} (h : l.WF) {s : Str} (hs : Stop s) :
    readFloat (l.text ++ s) = .ok (l.value, s) := by
  obtain ⟨h1, h2, h3, -⟩ := h
  have hall : l.text.all isNumCh = true := by
    unfold Lit.text
    rw [List.all_append, Bool.and_eq_true]
    constructor
    · rw [List.all_eq_true] at h1 ⊢
      intro c hc; simp [isNumCh, h1 c hc]
    · cases hf : l.fp with
      | none => rfl
      | some f =>
        have := h2 f hf
        rw [List.all_eq_true] at this
        simp only [List.all_cons, Bool.and_eq_true]
        exact ⟨by decide, by rw [List.all_eq_true]; intro c hc; simp [isNumCh, this c hc]⟩
  have ht := takeWhile_stop hall hs
  unfold readFloat
  dsimp only
  rw [ht.1, ht.2]
  cases hf : l.fp with
  | none =>
    have hne : l.ip ≠ [] := fun h => h3 h hf
    have e : l.text = l.ip := by simp [Lit.text, hf]
    have hnp : l.ip ≠ ['.'] := by
      intro h; rw [h] at h1; exact absurd h1 (by decide)
    rw [e, if_neg hnp, pyFloat_digits h1 hne]
    simp [Lit.value, hf]
  | some f =>
    have e : l.text = l.ip ++ '.' :: f := by simp [Lit.text, hf]
    have hfd := h2 f hf
    rw [e]
    by_cases hp : l.ip ++ '.' :: f = ['.']
    · have h0 : l.ip = [] ∧ f = [] := by
        cases hip : l.ip with
        | nil => rw [hip] at hp; simpa using hp
        | cons c t => rw [hip] at hp; simp at hp
      rw [if_pos hp]
      simp [Lit.value, hf, h0.1, h0.2, natVal]
    · rw [if_neg hp]
      have hne : l.ip ++ f ≠ [] := by
        intro h0
        apply hp
        simp only [List.append_eq_nil_iff] at h0
        simp [h0.1, h0.2]
      rw [pyFloat_point h1 hfd (by simpa using hne)]
      simp [Lit.value, hf]

theorem dig_ne {c d : Char} (h : isDig c = true) (hd : isDig d = false) : c ≠ d := by
  rintro rfl; rw [h] at hd; cases hd

theorem isNumCh_cases {c : Char} (h : isNumCh c = true) :
    c ≠ ',' ∧ isOp c = false ∧ c ≠ '(' ∧ c ≠ ')' ∧ c ≠ '$' ∧ c ≠ '=' := by
  have key : ∀ d, isNumCh d = false → c ≠ d := by
    rintro d hd rfl; rw [h] at hd; cases hd
  refine ⟨key _ (by decide), ?_, key _ (by decide), key _ (by decide), key _ (by decide),
    key _ (by decide)⟩
  simp [isOp, key '+' (by decide), key '-' (by decide), key 'x' (by decide), key 'X' (by decide),
    key '/' (by decide)]

/-- A digit (not `0`) or a point inside an expression starts a number. -/
theorem readChar_num {st : RState} {c : Char} {rest r : Str} {v : ℚ} (hin : InExpr st)
    (hc : isNumCh c = true) (h0 : c ≠ '0') (h : readFloat (c :: rest) = .ok (v, r)) :
    readChar st c rest = .ok ({ st with minus := false, code := st.code ++
      [.push (.num (if st.minus then -v else v))] }, r) := by
  obtain ⟨c1, c2, c3, c4, c5, c6⟩ := isNumCh_cases hc
  have hcond : (!st.isEquation && !st.foundCode) = false := by
    rcases hin with ⟨h1, _⟩ | ⟨_, h1⟩ <;> simp [h1]
  have hnc : (isDig c || c == '.') = true := by simpa [isNumCh] using hc
  unfold readChar
  rw [if_neg c1, c2, if_neg (by simp), if_neg c3, if_neg c4, if_neg c5, if_neg c6, if_neg h0,
    if_pos hnc, hcond, if_neg (by simp), h]
  obtain ⟨code, ops, e, fl, fc, lf, pc, ma, mi⟩ := st
  cases mi <;> simp [bind, Except.bind]

theorem readChar_zero {st : RState} {rest : Str} (hin : InExpr st) :
    readChar st '0' rest = if rest.head? = some '.' then .ok (st, rest)
      else .ok (st.emit [.push (.num 0)], rest) := by
  have hcond : (!st.isEquation && !st.foundCode) = false := by
    rcases hin with ⟨h1, _⟩ | ⟨_, h1⟩ <;> simp [h1]
  unfold readChar
  rw [if_neg (by decide), if_neg (by decide), if_neg (by decide), if_neg (by decide),
    if_neg (by decide), if_neg (by decide), if_pos rfl, hcond, if_neg (by simp)]
  rfl

/-- Reading a literal. -/
theorem run_lit {st : RState} (hin : InExpr st) {l : Lit} (h : l.WF)
    (hm : st.minus = true → l.text ≠ ['0']) {rest : Str} (hs : Stop rest) :
    runR st (l.text ++ rest) = runR { st with minus := false, code := st.code ++
      [.push (.num (if st.minus then -l.value else l.value))] } rest := by
  have hf := readFloat_lit h hs
  obtain ⟨h1, h2, h3, h4⟩ := h
  by_cases h0 : l.ip = ['0']
  · cases hfp : l.fp with
    | none =>
      have e : l.text = ['0'] := by simp [Lit.text, hfp, h0]
      have hm' : st.minus = false := by
        cases hh : st.minus
        · rfl
        · exact absurd e (hm hh)
      have hv : l.value = 0 := by simp [Lit.value, hfp, h0, natVal, digVal]
      have hh : rest.head? ≠ some '.' := by
        intro hh; have := hs _ hh; exact absurd this (by decide)
      rw [e, List.singleton_append]
      rw [runR_cons (readChar_zero hin |>.trans (if_neg hh))]
      simp [hv, RState.emit, ← hm']
    | some f =>
      have hl' : Lit.WF ⟨[], some f⟩ := ⟨rfl, fun g hg => h2 g (by rw [hfp]; exact hg), by simp,
        by simp⟩
      have hf' := readFloat_lit hl' hs
      have e : l.text = '0' :: '.' :: f := by simp [Lit.text, hfp, h0]
      have e' : Lit.text ⟨[], some f⟩ = '.' :: f := by simp [Lit.text]
      have hv : Lit.value ⟨[], some f⟩ = l.value := by
        simp only [Lit.value, hfp, h0, Option.getD_some, List.nil_append, List.singleton_append]
        rw [show natVal ('0' :: f) = natVal f by simp [natVal, digVal]]
      rw [e, List.cons_append]
      rw [runR_cons (readChar_zero hin |>.trans (if_pos (by simp)))]
      rw [e'] at hf'
      rw [List.cons_append] at hf' ⊢
      rw [runR_cons (readChar_num hin (by decide) (by decide) hf'), hv]
  · have h4' := h4.resolve_left h0
    have : ∃ c t, l.text = c :: t ∧ isNumCh c = true ∧ c ≠ '0' := by
      cases hip : l.ip with
      | nil =>
        cases hfp : l.fp with
        | none => exact absurd hfp (h3 hip)
        | some f => exact ⟨'.', f, by simp [Lit.text, hip, hfp], by decide, by decide⟩
      | cons c t =>
        rw [hip] at h1 h4'
        simp only [List.all_cons, Bool.and_eq_true] at h1
        refine ⟨c, t ++ (match l.fp with | none => [] | some f => '.' :: f), ?_, ?_, ?_⟩
        · unfold Lit.text; rw [hip]; rfl
        · simp [isNumCh, h1.1]
        · simpa using h4'
    obtain ⟨c, t, e, hc, hc0⟩ := this
    rw [e] at hf ⊢
    rw [List.cons_append] at hf ⊢
    rw [runR_cons (readChar_num hin hc hc0 hf)]

theorem run_var {st : RState} (hin : InExpr st) (n : ℕ) {rest : Str} (hs : Stop rest) :
    runR st ('$' :: (natStr n ++ rest)) = runR (st.emit [.load n]) rest := by
  apply runR_cons
  have hcond : ¬ (st.isEquation = true ∧ ¬ st.foundLeft = true) := by
    rcases hin with ⟨_, h1⟩ | ⟨h1, _⟩ <;> simp [h1]
  unfold readChar
  rw [if_neg (by decide), if_neg (by decide), if_neg (by decide), if_neg (by decide), if_pos rfl,
    readInt_nat n hs.dig]
  show (if st.isEquation = true ∧ ¬ st.foundLeft = true then _ else _) = _
  rw [if_neg hcond]
  rfl

/-! ## Operators -/

theorem readChar_op {st : RState} {c : Char} {rest : Str} (hc : isOp c = true)
    (hm : c = '-' → st.minusAllowed = false) : readChar st c rest =
      .ok ({ st with code := st.code ++ (popOps (precedence c) st.ops).1,
                     ops := c :: (popOps (precedence c) st.ops).2 }, rest) := by
  have h1 : c ≠ ',' := by rintro rfl; exact absurd hc (by decide)
  unfold readChar
  rw [if_neg h1, if_pos hc, if_neg]
  rintro ⟨rfl, h⟩
  rw [hm rfl] at h; cases h

theorem popOps_append {p : ℕ} {a ops : List Char}
    (ha : ∀ c ∈ a, isOp c = true ∧ p ≤ precedence c) (ho : popOps p ops = ([], ops)) :
    popOps p (a ++ ops) = (a.map tokenToOpcode, ops) := by
  induction a with
  | nil => simpa using ho
  | cons c a ih =>
    simp only [List.cons_append, popOps, List.map_cons]
    rw [if_pos (ha c (by simp)), ih (fun d hd => ha d (List.mem_cons_of_mem _ hd))]

theorem popParen_append {a ops : List Char} (ha : ∀ c ∈ a, isOp c = true) :
    popParen (a ++ '(' :: ops) = (a.map tokenToOpcode, '(' :: ops) := by
  induction a with
  | nil => simp [popParen]
  | cons c a ih =>
    have hc : c ≠ '(' := by
      rintro rfl; exact absurd (ha '(' (by simp)) (by decide)
    simp only [List.cons_append, popParen, List.map_cons]
    rw [if_pos hc, ih (fun d hd => ha d (List.mem_cons_of_mem _ hd))]

/-! ## Code of expressions -/

mutual
/-- Postfix code, split into what is emitted while reading (`pre`) and the operators left on the
operator stack (`pend`, top first). -/
def Sum.pre (m : Bool) : Sum → List Instr
  | .term t => t.pre m
  | .add e t => e.pre m ++ e.pend.map tokenToOpcode ++ t.pre false
  | .sub e t => e.pre m ++ e.pend.map tokenToOpcode ++ t.pre false
def Sum.pend : Sum → List Char
  | .term t => t.pend
  | .add _ t => t.pend ++ ['+']
  | .sub _ t => t.pend ++ ['-']
def Term.pre (m : Bool) : Term → List Instr
  | .fac f => f.code m
  | .mul t _ f => t.pre m ++ t.pend.map tokenToOpcode ++ f.code false
  | .div t f => t.pre m ++ t.pend.map tokenToOpcode ++ f.code false
def Term.pend : Term → List Char
  | .fac _ => []
  | .mul _ u _ => [mulChar u]
  | .div _ _ => ['/']
def Fac.code (m : Bool) : Fac → List Instr
  | .num l => [.push (.num (if m then -l.value else l.value))]
  | .var n => [.load n]
  | .par e => e.pre m ++ e.pend.map tokenToOpcode
end

/-- Postfix code of a sum. -/
def Sum.code (m : Bool) (e : Sum) : List Instr := e.pre m ++ e.pend.map tokenToOpcode

/-- Postfix code of a term. -/
def Term.code (m : Bool) (t : Term) : List Instr := t.pre m ++ t.pend.map tokenToOpcode

theorem mulChar_op (u : Bool) : isOp (mulChar u) = true ∧ precedence (mulChar u) = 2 ∧
    tokenToOpcode (mulChar u) = .mul ∧ mulChar u ≠ '-' := by cases u <;> decide

theorem Term.pend_op (t : Term) : ∀ c ∈ t.pend, isOp c = true ∧ 2 ≤ precedence c := by
  cases t with
  | fac f => simp [Term.pend]
  | mul t u f =>
    intro c hc
    simp only [Term.pend, List.mem_singleton] at hc
    subst hc
    exact ⟨(mulChar_op u).1, by rw [(mulChar_op u).2.1]⟩
  | div t f =>
    intro c hc
    simp only [Term.pend, List.mem_singleton] at hc
    subst hc; decide

theorem Sum.pend_op (e : Sum) : ∀ c ∈ e.pend, isOp c = true ∧ 1 ≤ precedence c := by
  have ht : ∀ t : Term, ∀ c ∈ t.pend, isOp c = true ∧ 1 ≤ precedence c := fun t c hc =>
    ⟨(t.pend_op c hc).1, le_trans (by decide) (t.pend_op c hc).2⟩
  cases e with
  | term t => exact ht t
  | add e t =>
    intro c hc
    simp only [Sum.pend, List.mem_append, List.mem_singleton] at hc
    rcases hc with hc | rfl
    · exact ht t c hc
    · decide
  | sub e t =>
    intro c hc
    simp only [Sum.pend, List.mem_append, List.mem_singleton] at hc
    rcases hc with hc | rfl
    · exact ht t c hc
    · decide

theorem stop_op {c : Char} {s : Str} (h : isOp c = true) : Stop (c :: s) := by
  intro d hd
  cases hd
  simp only [isOp, Bool.or_eq_true, decide_eq_true_eq] at h
  rcases h with (((rfl | rfl) | rfl) | rfl) | rfl <;> decide

theorem popOps_two {c : Char} {ops : List Char} (h : precedence c = 1) :
    popOps 2 (c :: ops) = ([], c :: ops) := by
  simp [popOps, h]

/-- State after reading. -/
def RState.after (st : RState) (l : List Instr) (pend : List Char) : RState :=
  { st with code := st.code ++ l, ops := pend ++ st.ops, minus := false }

theorem popOps_two_of_one {ops : List Char} (h : popOps 1 ops = ([], ops)) :
    popOps 2 ops = ([], ops) := by
  cases ops with
  | nil => rfl
  | cons c ops =>
    simp only [popOps] at h ⊢
    by_cases h2 : isOp c = true ∧ 2 ≤ precedence c
    · rw [if_pos ⟨h2.1, by omega⟩] at h
      cases h
    · rw [if_neg h2]

mutual
/-- Reading a sum in parentheses, after a comma or after the equals sign. -/
theorem run_sum (e : Sum) (st : RState) (rest : Str) (hin : InExpr st) (hwf : e.WF)
    (hsub : st.minusAllowed = false ∨ e.NoSub) (hneg : st.minus = true → e.StartsNum)
    (hops : popOps 1 st.ops = ([], st.ops)) (hs : Stop rest) :
    runR st (e.text ++ rest) = runR (st.after (e.pre st.minus) e.pend) rest := by
  match e with
  | .term t =>
    exact run_term t st rest hin hwf hsub hneg (popOps_two_of_one hops) hs
  | .add e t =>
    have ih1 := run_sum e st ('+' :: (t.text ++ rest)) hin hwf.1 (hsub.imp id And.left) hneg hops
      (stop_op (by decide))
    have hpop : popOps 1 (e.pend ++ st.ops) = (e.pend.map tokenToOpcode, st.ops) :=
      popOps_append e.pend_op hops
    have h2 := readChar_op (st := st.after (e.pre st.minus) e.pend) (c := '+') (rest := t.text ++ rest)
      (by decide) (fun h => absurd h (by decide))
    rw [show precedence '+' = 1 by decide,
      show (st.after (e.pre st.minus) e.pend).ops = e.pend ++ st.ops from rfl, hpop] at h2
    have ih2 := run_term t { st.after (e.pre st.minus) e.pend with
        code := (st.after (e.pre st.minus) e.pend).code ++ e.pend.map tokenToOpcode,
        ops := '+' :: st.ops } rest hin hwf.2 (hsub.imp id And.right) (by intro h; cases h)
      (popOps_two (by decide)) hs
    rw [show Sum.text (.add e t) ++ rest = e.text ++ '+' :: (t.text ++ rest) by simp [Sum.text], ih1,
      runR_cons h2, ih2]
    simp [RState.after, Sum.pre, Sum.pend]
  | .sub e t =>
    have hsub' : st.minusAllowed = false := hsub.resolve_right (by simp [Sum.NoSub])
    have ih1 := run_sum e st ('-' :: (t.text ++ rest)) hin hwf.1 (Or.inl hsub') hneg hops
      (stop_op (by decide))
    have hpop : popOps 1 (e.pend ++ st.ops) = (e.pend.map tokenToOpcode, st.ops) :=
      popOps_append e.pend_op hops
    have h2 := readChar_op (st := st.after (e.pre st.minus) e.pend) (c := '-') (rest := t.text ++ rest)
      (by decide) (fun _ => hsub')
    rw [show precedence '-' = 1 by decide,
      show (st.after (e.pre st.minus) e.pend).ops = e.pend ++ st.ops from rfl, hpop] at h2
    have ih2 := run_term t { st.after (e.pre st.minus) e.pend with
        code := (st.after (e.pre st.minus) e.pend).code ++ e.pend.map tokenToOpcode,
        ops := '-' :: st.ops } rest hin hwf.2 (Or.inl hsub') (by intro h; cases h)
      (popOps_two (by decide)) hs
    rw [show Sum.text (.sub e t) ++ rest = e.text ++ '-' :: (t.text ++ rest) by simp [Sum.text], ih1,
      runR_cons h2, ih2]
    simp [RState.after, Sum.pre, Sum.pend]

theorem run_term (t : Term) (st : RState) (rest : Str) (hin : InExpr st) (hwf : t.WF)
    (hsub : st.minusAllowed = false ∨ t.NoSub) (hneg : st.minus = true → t.StartsNum)
    (hops : popOps 2 st.ops = ([], st.ops)) (hs : Stop rest) :
    runR st (t.text ++ rest) = runR (st.after (t.pre st.minus) t.pend) rest := by
  match t with
  | .fac f =>
    exact run_fac f st rest hin hwf hsub hneg hs
  | .mul t u f =>
    obtain ⟨m1, m2, m3, m4⟩ := mulChar_op u
    have ih1 := run_term t st (mulChar u :: (f.text ++ rest)) hin hwf.1 (hsub.imp id And.left) hneg
      hops (stop_op m1)
    have hpop : popOps 2 (t.pend ++ st.ops) = (t.pend.map tokenToOpcode, st.ops) :=
      popOps_append t.pend_op hops
    have h2 := readChar_op (st := st.after (t.pre st.minus) t.pend) (c := mulChar u)
      (rest := f.text ++ rest) m1 (fun h => absurd h m4)
    rw [m2, show (st.after (t.pre st.minus) t.pend).ops = t.pend ++ st.ops from rfl, hpop] at h2
    have ih2 := run_fac f { st.after (t.pre st.minus) t.pend with
        code := (st.after (t.pre st.minus) t.pend).code ++ t.pend.map tokenToOpcode,
        ops := mulChar u :: st.ops } rest hin hwf.2 (hsub.imp id And.right) (by intro h; cases h) hs
    rw [show Term.text (.mul t u f) ++ rest = t.text ++ mulChar u :: (f.text ++ rest) by
      simp [Term.text], ih1, runR_cons h2, ih2]
    simp [RState.after, Term.pre, Term.pend]
  | .div t f =>
    have ih1 := run_term t st ('/' :: (f.text ++ rest)) hin hwf.1 (hsub.imp id And.left) hneg
      hops (stop_op (by decide))
    have hpop : popOps 2 (t.pend ++ st.ops) = (t.pend.map tokenToOpcode, st.ops) :=
      popOps_append t.pend_op hops
    have h2 := readChar_op (st := st.after (t.pre st.minus) t.pend) (c := '/')
      (rest := f.text ++ rest) (by decide) (fun h => absurd h (by decide))
    rw [show precedence '/' = 2 by decide,
      show (st.after (t.pre st.minus) t.pend).ops = t.pend ++ st.ops from rfl, hpop] at h2
    have ih2 := run_fac f { st.after (t.pre st.minus) t.pend with
        code := (st.after (t.pre st.minus) t.pend).code ++ t.pend.map tokenToOpcode,
        ops := '/' :: st.ops } rest hin hwf.2 (hsub.imp id And.right) (by intro h; cases h) hs
    rw [show Term.text (.div t f) ++ rest = t.text ++ '/' :: (f.text ++ rest) by
      simp [Term.text], ih1, runR_cons h2, ih2]
    simp [RState.after, Term.pre, Term.pend]

theorem run_fac (f : Fac) (st : RState) (rest : Str) (hin : InExpr st) (hwf : f.WF)
    (hsub : st.minusAllowed = false ∨ f.NoSub) (hneg : st.minus = true → f.StartsNum)
    (hs : Stop rest) :
    runR st (f.text ++ rest) = runR (st.after (f.code st.minus) []) rest := by
  match f with
  | .num l =>
    have := run_lit hin hwf hneg hs
    rw [show Fac.text (.num l) = l.text from rfl, this]
    simp [RState.after, Fac.code]
  | .var n =>
    have hm : st.minus = false := by
      cases h : st.minus
      · rfl
      · exact absurd (hneg h) (by simp [Fac.StartsNum])
    have := run_var hin n hs
    rw [show Fac.text (.var n) ++ rest = '$' :: (natStr n ++ rest) from rfl, this]
    simp [RState.after, Fac.code, RState.emit, ← hm]
  | .par e =>
    have hm : st.minus = false := by
      cases h : st.minus
      · rfl
      · exact absurd (hneg h) (by simp [Fac.StartsNum])
    have h1 : readChar st '(' (e.text ++ ')' :: rest) =
        .ok ({ st with ops := '(' :: st.ops }, e.text ++ ')' :: rest) := rfl
    have ih := run_sum e { st with ops := '(' :: st.ops } (')' :: rest) hin hwf hsub
      (by intro h; rw [hm] at h; cases h) (by simp [popOps, isOp]) (by
        intro c hc; cases hc; decide)
    have hpop : popParen (e.pend ++ '(' :: st.ops) = (e.pend.map tokenToOpcode, '(' :: st.ops) :=
      popParen_append fun c hc => (e.pend_op c hc).1
    have h2 : readChar (({ st with ops := '(' :: st.ops } : RState).after (e.pre st.minus) e.pend) ')'
        rest = .ok (st.after (Fac.code st.minus (.par e)) [], rest) := by
      unfold readChar
      rw [if_neg (by decide), if_neg (by decide), if_neg (by decide), if_pos rfl]
      simp only [RState.after]
      rw [hpop]
      simp [Fac.code]
    rw [show Fac.text (.par e) ++ rest = '(' :: (e.text ++ ')' :: rest) by simp [Fac.text],
      runR_cons h1, ih, runR_cons h2]
end

end Verif.Macro
