import Verif.Props.Ipc

/-! # C100: what has been read of a netlist is not changed by what follows -/

namespace Verif.Ipc
open Verif.Py

theorem splitLinesGo_newline (b : Str) : ∀ (n : ℕ) (a cur : Str), a.length ≤ n →
    splitLinesGo cur (a ++ '\n' :: b) = splitLinesGo cur (a ++ ['\n']) ++ splitLinesGo [] b := by
  have nl : ∀ cur r, splitLinesGo cur ('\n' :: r) = cur :: splitLinesGo [] r := by
    intro cur r
    rw [splitLinesGo]
    · rw [if_pos (.inr (by decide))]
    · intro s h; cases h
  have one : ∀ (cur : Str) (c : Char) (r : Str), (∀ s, c :: r ≠ '\r' :: '\n' :: s) → splitLinesGo cur (c :: r) =
      if c = '\r' ∨ isBreak c then cur :: splitLinesGo [] r else splitLinesGo (cur ++ [c]) r := by
    intro cur c r h
    rw [splitLinesGo]
    intro s hc hr
    exact h s (by rw [hc, hr])
  intro n
  induction n with
  | zero =>
    intro a cur h
    cases List.length_eq_zero_iff.1 (Nat.le_zero.1 h)
    rw [List.nil_append, List.nil_append, nl, nl]
    rfl
  | succ n ih =>
    intro a cur h
    match a with
    | [] => rw [List.nil_append, List.nil_append, nl, nl]; rfl
    | [c] =>
      by_cases hc : c = '\r'
      · subst hc
        show splitLinesGo cur ('\r' :: '\n' :: b) = splitLinesGo cur ('\r' :: '\n' :: []) ++ _
        rw [splitLinesGo, splitLinesGo]
        rfl
      · rw [List.singleton_append, List.singleton_append, one cur c _ (by intro s h; cases h; exact hc rfl),
          one cur c _ (by intro s h; cases h; exact hc rfl)]
        split
        · rw [List.cons_append]; exact congrArg _ (ih [] [] (Nat.zero_le _))
        · exact ih [] _ (Nat.zero_le _)
    | c :: d :: a =>
      simp only [List.length_cons] at h
      by_cases hc : c = '\r' ∧ d = '\n'
      · obtain ⟨rfl, rfl⟩ := hc
        show splitLinesGo cur ('\r' :: '\n' :: (a ++ '\n' :: b)) = splitLinesGo cur ('\r' :: '\n' :: (a ++ ['\n'])) ++ _
        rw [splitLinesGo, splitLinesGo, List.cons_append, ih a [] (by omega)]
      · have hn : ∀ r s, c :: (d :: r) ≠ '\r' :: '\n' :: s := by
          intro r s e; cases e; exact hc ⟨rfl, rfl⟩
        show splitLinesGo cur (c :: (d :: (a ++ '\n' :: b))) = splitLinesGo cur (c :: (d :: (a ++ ['\n']))) ++ _
        rw [one cur c _ (hn _), one cur c _ (hn _)]
        split
        · rw [List.cons_append]
          exact congrArg _ (ih (d :: a) [] (by simp only [List.length_cons]; omega))
        · exact ih (d :: a) _ (by simp only [List.length_cons]; omega)

/-- Behind a line break, the lines are those of the two parts. -/
theorem splitLines_newline (a b : Str) : splitLines (a ++ '\n' :: b) = splitLines (a ++ ['\n']) ++ splitLines b :=
  splitLinesGo_newline b a.length a [] (le_refl _)

/-- The second parser has the records of the first and at most `n` more behind them. -/
def Longer (n : ℕ) (p q : Parser) : Prop := ∃ r, q.statements = p.statements ++ r ∧ r.length ≤ n

theorem Longer.trans {n m : ℕ} {p q r : Parser} (h : Longer n p q) (h' : Longer m q r) : Longer (n + m) p r := by
  obtain ⟨a, h1, h2⟩ := h
  obtain ⟨b, h3, h4⟩ := h'
  exact ⟨a ++ b, by rw [h3, h1, List.append_assoc], by rw [List.length_append]; omega⟩

theorem except_bindOk {α β : Type} {x : PyR α} {f : α → PyR β} {b : β} (h : (x >>= f) = .ok b) :
    ∃ a, x = .ok a ∧ f a = .ok b := by
  cases x with
  | error e => cases h
  | ok a => exact ⟨a, rfl, h⟩

theorem param_longer (p : Parser) (n v : Str) : Longer 1 p (p.param n v) := by
  have h : (p.setUnits n v).statements = p.statements := by
    unfold Parser.setUnits
    split_ifs <;> rfl
  refine ⟨[.param n v], ?_, le_refl _⟩
  unfold Parser.param
  simp only
  split
  · show (p.setUnits n v).statements ++ _ = _; rw [h]
  · show (p.setUnits n v).statements ++ _ = _; rw [h]

theorem parseLine_longer {p q : Parser} {line : Str} (h : p.parseLine line = .ok q) : Longer 1 p q := by
  unfold Parser.parseLine at h
  split at h
  · cases h; exact ⟨[], by simp, by simp⟩
  · split_ifs at h
    · cases h; exact ⟨_, rfl, le_refl _⟩
    · obtain ⟨nv, -, h⟩ := except_bindOk h
      cases h; exact param_longer _ _ _
    · cases h; exact ⟨_, rfl, le_refl _⟩
    · obtain ⟨r, -, h⟩ := except_bindOk h
      cases h; exact ⟨_, rfl, le_refl _⟩
    · obtain ⟨r, -, h⟩ := except_bindOk h
      cases h; exact ⟨_, rfl, le_refl _⟩
    · obtain ⟨r, -, h⟩ := except_bindOk h
      cases h; exact ⟨_, rfl, le_refl _⟩
    · obtain ⟨r, -, h⟩ := except_bindOk h
      cases h; exact ⟨_, rfl, le_refl _⟩
    · cases h; exact ⟨[], by simp, by simp⟩

/-- A line that does not continue another one ends the line before. -/
theorem step_next (st : Parser × Str) {line : Str} (h : line.head? ≠ some '0') :
    step st line = (st.1.parseLine st.2).map fun p => (p, line) := by
  unfold step
  split
  · split
    · exact absurd rfl h
    · cases st.1.parseLine st.2 <;> rfl
  · rename_i h2
    rw [not_not.1 h2]
    rfl

theorem fold_longer : ∀ (l : List Str) (st : Parser × Str) (st' : Parser × Str) (q : Parser), l.foldlM step st = .ok st' →
    st'.1.parseLine st'.2 = .ok q → Longer (l.length + 1) st.1 q := by
  intro l
  induction l with
  | nil => intro st st' q h hq; cases h; exact (parseLine_longer hq).trans (n := 1) (m := 0) ⟨[], by simp, by simp⟩
  | cons x l ih =>
    intro st st' q h hq
    rw [List.foldlM_cons] at h
    obtain ⟨s1, h1, h⟩ := except_bindOk h
    have a : Longer 1 st.1 s1.1 := by
      unfold step at h1
      split_ifs at h1
      · split at h1
        · cases h1; exact ⟨[], by simp, by simp⟩
        · obtain ⟨p, hp, h1⟩ := except_bindOk h1
          cases h1; exact parseLine_longer hp
      · cases h1; exact ⟨[], by simp, by simp⟩
    have b := a.trans (ih s1 st' q h hq)
    rw [List.length_cons]
    obtain ⟨r, h2, h3⟩ := b
    exact ⟨r, h2, by omega⟩

theorem mapM_append_ok {α β : Type} {g : α → PyR β} {a b : List α} {l : List β} (h : (a ++ b).mapM g = .ok l) :
    ∃ l1 l2, a.mapM g = .ok l1 ∧ l = l1 ++ l2 := by
  rw [List.mapM_append] at h
  obtain ⟨l1, h1, h⟩ := except_bindOk h
  obtain ⟨l2, h2, h⟩ := except_bindOk h
  cases h
  exact ⟨l1, l2, h1, rfl⟩

/-- **C100** (netlists).  If a netlist can be read, so can its beginning up to any line break behind which no continuation
line follows; the records and test points of the beginning are the first ones of the whole, unchanged, and each further line
adds at most one record. -/
theorem C100_netlist {a b : Str} {n : Netlist} (hb : b.head? ≠ some '0') (h : parseRaw (a ++ '\n' :: b) = .ok n) :
    ∃ n1 r q, parseRaw (a ++ ['\n']) = .ok n1 ∧ n.statements = n1.statements ++ r ∧ r.length ≤ (splitLines b).length ∧
      n.primitives = n1.primitives ++ q := by
  unfold parseRaw at h
  rw [splitLines_newline, List.foldlM_append] at h
  obtain ⟨st, h0, h⟩ := except_bindOk h
  obtain ⟨st1, h1, h0⟩ := except_bindOk h0
  obtain ⟨p, h2, h⟩ := except_bindOk h
  have key : ∃ p1, st1.1.parseLine st1.2 = .ok p1 ∧ Longer (splitLines b).length p1 p := by
    cases hl : splitLines b with
    | nil =>
      rw [hl] at h0
      cases h0
      exact ⟨p, h2, [], by simp, by simp⟩
    | cons x l =>
      have hx : x.head? ≠ some '0' := by
        intro hx
        cases b with
        | nil => simp [splitLines, splitLinesGo] at hl
        | cons c s =>
          have pre : ∀ (n : ℕ) (s cur : Str) (y : Str) (m : List Str), s.length ≤ n → splitLinesGo cur s = y :: m →
              cur ≠ [] → y.head? = cur.head? := by
            intro n
            induction n with
            | zero =>
              intro s cur y m hs e hc
              cases List.length_eq_zero_iff.1 (Nat.le_zero.1 hs)
              rw [splitLinesGo, if_neg hc] at e
              cases e; rfl
            | succ n ih =>
              intro s cur y m hs e hc
              unfold splitLinesGo at e
              split at e
              · rw [if_neg hc] at e; cases e; rfl
              · cases e; rfl
              · rename_i c s _
                split at e
                · cases e; rfl
                · have := ih s (cur ++ [c]) y m (by simp only [List.length_cons] at hs; omega) e (by simp)
                  rw [this]
                  cases cur with
                  | nil => exact absurd rfl hc
                  | cons d cur => rfl
          unfold splitLines splitLinesGo at hl
          split at hl
          · cases hl
          · cases hl; cases hx
          · rename_i d t _ e
            cases e
            split at hl
            · cases hl; cases hx
            · have := pre s.length s [c] x l (le_refl _) hl (by simp)
              rw [hx] at this
              exact hb this.symm
      rw [hl, List.foldlM_cons, step_next st1 hx] at h0
      cases hp : st1.1.parseLine st1.2 with
      | error e => rw [hp] at h0; cases h0
      | ok p1 =>
        rw [hp] at h0
        exact ⟨p1, rfl, fold_longer l (p1, x) st p h0 h2⟩
  obtain ⟨p1, h3, r, h4, h5⟩ := key
  unfold Parser.finish at h
  obtain ⟨prims, h6, h⟩ := except_bindOk h
  cases h
  have e : testRecords p.statements = testRecords p1.statements ++ testRecords r := by
    rw [h4]; unfold testRecords; rw [List.filterMap_append]
  rw [e] at h6
  obtain ⟨l1, l2, h7, h8⟩ := mapM_append_ok h6
  refine ⟨⟨p1.statements, p1.units, p1.angle, l1⟩, r, l2, ?_, h4, h5, h8⟩
  unfold parseRaw
  rw [h1]
  show (st1.1.parseLine st1.2 >>= fun p => p.finish) = _
  rw [h3]
  show p1.finish = _
  unfold Parser.finish
  rw [h7]
  rfl

-- a unit and a name that come later do not change the point before them
example : (parseRaw "P  UNITS CUST 0\n317GND              VIA         D  24PA00X  14900Y   1450X 396Y 396\n".toList).map (·.primitives) =
      .ok [((149 / 100, 29 / 200), "GND".toList, "both")] ∧
    (parseRaw ("P  UNITS CUST 0\n317GND              VIA         D  24PA00X  14900Y   1450X 396Y 396".toList ++
        '\n' :: "P  UNITS CUST 1\n317A1               VIA         D  24PA00X  14900Y   1450X 396Y 396\n999".toList)).map (·.primitives) =
      .ok [((149 / 100, 29 / 200), "GND".toList, "both"), ((149 / 10, 29 / 20), "A1".toList, "both")] := by
  decide +kernel

end Verif.Ipc
