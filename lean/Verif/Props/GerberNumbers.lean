import Verif.Props.Layout
import Verif.Props.Codec

/-! # C94: the spelling of numbers in a Gerber text makes no difference -/

namespace Verif.Gerber
open Verif.Py Verif.Py.Re Verif.Cam Verif.Utils

/-! ## Specification -/

/-- A number of a coordinate word: a sign, which may be missing, and digits. -/
def IsWord (w : Str) : Prop :=
  ∃ sign ds : Str, w = sign ++ ds ∧ sign ∈ [[], ['+'], ['-']] ∧ ds ≠ [] ∧ ds.all isDig = true

/-- The same number whatever the format: with or without a plus sign. -/
inductive SamePlus : Str → Str → Prop
  | same {a : Str} : IsWord a → SamePlus a a
  | plus {a : Str} : a ≠ [] → a.all isDig = true → SamePlus a ('+' :: a)
  | unplus {a : Str} : a ≠ [] → a.all isDig = true → SamePlus ('+' :: a) a

/-- The value of digits in a format with `i` integer and `d` decimal places: with leading zeros left
out the decimal point is before the last `d` digits, otherwise behind the first `i` digits. -/
def placed (i d : ℕ) (lead : Bool) (s : Str) : ℚ :=
  if lead then (natVal s : ℚ) / 10 ^ d else (natVal s : ℚ) * (10 : ℚ) ^ ((i : ℤ) - s.length)

/-- A number with at most the digits of the format, and its value. -/
inductive Means (i d : ℕ) (lead : Bool) : Str → ℚ → Prop
  | plain {s : Str} : s ≠ [] → s.all isDig = true → s.length ≤ i + d → Means i d lead s (placed i d lead s)
  | plus {s : Str} : s ≠ [] → s.all isDig = true → s.length ≤ i + d →
      Means i d lead ('+' :: s) (placed i d lead s)
  | minus {s : Str} : s ≠ [] → s.all isDig = true → s.length ≤ i + d →
      Means i d lead ('-' :: s) (-placed i d lead s)

/-- The same number in a format. -/
def SameIn (i d : ℕ) (lead : Bool) (a b : Str) : Prop := ∃ q, Means i d lead a q ∧ Means i d lead b q

/-- The same words, each there or not. -/
inductive SameOpt (N : Str → Str → Prop) : Option Str → Option Str → Prop
  | none : SameOpt N none none
  | some {a b : Str} : N a b → SameOpt N (some a) (some b)

/-- The same block: the same text, or a coordinate block with other spellings of its numbers. -/
inductive SameBlock (N : Str → Str → Prop) : Str → Str → Prop
  | same (b : Str) : SameBlock N b b
  | coord {f x y i j op x' y' i' j' : Option Str} : (∀ s, f = some s → IsCode 'G' s) →
      (∀ s, op = some s → IsCode 'D' s) → SameOpt N x x' → SameOpt N y y' → SameOpt N i i' →
      SameOpt N j j' → SameBlock N (coordText f x y i j op) (coordText f x' y' i' j' op)

/-- A block holds one parameter. -/
def OneParam (b : Str) : Prop :=
  (∃ body, b = '%' :: body ++ ['*', '%'] ∧ '*' ∉ body ∧ '%' ∉ body) ∨
  ∃ name body, b = '%' :: 'A' :: 'M' :: (name ++ '*' :: (body ++ ['*', '%'])) ∧ IsName name ∧ '%' ∉ body

/-- The block that sets the format. -/
def formatBlock (lead : Bool) (n x1 x2 y1 y2 : Char) : Str :=
  ['%', 'F', 'S'] ++ [if lead then 'L' else 'T'] ++ [n] ++ 'X' :: ([x1] ++ [x2]) ++
    'Y' :: ([y1] ++ [y2]) ++ ['*', '%']

/-! ## Coordinate blocks -/

theorem isWord_first {s b : Str} (h : IsWord s) (hb : ∀ c t, b = c :: t → isDig c = false) :
    First (cat reNumber) (s ++ b) (s, [], b) := by
  obtain ⟨sign, t, rfl, hs, hne, hall⟩ := h
  simp only [List.mem_cons, List.not_mem_nil, or_false] at hs
  rcases hs with rfl | rfl | rfl
  · exact number_first ⟨t, Or.inl rfl, hne, hall⟩ hb
  · exact First.seq (First.opt_some (First.chr (c := '+') (by decide)))
      (First.plus_append hne hall hb)
  · exact number_first ⟨t, Or.inr rfl, hne, hall⟩ hb

theorem isWord_word {c : Char} {n : String} {k : Re} {o : Option Str} {rest u r : Str} {cs : Caps}
    {l : Str} (ho : ∀ s, o = some s → IsWord s) (hl : HeadIn l rest)
    (hd : ∀ e ∈ l, isDig e = false ∧ e ≠ c) (hk : First k rest (u, cs, r)) :
    First (.seq (reWord c n) k) (word c o ++ rest) (word c o ++ u, cap n o ++ cs, r) := by
  cases o with
  | none => exact word_first (o := none) (by simp) hl hd hk
  | some s =>
    refine First.seq (First.opt_some (First.seq First.lit (First.grp (isWord_first (ho s rfl) ?_)))) hk
    obtain ⟨e, t, rfl, he⟩ := hl
    intro c' t' h
    cases h
    exact (hd _ he).1

theorem coord_words {f x y i j op : Option Str} (hf : ∀ s, f = some s → IsCode 'G' s)
    (hx : ∀ s, x = some s → IsWord s) (hy : ∀ s, y = some s → IsWord s)
    (hi : ∀ s, i = some s → IsWord s) (hj : ∀ s, j = some s → IsWord s)
    (ho : ∀ s, op = some s → IsCode 'D' s) :
    reCoord.pyMatch (coordText f x y i j op) =
      some (cap "function" f ++ (cap "x" x ++ (cap "y" y ++ (cap "i" i ++ (cap "j" j ++
        (cap "op" op ++ []))))), []) := by
  have h1 := headIn_op ho
  have h2 := h1.word 'J' j
  have h3 := h2.word 'I' i
  have h4 := h3.word 'Y' y
  have h5 := h4.word 'X' x
  have k0 : First (lit '*') ['*'] (['*'], [], []) := First.lit
  have k1 := optCode_first (g := 'D') (n := "op") (o := op) (l := ['*']) ho ⟨'*', [], rfl, by simp⟩
    (by decide) k0
  have k2 := isWord_word (c := 'J') (n := "j") hj h1 (by decide) k1
  have k3 := isWord_word (c := 'I') (n := "i") hi h2 (by decide) k2
  have k4 := isWord_word (c := 'Y') (n := "y") hy h3 (by decide) k3
  have k5 := isWord_word (c := 'X') (n := "x") hx h4 (by decide) k4
  have k6 := optCode_first (g := 'G') (n := "function") (o := f) hf h5 (by decide) k5
  have ht : coordText f x y i j op = f.getD [] ++ (word 'X' x ++ (word 'Y' y ++ (word 'I' i ++
      (word 'J' j ++ (op.getD [] ++ ['*']))))) := by
    simp [coordText, List.append_assoc]
  rw [ht]
  exact First.pyMatch k6

/-- The statement of a coordinate block with these words. -/
def coordOf (st : FileSettings) (f x y i j op : Option Str) : PyR Coord := do
  let x ← optValue st x
  let y ← optValue st y
  let i ← optValue st i
  let j ← optValue st j
  .ok { function := f, x := x, y := y, i := i, j := j, op := op }

theorem coordText_cons {f x y i j op : Option Str} (hf : ∀ s, f = some s → IsCode 'G' s)
    (ho : ∀ s, op = some s → IsCode 'D' s) :
    ∃ c t, coordText f x y i j op = c :: t ∧ c ∈ ['G', 'X', 'Y', 'I', 'J', 'D', '*'] ∧
      (c = '*' → f = none ∧ x = none ∧ y = none ∧ i = none ∧ j = none ∧ op = none) := by
  cases f with
  | some s =>
    obtain ⟨c, hc, rfl | rfl⟩ := hf s rfl
    · exact ⟨'G', _, rfl, by simp, by simp⟩
    · exact ⟨'G', _, rfl, by simp, by simp⟩
  | none =>
  cases x with
  | some s => exact ⟨'X', _, rfl, by simp, by simp⟩
  | none =>
  cases y with
  | some s => exact ⟨'Y', _, rfl, by simp, by simp⟩
  | none =>
  cases i with
  | some s => exact ⟨'I', _, rfl, by simp, by simp⟩
  | none =>
  cases j with
  | some s => exact ⟨'J', _, rfl, by simp, by simp⟩
  | none =>
  cases op with
  | none => exact ⟨'*', [], rfl, by simp, by simp⟩
  | some s =>
    obtain ⟨c, hc, rfl | rfl⟩ := ho s rfl
    · exact ⟨'D', _, rfl, by simp, by simp⟩
    · exact ⟨'D', _, rfl, by simp, by simp⟩

theorem coordText_end (f x y i j op : Option Str) : ∃ s, coordText f x y i j op = s ++ ['*'] := ⟨_, rfl⟩

theorem step_coordText {st : FileSettings} {f x y i j op : Option Str} (hf : ∀ s, f = some s → IsCode 'G' s)
    (hx : ∀ s, x = some s → IsWord s) (hy : ∀ s, y = some s → IsWord s)
    (hi : ∀ s, i = some s → IsWord s) (hj : ∀ s, j = some s → IsWord s)
    (ho : ∀ s, op = some s → IsCode 'D' s) (hne : ¬(f = none ∧ x = none ∧ y = none ∧ i = none ∧ j = none ∧ op = none)) :
    step st (coordText f x y i j op) = (coordOf st f x y i j op).map fun c => .yield (.coord c) st [] := by
  obtain ⟨c, t, h1, -, h3⟩ := coordText_cons (x := x) (y := y) (i := i) (j := j) hf ho
  unfold step
  rw [if_neg (by rw [h1]; simp only [List.head?_cons, Option.some.injEq]; exact fun h => hne (h3 h)),
    coord_words hf hx hy hi hj ho]
  obtain ⟨g1, g2, g3, g4, g5, g6⟩ := get_caps f x y i j op
  simp only [coordFromDict, coordOf, g1, g2, g3, g4, g5, g6]
  cases optValue st x with
  | error e => rfl
  | ok vx =>
  cases optValue st y with
  | error e => rfl
  | ok vy =>
  cases optValue st i with
  | error e => rfl
  | ok vi =>
  cases optValue st j with
  | error e => rfl
  | ok vj => rfl

theorem line_coord {inc : Includer} {st : FileSettings} {f x y i j op : Option Str} (hf : ∀ s, f = some s → IsCode 'G' s)
    (hx : ∀ s, x = some s → IsWord s) (hy : ∀ s, y = some s → IsWord s)
    (hi : ∀ s, i = some s → IsWord s) (hj : ∀ s, j = some s → IsWord s)
    (ho : ∀ s, op = some s → IsCode 'D' s) (hne : ¬(f = none ∧ x = none ∧ y = none ∧ i = none ∧ j = none ∧ op = none)) :
    parseLine inc (coordText f x y i j op).length st (coordText f x y i j op) =
      (coordOf st f x y i j op).map fun c => ([.coord c], st, []) := by
  have hs := step_coordText (st := st) hf hx hy hi hj ho hne
  obtain ⟨c, t, h1, -, -⟩ := coordText_cons (x := x) (y := y) (i := i) (j := j) hf ho
  rw [h1] at hs ⊢
  rw [List.length_cons, parseLine, if_neg (by simp), hs]
  have hnil : ∀ n st, parseLine inc n st [] = .ok ([], st, []) := by
    intro n st; cases n <;> simp [parseLine]
  cases coordOf st f x y i j op with
  | error e => rfl
  | ok c => simp [Except.map, hnil, bind, Except.bind]

/-! ## Blocks one after the other -/

/-- A block that is read as it is. -/
structure Whole (b : Str) : Prop where
  ne : b ≠ []
  tidy : strip b = b
  closed : isOpenParam b = false

theorem block_step {inc : Includer} {st : FileSettings} {b b' : Str} {A A' : List Str} (hb : Whole b) (hb' : Whole b')
    (he : parseLine inc b.length st b = parseLine inc b'.length st b')
    (hr : ∀ l st' r, parseLine inc b.length st b = .ok (l, st', r) →
      r = [] ∧ parseBlocks inc st' [] A = parseBlocks inc st' [] A') :
    parseBlocks inc st [] (b :: A) = parseBlocks inc st [] (b' :: A') := by
  rw [parseBlocks, parseBlocks]
  simp only [List.nil_append, hb.tidy, hb'.tidy, if_neg hb.ne, if_neg hb'.ne, hb.closed, hb'.closed,
    Bool.false_eq_true, if_false]
  rw [← he]
  cases hp : parseLine inc b.length st b with
  | error e => rfl
  | ok v =>
    obtain ⟨l, st', r⟩ := v
    obtain ⟨rfl, h⟩ := hr l st' r hp
    simp only [bind, Except.bind, h]

theorem whole_coord {f x y i j op : Option Str} (hf : ∀ s, f = some s → IsCode 'G' s)
    (ho : ∀ s, op = some s → IsCode 'D' s) (hne : ¬(f = none ∧ x = none ∧ y = none ∧ i = none ∧ j = none ∧ op = none)) :
    Whole (coordText f x y i j op) := by
  obtain ⟨c, t, h1, h2, h3⟩ := coordText_cons (x := x) (y := y) (i := i) (j := j) hf ho
  have hc : c ≠ '*' := fun h => hne (h3 h)
  obtain ⟨s, hs⟩ := coordText_end f x y i j op
  cases s with
  | nil => rw [hs] at h1; cases h1; exact absurd rfl hc
  | cons c' s =>
    have : c' = c := by rw [hs] at h1; cases h1; rfl
    subst this
    have hsp : isSpace c' = false ∧ c' ≠ '%' := by
      simp only [List.mem_cons, List.not_mem_nil, or_false] at h2
      rcases h2 with rfl | rfl | rfl | rfl | rfl | rfl | rfl <;> decide
    rw [hs]
    exact ⟨by simp, strip_ends hsp.1 (by decide), by simp [isOpenParam, hsp.2]⟩

/-- What a block and what follows do. -/
theorem block_same {I J : FileSettings → Prop} {N : Str → Str → Prop} {inc : Includer} {A A' : List Str}
    (hN : ∀ st a a', I st → N a a' → IsWord a ∧ IsWord a' ∧
      parseGerberValue a st.format st.zeroSuppression = parseGerberValue a' st.format st.zeroSuppression)
    {b b' : Str} (h : SameBlock N b b') (hw : Whole b) (hs : Settled b)
    (hI : ∀ st l st' r, I st → parseLine inc b.length st b = .ok (l, st', r) → J st')
    (hA : ∀ st, J st → parseBlocks inc st [] A = parseBlocks inc st [] A') :
    ∀ st, I st → parseBlocks inc st [] (b :: A) = parseBlocks inc st [] (b' :: A') := by
  intro st hst
  have key : ∀ b', Whole b' → parseLine inc b.length st b = parseLine inc b'.length st b' →
      parseBlocks inc st [] (b :: A) = parseBlocks inc st [] (b' :: A') := fun b' hb' he =>
    block_step hw hb' he fun l st' r hp => ⟨hs _ _ _ _ _ hp, hA _ (hI _ _ _ _ hst hp)⟩
  cases h with
  | same => exact key _ hw rfl
  | @coord f x y i j op x' y' i' j' hf ho hx hy hi hj =>
    by_cases hne : x = none ∧ y = none ∧ i = none ∧ j = none
    · obtain ⟨rfl, rfl, rfl, rfl⟩ := hne
      cases hx; cases hy; cases hi; cases hj
      exact key _ hw rfl
    have words : ∀ {o o' : Option Str}, SameOpt N o o' → (∀ s, o = some s → IsWord s) ∧ (∀ s, o' = some s → IsWord s) ∧
        optValue st o = optValue st o' ∧ (o' = none → o = none) := by
      intro o o' h
      cases h with
      | none => simp
      | some h =>
        obtain ⟨h1, h2, h3⟩ := hN st _ _ hst h
        refine ⟨fun s e => ?_, fun s e => ?_, ?_, by simp⟩
        · cases e; exact h1
        · cases e; exact h2
        · simp [optValue, h3]
    obtain ⟨x1, x2, x3, x4⟩ := words hx
    obtain ⟨y1, y2, y3, y4⟩ := words hy
    obtain ⟨i1, i2, i3, i4⟩ := words hi
    obtain ⟨j1, j2, j3, j4⟩ := words hj
    have hne' : ¬(x' = none ∧ y' = none ∧ i' = none ∧ j' = none) := fun ⟨h1, h2, h3, h4⟩ =>
      hne ⟨x4 h1, y4 h2, i4 h3, j4 h4⟩
    refine key _ (whole_coord hf ho fun h => hne' ⟨h.2.1, h.2.2.1, h.2.2.2.1, h.2.2.2.2.1⟩) ?_
    rw [line_coord hf x1 y1 i1 j1 ho fun h => hne ⟨h.2.1, h.2.2.1, h.2.2.2.1, h.2.2.2.2.1⟩,
      line_coord hf x2 y2 i2 j2 ho fun h => hne' ⟨h.2.1, h.2.2.1, h.2.2.2.1, h.2.2.2.2.1⟩]
    simp only [coordOf, x3, y3, i3, j3]

theorem blocks_same {I J : FileSettings → Prop} {N : Str → Str → Prop} {inc : Includer} {A A' : List Str}
    (hN : ∀ st a a', I st → N a a' → IsWord a ∧ IsWord a' ∧
      parseGerberValue a st.format st.zeroSuppression = parseGerberValue a' st.format st.zeroSuppression)
    {bs bs' : List Str} (h : List.Forall₂ (SameBlock N) bs bs') (hw : ∀ b ∈ bs, Whole b ∧ Settled b)
    (hI : ∀ b ∈ bs, ∀ st l st' r, I st → parseLine inc b.length st b = .ok (l, st', r) → I st')
    (hIJ : ∀ st, I st → J st)
    (hA : ∀ st, J st → parseBlocks inc st [] A = parseBlocks inc st [] A') :
    ∀ st, I st → parseBlocks inc st [] (bs ++ A) = parseBlocks inc st [] (bs' ++ A') := by
  induction h with
  | nil => exact fun st hst => hA st (hIJ st hst)
  | @cons b b' bs bs' hb _ ih =>
    refine block_same hN hb (hw b (by simp)).1 (hw b (by simp)).2 (hI b (by simp)) ?_
    exact ih (fun c hc => hw c (by simp [hc])) fun c hc => hI c (by simp [hc])

/-! ## Parameters are read to their end -/

/-- The first match leaves nothing of any end of the text. -/
def Eats (line : Str) (a : Re) : Prop := ∀ s, s <:+ line → ∀ m, (a.run s).head? = some m → m.2.2 = []

theorem Eats.seq {line : Str} {a b : Re} (h : Eats line b) : Eats line (.seq a b) := by
  intro s hs m hm
  simp only [Re.run] at hm
  have : ∀ l : List M, (∀ x ∈ l, s = x.1 ++ x.2.2) → (l.flatMap fun x =>
      (b.run x.2.2).map fun y => (x.1 ++ y.1, x.2.1 ++ y.2.1, y.2.2)).head? = some m → m.2.2 = [] := by
    intro l
    induction l with
    | nil => intro _ h; simp at h
    | cons x l ih =>
      intro hl hm
      rw [List.flatMap_cons] at hm
      cases hb : b.run x.2.2 with
      | nil =>
        rw [hb] at hm
        exact ih (fun y hy => hl y (by simp [hy])) (by simpa using hm)
      | cons y r =>
        rw [hb] at hm
        simp only [List.map_cons, List.cons_append, List.head?_cons, Option.some.injEq] at hm
        rw [← hm]
        have hx := hl x (by simp)
        exact h x.2.2 (List.IsSuffix.trans ⟨x.1, hx.symm⟩ hs) y (by rw [hb]; rfl)
  exact this _ (Re.run_split a s) hm

theorem Eats.cat {line : Str} {a b : Re} (h : Eats line (cat [a, b])) :
    ∀ l : List Re, Eats line (Re.cat (l ++ [a, b]))
  | [] => h
  | [c] => Eats.seq (a := c) h
  | c :: d :: l => Eats.seq (a := c) (Eats.cat h (d :: l))

theorem eats_wrap {body : Str} (hb : '*' ∉ body) (l : List Re) : Eats (body ++ ['*', '%']) (wrap l) := by
  unfold wrap
  refine Eats.cat ?_ (opt (lit '%') :: l)
  intro s hs m hm
  have hs' : (∃ u, s = u ++ ['*', '%'] ∧ '*' ∉ u) ∨ s = ['%'] ∨ s = [] := by
    obtain ⟨p, hp⟩ := hs
    rcases List.append_eq_append_iff.1 hp with ⟨a, h1, h2⟩ | ⟨a, h1, h2⟩
    · refine Or.inl ⟨a, h2, fun h => hb ?_⟩
      rw [h1]; simp [h]
    · rcases a with - | ⟨a1, - | ⟨a2, a3⟩⟩
      · exact Or.inl ⟨[], by simpa using h2.symm, by simp⟩
      · simp only [List.cons_append, List.nil_append, List.cons.injEq] at h2
        exact Or.inr (Or.inl h2.2.symm)
      · simp only [List.cons_append, List.cons.injEq] at h2
        have := h2.2.2
        simp at this
        exact Or.inr (Or.inr this.2)
  have e : ∀ c t, c ≠ '*' → (cat [lit '*', opt (lit '%')]).run (c :: t) = [] := by
    intro c t hc
    simp [cat, Re.run, lit, hc]
  rcases hs' with ⟨u, rfl, hu⟩ | rfl | rfl
  · cases u with
    | nil =>
      have : (cat [lit '*', opt (lit '%')]).run (['*', '%'] : Str) = [(['*', '%'], [], []), (['*'], [], ['%'])] := by
        decide
      rw [List.nil_append, this] at hm
      cases hm; rfl
    | cons c u =>
      rw [List.cons_append, e c _ (by rintro rfl; exact hu (by simp))] at hm
      cases hm
  · rw [e '%' [] (by decide)] at hm; cases hm
  · simp [cat, Re.run, lit] at hm

theorem paramStmts_wrap : ∀ a ∈ paramStmts, ∃ l, a = wrap l := by
  intro a ha
  simp only [paramStmts, List.mem_cons, List.not_mem_nil, or_false] at ha
  rcases ha with rfl | rfl | rfl | rfl | rfl | rfl | rfl | rfl | rfl | rfl | rfl | rfl | rfl | rfl | rfl | rfl | rfl | rfl <;>
    exact ⟨_, rfl⟩

theorem other_fails {body : Str} : Fails reRegion ('%' :: body) ∧ Fails reQuad ('%' :: body) ∧
    Fails reComment ('%' :: body) ∧ Fails reDepUnit ('%' :: body) ∧ Fails reDepFormat ('%' :: body) ∧
    Fails reEof ('%' :: body) := by
  refine ⟨?_, ?_, ?_, ?_, ?_, ?_⟩
  · exact Fails.seq_left (Fails.grp (Fails.seq_left (Fails.lit (by decide))))
  · exact Fails.seq_left (Fails.grp (Fails.seq_left (Fails.lit (by decide))))
  · exact Fails.seq_left (Fails.lit (by decide))
  · exact Fails.seq_left (Fails.grp (Fails.seq_left (Fails.lit (by decide))))
  · exact Fails.seq_left (Fails.grp (Fails.seq_left (Fails.lit (by decide))))
  · exact Fails.seq_left (Fails.grp (Fails.seq_left (Fails.lit (by decide))))

/-- **C92.** A block that holds one parameter, known or not, is read to its end. -/
theorem C92_one_settled {b : Str} (h : OneParam b) : Settled b := by
  rcases h with ⟨body, rfl, h1, h2⟩ | ⟨name, body, rfl, hn, hb⟩
  · cases hm : matchMany paramStmts ('%' :: body ++ ['*', '%']) with
    | some v =>
      obtain ⟨m, r⟩ := v
      have hr : r = [] := by
        unfold matchMany at hm
        rw [List.findSome?_eq_some_iff] at hm
        obtain ⟨l1, a, l2, hl, ha, _⟩ := hm
        obtain ⟨l, rfl⟩ := paramStmts_wrap a (by rw [hl]; simp)
        unfold Re.pyMatch at ha
        cases hh : ((wrap l).run ('%' :: body ++ ['*', '%'])).head? with
        | none => rw [hh] at ha; cases ha
        | some x =>
          rw [hh] at ha
          have := eats_wrap (body := '%' :: body) (by simp [h1]) l _ (List.suffix_refl _) x hh
          simp only [Option.map_some, Option.some.injEq] at ha
          rw [ha] at this
          exact this
      subst hr
      exact settled_of_match hm
    | none =>
      intro inc st l st' r h
      have hs : step st ('%' :: body ++ ['*', '%']) = .ok (.yield (.unknown ('%' :: body ++ ['*', '%'])) st []) := by
        obtain ⟨f1, f2, f3, f4, f5, f6⟩ := other_fails (body := body ++ ['*', '%'])
        unfold step
        rw [if_neg (by simp)]
        simp only [List.cons_append] at hm ⊢
        rw [(coord_fails_head (by decide)).pyMatch, (aperture_fails_head (by decide) (by decide)).pyMatch, hm]
        simp only [f1.pyMatch, f2.pyMatch, f3.pyMatch, f4.pyMatch, f5.pyMatch, f6.pyMatch]
        rw [if_pos (by simp)]
      have hnil : ∀ n st, parseLine inc n st [] = .ok ([], st, []) := by
        intro n st; cases n <;> simp [parseLine]
      rw [show ('%' :: body ++ ['*', '%']).length = (body ++ ['*', '%']).length + 1 by simp, parseLine,
        if_neg (by simp), hs] at h
      simp only [bind, Except.bind, hnil] at h
      cases h; rfl
  · exact C92_macro_settled hn hb

/-- **C92.** Parameters may be broken into lines anywhere, if every block with `%` holds one parameter.
Missing: several parameters in a block. -/
theorem C92_broken_one_partial {bs : List Str} {t t' : Str} (h : Layout true false bs t)
    (h' : Layout true false bs t') (hs : ∀ b ∈ bs, b.head? = some '%' → OneParam b)
    (fs : Str → Option Str) : parseText fs t = parseText fs t' :=
  C92_broken_partial h h' (fun b hb hp => C92_one_settled (hs b hb hp)) fs

/-! ## The format stays -/

private theorem bind_ok'' {α β : Type} {x : PyR α} {f : α → PyR β} {b : β} (h : (x >>= f) = .ok b) :
    ∃ a, x = .ok a ∧ f a = .ok b := by
  cases x with
  | error e => cases h
  | ok a => exact ⟨a, rfl, h⟩

theorem lookup_mem {n : String} {v : Str} : ∀ {cs : Caps}, cs.lookup n = some v → (n, v) ∈ cs
  | [], h => by simp at h
  | (k, w) :: cs, h => by
    rw [List.lookup_cons] at h
    split at h
    · rename_i e
      cases h
      rw [eq_of_beq e]
      simp
    · exact List.mem_cons_of_mem _ (lookup_mem h)

/-- Everything captured is in the text. -/
theorem run_caps (a : Re) (s : Str) : ∀ m ∈ a.run s, ∀ g ∈ m.2.1, g.2 <:+: s := by
  induction a generalizing s with
  | chr p =>
    cases s with
    | nil => simp [Re.run]
    | cons c s =>
      intro m hm
      simp only [Re.run] at hm
      split at hm <;> simp at hm
      subst hm; simp
  | eps => intro m hm; simp [Re.run] at hm; subst hm; simp
  | seq a b iha ihb =>
    intro m hm g hg
    simp only [Re.run, List.mem_flatMap, List.mem_map] at hm
    obtain ⟨x, hx, y, hy, rfl⟩ := hm
    rcases List.mem_append.1 hg with hg | hg
    · exact iha s x hx g hg
    · have h1 := Re.run_split a s x hx
      exact List.IsInfix.trans (ihb _ y hy g hg) ⟨x.1, [], by rw [List.append_nil]; exact h1.symm⟩
  | alt a b iha ihb =>
    intro m hm
    simp only [Re.run, List.mem_append] at hm
    exact hm.elim (iha s m) (ihb s m)
  | star p =>
    intro m hm
    simp only [Re.run, List.mem_map] at hm
    obtain ⟨x, hx, rfl⟩ := hm
    simp
  | grp n a ih =>
    intro m hm g hg
    simp only [Re.run, List.mem_map] at hm
    obtain ⟨x, hx, rfl⟩ := hm
    rcases List.mem_cons.1 hg with rfl | hg
    · exact ⟨[], x.2.2, by simpa using (Re.run_split a s x hx).symm⟩
    · exact ih s x hx g hg

theorem matchMany_caps {l : List Re} {s r : Str} {cs : Caps} (hm : matchMany l s = some (cs, r)) (n : String) :
    reqGroup cs n <:+: s := by
  unfold matchMany at hm
  rw [List.findSome?_eq_some_iff] at hm
  obtain ⟨l1, a, l2, rfl, ha, _⟩ := hm
  unfold Re.pyMatch at ha
  unfold reqGroup Caps.get
  cases hl : cs.lookup n with
  | none => exact List.nil_infix
  | some v =>
    cases hr : a.run s with
    | nil => rw [hr] at ha; cases ha
    | cons x t =>
      rw [hr] at ha
      simp only [List.head?_cons, Option.map_some, Option.some.injEq] at ha
      refine run_caps a s x (by rw [hr]; simp) (n, v) ?_
      rw [ha]
      exact lookup_mem hl

/-- The format in force. -/
def Format (i d : ℕ) (zs : String) (st : FileSettings) : Prop := st.format = (i, d) ∧ st.zeroSuppression = zs

/-- The parameter does not touch the format and is no include. -/
def Keeps (i d : ℕ) (zs : String) (x : PyR ParamAct) : Prop :=
  ∀ act, x = .ok act → (∀ f, act ≠ .incl f) ∧ ∀ s st', act = .stmt s st' → Format i d zs st'

theorem Keeps.ite {i d : ℕ} {zs : String} {c : Prop} [Decidable c] {a b : PyR ParamAct}
    (ha : c → Keeps i d zs a) (hb : ¬c → Keeps i d zs b) : Keeps i d zs (if c then a else b) := by
  by_cases h : c
  · rw [if_pos h]; exact ha h
  · rw [if_neg h]; exact hb h

theorem Keeps.stmt {i d : ℕ} {zs : String} {s : Stmt} {st : FileSettings} (h : Format i d zs st) :
    Keeps i d zs (.ok (.stmt s st)) := by
  rintro act ⟨⟩
  exact ⟨by simp, by rintro s st' ⟨⟩; exact h⟩

theorem Keeps.bind {i d : ℕ} {zs : String} {α : Type} {x : PyR α} {f : α → PyR ParamAct} (h : ∀ a, Keeps i d zs (f a)) :
    Keeps i d zs (x >>= f) := by
  intro act ha
  obtain ⟨a, _, ha⟩ := bind_ok'' ha
  exact h a act ha

theorem paramStmt_format {i d : ℕ} {zs : String} {st : FileSettings} {line : Str} {m : Caps} (hst : Format i d zs st)
    (h1 : reqGroup m "param" ≠ ['F', 'S']) (h2 : reqGroup m "param" ≠ ['I', 'F']) :
    Keeps i d zs (paramStmt st line m) := by
  unfold paramStmt
  refine .ite (fun e => absurd e h1) fun _ => ?_
  refine .ite (fun _ => .stmt hst) fun _ => ?_
  refine .ite (fun _ => .stmt hst) fun _ => ?_
  refine .ite (fun _ => .bind fun _ => .bind fun _ => .stmt hst) fun _ => ?_
  refine .ite (fun _ => .bind fun _ => .stmt hst) fun _ => ?_
  refine .ite (fun _ => .bind fun _ => .bind fun _ => .stmt hst) fun _ => ?_
  refine .ite (fun e => absurd e h2) fun _ => ?_
  refine .ite (fun _ => .stmt hst) fun _ => ?_
  refine .ite (fun _ => .stmt hst) fun _ => ?_
  refine .ite (fun _ => .stmt hst) fun _ => ?_
  refine .ite (fun _ => .stmt hst) fun _ => ?_
  refine .ite (fun _ => .bind fun _ => .stmt hst) fun _ => ?_
  refine .ite (fun _ => .bind fun _ => .bind fun _ => .stmt hst) fun _ => ?_
  exact .ite (fun _ => .stmt hst) fun _ => .stmt hst

theorem step_format {i d : ℕ} {zs : String} {st : FileSettings} {line : Str} {x : StepRes} (hst : Format i d zs st)
    (h1 : ¬['F', 'S'] <:+: line) (h2 : ¬['I', 'F'] <:+: line) (h : step st line = .ok x) :
    (∀ f r, x ≠ .incl f r) ∧ ∀ s st' r, x = .yield s st' r → Format i d zs st' := by
  unfold step at h
  split at h
  · cases h; exact ⟨by simp, by simp⟩
  split at h
  · obtain ⟨c, _, h⟩ := bind_ok'' h
    cases h
    exact ⟨by simp, by rintro s st' r ⟨⟩; exact hst⟩
  split at h
  · obtain ⟨c, _, h⟩ := bind_ok'' h
    cases h
    exact ⟨by simp, by rintro s st' r ⟨⟩; exact hst⟩
  split at h
  · rename_i m r hm
    obtain ⟨act, ha, h⟩ := bind_ok'' h
    have hp := matchMany_caps hm "param"
    have key := paramStmt_format hst (fun e => h1 (e ▸ hp)) (fun e => h2 (e ▸ hp)) act ha
    cases act with
    | incl f => exact absurd rfl (key.1 f)
    | stmt s st1 =>
      cases h
      exact ⟨by simp, by rintro s st' r ⟨⟩; exact key.2 _ _ rfl⟩
  split at h
  · cases h; exact ⟨by simp, by rintro s st' r ⟨⟩; exact hst⟩
  split at h
  · cases h; exact ⟨by simp, by rintro s st' r ⟨⟩; exact hst⟩
  split at h
  · cases h; exact ⟨by simp, by rintro s st' r ⟨⟩; exact hst⟩
  split at h
  · cases h; exact ⟨by simp, by rintro s st' r ⟨⟩; exact hst⟩
  split at h
  · cases h; exact ⟨by simp, by rintro s st' r ⟨⟩; exact hst⟩
  split at h
  · cases h; exact ⟨by simp, by rintro s st' r ⟨⟩; exact hst⟩
  split at h
  · cases h; exact ⟨by simp, by rintro s st' r ⟨⟩; exact hst⟩
  · cases h; exact ⟨by simp, by simp⟩

theorem line_format {i d : ℕ} {zs : String} {inc : Includer} : ∀ (n : ℕ) {st : FileSettings} {line : Str}, Format i d zs st →
    ¬['F', 'S'] <:+: line → ¬['I', 'F'] <:+: line → ∀ {l : List Stmt} {st' : FileSettings} {r : Str},
    parseLine inc n st line = .ok (l, st', r) → Format i d zs st' := by
  intro n
  induction n with
  | zero => intro st line hst _ _ l st' r h; simp only [parseLine] at h; cases h; exact hst
  | succ n ih =>
    intro st line hst h1 h2 l st' r h
    rw [parseLine] at h
    by_cases hl : line = []
    · rw [if_pos hl] at h; cases h; exact hst
    rw [if_neg hl] at h
    cases hs : step st line with
    | error e => rw [hs] at h; cases h
    | ok x =>
      have hx := step_format hst h1 h2 hs
      have hsu := (step_suffix hs).1
      have sub : ∀ q, q <:+ line → ¬['F', 'S'] <:+: q ∧ ¬['I', 'F'] <:+: q := fun q hq =>
        ⟨fun k => h1 (k.trans hq.isInfix), fun k => h2 (k.trans hq.isInfix)⟩
      rw [hs] at h
      cases x with
      | stop => cases h; exact hst
      | eat q => exact ih hst (sub q (hsu q rfl)).1 (sub q (hsu q rfl)).2 h
      | yield s st1 q =>
        obtain ⟨v, hv, h⟩ := bind_ok'' h
        obtain ⟨a, b, c⟩ := v
        cases h
        exact ih (hx.2 _ _ _ rfl) (sub q (hsu q rfl)).1 (sub q (hsu q rfl)).2 hv
      | incl f q => exact absurd rfl (hx.1 f q)

/-! ## Blocks of a layout -/

theorem layout_whole {seen : Bool} {bs : List Str} {t : Str} (h : Layout false seen bs t)
    (hs : ∀ b ∈ bs, b.head? = some '%' → OneParam b) : ∀ b ∈ bs, Whole b ∧ Settled b := by
  induction h with
  | done _ => simp
  | @block seen gap c body bs t _ hc hp hst _ _ ih =>
    intro b hb
    rcases List.mem_cons.1 hb with rfl | hb
    · have hpc : c ≠ '%' := (hp c (by simp)).1
      refine ⟨⟨by simp, strip_ends hc (by decide), by simp [isOpenParam, hpc]⟩, ?_⟩
      intro inc st l st' r h
      exact star_settled inc _ st _ l st' r le_rfl (Or.inr ⟨c :: body, rfl⟩) h
    · exact ih (fun b hb => hs b (by simp [hb])) b hb
  | @param seen gap body bs t _ _ hp _ ih =>
    intro b hb
    rcases List.mem_cons.1 hb with rfl | hb
    · exact ⟨⟨by simp, strip_ends (by decide) (by decide), by simp [isOpenParam]⟩,
        C92_one_settled (hs _ (by simp) (by simp))⟩
    · exact ih (fun b hb => hs b (by simp [hb])) b hb
  | broken h | closed h => cases h

theorem parse_layout {bs bs' : List Str} {t t' : Str} (h : Layout false false bs t) (h' : Layout false false bs' t')
    (he : ∀ inc st, parseBlocks inc st [] bs = parseBlocks inc st [] bs') (fs : Str → Option Str) :
    parseText fs t = parseText fs t' := by
  unfold parseText parseData
  simp only [splitCommands]
  have k := layout_go h
  have k' := layout_go h'
  rw [Bool.not_false] at k k'
  rw [k _ (by simp) _ _ (Or.inl rfl) fun _ => rfl, k' _ (by simp) _ _ (Or.inl rfl) fun _ => rfl, he]

/-! ## Numbers -/

theorem SamePlus.reads {a b : Str} (h : SamePlus a b) : IsWord a ∧ IsWord b ∧
    ∀ f zs, parseGerberValue a f zs = parseGerberValue b f zs := by
  cases h with
  | same h => exact ⟨h, h, fun _ _ => rfl⟩
  | plus h1 h2 =>
    exact ⟨⟨[], a, rfl, by simp, h1, h2⟩, ⟨['+'], a, rfl, by simp, h1, h2⟩, fun f zs =>
      (parse_plus f.1 f.2 (digits_not_mem h2 rfl) zs).symm⟩
  | unplus h1 h2 =>
    exact ⟨⟨['+'], b, rfl, by simp, h1, h2⟩, ⟨[], b, rfl, by simp, h1, h2⟩, fun f zs =>
      parse_plus f.1 f.2 (digits_not_mem h2 rfl) zs⟩

theorem Means.isWord {i d : ℕ} {lead : Bool} {a : Str} {q : ℚ} (h : Means i d lead a q) : IsWord a := by
  cases h with
  | plain h1 h2 _ => exact ⟨[], _, rfl, by simp, h1, h2⟩
  | plus h1 h2 _ => exact ⟨['+'], _, rfl, by simp, h1, h2⟩
  | minus h1 h2 _ => exact ⟨['-'], _, rfl, by simp, h1, h2⟩

theorem placed_reads {i d : ℕ} {lead : Bool} {s : Str} (hi : i ≤ 6) (hd : d ≤ 7) (h1 : s ≠ [])
    (h2 : s.all isDig = true) (h3 : s.length ≤ i + d) :
    parseGerberValue s (i, d) (if lead then "leading" else "trailing") = .ok (placed i d lead s) := by
  cases lead with
  | true => exact C05_parse_leading h2 h1 hi hd h3
  | false => exact C05_parse_trailing h2 h1 hi hd h3

theorem Means.reads {i d : ℕ} {lead : Bool} {a : Str} {q : ℚ} (hi : i ≤ 6) (hd : d ≤ 7) (h : Means i d lead a q) :
    parseGerberValue a (i, d) (if lead then "leading" else "trailing") = .ok q := by
  cases h with
  | plain h1 h2 h3 => exact placed_reads hi hd h1 h2 h3
  | plus h1 h2 h3 =>
    rw [parse_plus _ _ (digits_not_mem h2 rfl)]
    exact placed_reads hi hd h1 h2 h3
  | minus h1 h2 h3 =>
    obtain ⟨r, k1, k2, _⟩ := C05_parse_sign h2 h1 hi hd (if lead then "leading" else "trailing")
    rw [placed_reads hi hd h1 h2 h3] at k1
    cases k1
    exact k2

/-! ## Theorems -/

/-- **C94.** Plus signs in the coordinate blocks of a Gerber text make no difference: the same statements
are read.  Missing: blocks that hold several parameters. -/
theorem C94_plus_partial {bs bs' : List Str} {t t' : Str} (h : Layout false false bs t)
    (h' : Layout false false bs' t') (hb : List.Forall₂ (SameBlock SamePlus) bs bs')
    (hs : ∀ b ∈ bs, b.head? = some '%' → OneParam b) (fs : Str → Option Str) :
    parseText fs t = parseText fs t' := by
  refine parse_layout h h' (fun inc st => ?_) fs
  have := blocks_same (I := fun _ => True) (J := fun _ => True) (N := SamePlus) (inc := inc) (A := []) (A' := [])
    (fun st a a' _ hn => ⟨hn.reads.1, hn.reads.2.1, hn.reads.2.2 _ _⟩) hb (layout_whole h hs)
    (fun _ _ _ _ _ _ _ _ => trivial) (fun _ _ => trivial) (fun _ _ => rfl) st trivial
  simpa using this

theorem line_formatBlock {inc : Includer} {st : FileSettings} {lead : Bool} {n x1 x2 y1 y2 : Char}
    (hn : oneOf ['A', 'I'] n = true) (h1 : oneOf ['0', '1', '2', '3', '4', '5', '6', '7'] x1 = true)
    (h2 : oneOf ['0', '1', '2', '3', '4', '5', '6', '7'] x2 = true)
    (h3 : oneOf ['0', '1', '2', '3', '4', '5', '6', '7'] y1 = true)
    (h4 : oneOf ['0', '1', '2', '3', '4', '5', '6', '7'] y2 = true) {l : List Stmt} {st' : FileSettings} {r : Str}
    (h : parseLine inc (formatBlock lead n x1 x2 y1 y2).length st (formatBlock lead n x1 x2 y1 y2) = .ok (l, st', r)) :
    r = [] ∧ Format (digVal x1) (digVal x2) (if lead then "leading" else "trailing") st' := by
  have hm := match_fs (z := if lead then 'L' else 'T') (by cases lead <;> rfl) hn h1 h2 h3 h4
  have hs : step st (formatBlock lead n x1 x2 y1 y2) = .ok (.yield
      (.fs (if lead then "leading" else "trailing") (if n = 'A' then "absolute" else "incremental") (digVal x1, digVal x2))
      { (st.setZeroSuppression (if lead then "leading" else "trailing")) with
        format := (digVal x1, digVal x2), notation_ := if n = 'A' then "absolute" else "incremental" } []) := by
    refine step_param hm ?_
    cases lead <;>
      simp [paramStmt, reqGroup, Caps.get, List.lookup, fsFromDict, bind, Except.bind]
  have hnil : ∀ n st, parseLine inc n st [] = .ok ([], st, []) := by
    intro n st; cases n <;> simp [parseLine]
  rw [show (formatBlock lead n x1 x2 y1 y2).length = 12 + 1 by simp [formatBlock], parseLine,
    if_neg (by simp [formatBlock]), hs] at h
  simp only [bind, Except.bind, hnil] at h
  cases h
  exact ⟨rfl, rfl, by cases lead <;> rfl⟩

/-- **C94.** Behind a format statement, plus signs and suppressed zeros in the coordinate blocks make no
difference: the same statements are read.  Missing: a further format statement or an included file behind
it, blocks that hold several parameters, and more digits than the format has (`C94_long_violated`). -/
theorem C94_zeros_partial {pre bs bs' : List Str} {t t' : Str} {lead : Bool} {n x1 x2 y1 y2 : Char}
    (h : Layout false false (pre ++ formatBlock lead n x1 x2 y1 y2 :: bs) t)
    (h' : Layout false false (pre ++ formatBlock lead n x1 x2 y1 y2 :: bs') t')
    (hn : n ∈ ['A', 'I']) (h1 : x1 ∈ ['0', '1', '2', '3', '4', '5', '6'])
    (h2 : x2 ∈ ['0', '1', '2', '3', '4', '5', '6', '7']) (h3 : y1 ∈ ['0', '1', '2', '3', '4', '5', '6', '7'])
    (h4 : y2 ∈ ['0', '1', '2', '3', '4', '5', '6', '7'])
    (hb : List.Forall₂ (SameBlock (SameIn (digVal x1) (digVal x2) lead)) bs bs')
    (hf : ∀ b ∈ bs, ¬['F', 'S'] <:+: b ∧ ¬['I', 'F'] <:+: b)
    (hs : ∀ b ∈ pre ++ bs, b.head? = some '%' → OneParam b) (fs : Str → Option Str) :
    parseText fs t = parseText fs t' := by
  have o1 : oneOf ['A', 'I'] n = true := by simpa [oneOf] using hn
  have o2 : oneOf ['0', '1', '2', '3', '4', '5', '6', '7'] x1 = true := by
    simp only [oneOf, List.elem_eq_mem, decide_eq_true_eq, List.mem_cons, List.not_mem_nil, or_false] at h1 ⊢
    tauto
  have o3 : oneOf ['0', '1', '2', '3', '4', '5', '6', '7'] x2 = true := by simpa [oneOf] using h2
  have o4 : oneOf ['0', '1', '2', '3', '4', '5', '6', '7'] y1 = true := by simpa [oneOf] using h3
  have o5 : oneOf ['0', '1', '2', '3', '4', '5', '6', '7'] y2 = true := by simpa [oneOf] using h4
  have hi : digVal x1 ≤ 6 := by
    simp only [List.mem_cons, List.not_mem_nil, or_false] at h1
    rcases h1 with rfl | rfl | rfl | rfl | rfl | rfl | rfl <;> decide
  have hd : digVal x2 ≤ 7 := by
    simp only [List.mem_cons, List.not_mem_nil, or_false] at h2
    rcases h2 with rfl | rfl | rfl | rfl | rfl | rfl | rfl | rfl <;> decide
  have fmt : OneParam (formatBlock lead n x1 x2 y1 y2) := by
    have dig : ∀ {c : Char}, oneOf ['0', '1', '2', '3', '4', '5', '6', '7'] c = true → '*' ≠ c ∧ '%' ≠ c := by
      intro c hc
      constructor <;> (rintro rfl; revert hc; decide)
    have hn' : '*' ≠ n ∧ '%' ≠ n := by constructor <;> (rintro rfl; revert o1; decide)
    have hl : '*' ≠ (if lead then 'L' else 'T') ∧ '%' ≠ (if lead then 'L' else 'T') := by cases lead <;> decide
    refine Or.inl ⟨['F', 'S', if lead then 'L' else 'T', n, 'X', x1, x2, 'Y', y1, y2], rfl, ?_, ?_⟩
    · simp [hl.1, hn'.1, (dig o2).1, (dig o3).1, (dig o4).1, (dig o5).1]
    · simp [hl.2, hn'.2, (dig o2).2, (dig o3).2, (dig o4).2, (dig o5).2]
  have hw := layout_whole h (by
    intro b hb hp
    rcases List.mem_append.1 hb with hb | hb
    · exact hs b (by simp [hb]) hp
    rcases List.mem_cons.1 hb with rfl | hb
    · exact fmt
    · exact hs b (by simp [hb]) hp)
  refine parse_layout h h' (fun inc st => ?_) fs
  have tail := blocks_same (I := Format (digVal x1) (digVal x2) (if lead then "leading" else "trailing"))
    (J := fun _ => True) (N := SameIn (digVal x1) (digVal x2) lead) (inc := inc) (A := []) (A' := [])
    (by
      rintro st a a' ⟨e1, e2⟩ ⟨q, q1, q2⟩
      refine ⟨q1.isWord, q2.isWord, ?_⟩
      rw [e1, e2, q1.reads hi hd, q2.reads hi hd]) hb (fun b hb => hw b (by simp [hb]))
    (fun b hb st l st' r hst hp => line_format _ hst (hf b hb).1 (hf b hb).2 hp) (fun _ _ => trivial) (fun _ _ => rfl)
  have mid := block_same (I := fun _ => True) (N := fun _ _ => False) (inc := inc) (fun _ _ _ _ h => h.elim)
    (.same (formatBlock lead n x1 x2 y1 y2)) (hw _ (by simp)).1 (hw _ (by simp)).2
    (fun st l st' r _ hp => (line_formatBlock o1 o2 o3 o4 o5 hp).2) tail
  have front := blocks_same (I := fun _ => True) (J := fun _ => True) (N := fun _ _ => False) (inc := inc)
    (bs := pre) (bs' := pre) (fun _ _ _ _ h => h.elim) (List.forall₂_same.2 fun b _ => .same b)
    (fun b hb => hw b (by simp [hb])) (fun _ _ _ _ _ _ _ _ => trivial) (fun _ _ => trivial) mid st trivial
  simpa using front

/-- The coordinates of a text: `none` if it is not read as one coordinate statement. -/
def oneCoord (t : String) : Option (Option ℚ × Option ℚ) :=
  match parseText (fun _ => none) t.toList with
  | .ok ([.fs _ _ _, .coord c], _) => some (c.x, c.y)
  | _ => none

/-- Words in another order are not read as coordinates. -/
theorem C94_order_violated : oneCoord "%FSLAX24Y24*%\nX10000Y20000D01*" = some (some 1, some 2) ∧
    oneCoord "%FSLAX24Y24*%\nY20000X10000D01*" = none := by decide +kernel

/-- Numbers with a decimal point, which `parse_gerber_value` could read, are not read as coordinates. -/
theorem C94_point_violated : oneCoord "%FSLAX24Y24*%\nX1.0Y2.0D01*" = none ∧
    parseGerberValue "1.0".toList (2, 4) "leading" = .ok 1 := by decide +kernel

/-- Zeros beyond the digits of the format change the value. -/
theorem C94_long_violated : oneCoord "%FSLAX24Y24*%\nX10000Y0D01*" = some (some 1, some 0) ∧
    oneCoord "%FSLAX24Y24*%\nX0010000Y0D01*" = some (some (1 / 10), some 0) := by decide +kernel

/-! ## Examples -/

local instance (s : Str) : Decidable (Blank s) := by unfold Blank; infer_instance
local instance (s : Str) : Decidable (Plain s) := by unfold Plain; infer_instance

/-- Two texts with the same coordinates in a format of 2.4 places without leading zeros. -/
example : Layout false false (["%MOIN*%".toList] ++ formatBlock true 'A' '2' '4' '2' '4' :: ["G01X+010000Y-5D01*".toList])
      "%MOIN*%%FSLAX24Y24*%G01X+010000Y-5D01*".toList ∧
    Layout false false (["%MOIN*%".toList] ++ formatBlock true 'A' '2' '4' '2' '4' :: ["G01X10000Y-0005D01*".toList])
      "%MOIN*%\n%FSLAX24Y24*%\nG01X10000Y-0005D01*".toList ∧
    List.Forall₂ (SameBlock (SameIn (digVal '2') (digVal '4') true)) ["G01X+010000Y-5D01*".toList]
      ["G01X10000Y-0005D01*".toList] ∧
    (∀ b ∈ ["G01X+010000Y-5D01*".toList], ¬['F', 'S'] <:+: b ∧ ¬['I', 'F'] <:+: b) ∧
    OneParam "%MOIN*%".toList := by
  refine ⟨?_, ?_, ?_, by decide, Or.inl ⟨"MOIN".toList, rfl, by decide, by decide⟩⟩
  · refine Layout.param (gap := []) (body := "MOIN*".toList) (t := "%FSLAX24Y24*%G01X+010000Y-5D01*".toList)
      (by decide) (by decide) (by decide) ?_
    refine Layout.param (gap := []) (body := "FSLAX24Y24*".toList) (t := "G01X+010000Y-5D01*".toList)
      (by decide) (by decide) (by decide) ?_
    exact Layout.block (gap := []) (c := 'G') (body := "01X+010000Y-5D01".toList) (t := []) (by decide) rfl
      (by decide) (by decide) (by simp) (Layout.done (by decide))
  · refine Layout.param (gap := []) (body := "MOIN*".toList) (t := "\n%FSLAX24Y24*%\nG01X10000Y-0005D01*".toList)
      (by decide) (by decide) (by decide) ?_
    refine Layout.param (gap := "\n".toList) (body := "FSLAX24Y24*".toList) (t := "\nG01X10000Y-0005D01*".toList)
      (by decide) (by decide) (by decide) ?_
    exact Layout.block (gap := "\n".toList) (c := 'G') (body := "01X10000Y-0005D01".toList) (t := []) (by decide) rfl
      (by decide) (by decide) (by simp) (Layout.done (by decide))
  · refine .cons (SameBlock.coord (f := some "G01".toList) (x := some "+010000".toList) (x' := some "10000".toList)
      (y := some "-5".toList) (y' := some "-0005".toList) (i := none) (j := none) (i' := none) (j' := none)
      (op := some "D01".toList) ?_ ?_ (.some ⟨1, ?_, ?_⟩) (.some ⟨-5 / 10000, ?_, ?_⟩) .none .none) .nil
    · rintro s ⟨⟩; exact ⟨'1', by decide, Or.inl rfl⟩
    · rintro s ⟨⟩; exact ⟨'1', by decide, Or.inl rfl⟩
    · have := Means.plus (i := 2) (d := 4) (lead := true) (s := "010000".toList) (by decide) (by decide) (by decide)
      rwa [show placed 2 4 true "010000".toList = 1 by decide +kernel] at this
    · have := Means.plain (i := 2) (d := 4) (lead := true) (s := "10000".toList) (by decide) (by decide) (by decide)
      rwa [show placed 2 4 true "10000".toList = 1 by decide +kernel] at this
    · have := Means.minus (i := 2) (d := 4) (lead := true) (s := "5".toList) (by decide) (by decide) (by decide)
      rwa [show -placed 2 4 true "5".toList = -5 / 10000 by decide +kernel] at this
    · have := Means.minus (i := 2) (d := 4) (lead := true) (s := "0005".toList) (by decide) (by decide) (by decide)
      rwa [show -placed 2 4 true "0005".toList = -5 / 10000 by decide +kernel] at this

/-- Two texts that differ by a plus sign. -/
example : Layout false false ["%MOIN*%".toList, "X+10Y5D01*".toList] "%MOIN*%X+10Y5D01*".toList ∧
    Layout false false ["%MOIN*%".toList, "X10Y+5D01*".toList] "%MOIN*%X10Y+5D01*".toList ∧
    List.Forall₂ (SameBlock SamePlus) ["%MOIN*%".toList, "X+10Y5D01*".toList] ["%MOIN*%".toList, "X10Y+5D01*".toList] := by
  refine ⟨?_, ?_, .cons (.same _) (.cons (SameBlock.coord (f := none) (x := some "+10".toList) (x' := some "10".toList)
      (y := some "5".toList) (y' := some "+5".toList) (i := none) (j := none) (i' := none) (j' := none)
      (op := some "D01".toList) (by simp) ?_ (.some (.unplus (by decide) (by decide)))
      (.some (.plus (by decide) (by decide))) .none .none) .nil)⟩
  · refine Layout.param (gap := []) (body := "MOIN*".toList) (t := "X+10Y5D01*".toList)
      (by decide) (by decide) (by decide) ?_
    exact Layout.block (gap := []) (c := 'X') (body := "+10Y5D01".toList) (t := []) (by decide) rfl
      (by decide) (by decide) (by simp) (Layout.done (by decide))
  · refine Layout.param (gap := []) (body := "MOIN*".toList) (t := "X10Y+5D01*".toList)
      (by decide) (by decide) (by decide) ?_
    exact Layout.block (gap := []) (c := 'X') (body := "10Y+5D01".toList) (t := []) (by decide) rfl
      (by decide) (by decide) (by simp) (Layout.done (by decide))
  · rintro s ⟨⟩; exact ⟨'1', by decide, Or.inl rfl⟩

/-- A parameter the parser does not know. -/
example : OneParam "%TF.Part,Single*%".toList := Or.inl ⟨"TF.Part,Single".toList, rfl, by decide, by decide⟩

end Verif.Gerber
