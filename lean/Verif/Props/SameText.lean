import Verif.Props.GerberNumbers
import Verif.Props.Words

/-! # C95: Gerber texts that say the same show the same -/

namespace Verif.Gerber
open Verif.Py Verif.Py.Re Verif.Cam Verif.Utils

/-! ## Specification -/

/-- Digits before and behind the decimal point, and whether leading zeros are left out. -/
structure NumFormat where
  i : ℕ
  d : ℕ
  lead : Bool

/-- The same number; if the format is not known, only a plus sign may differ. -/
def SameNum : Option NumFormat → Str → Str → Prop
  | none, a, b => SamePlus a b
  | some f, a, b => SamePlus a b ∨ f.i ≤ 6 ∧ f.d ≤ 7 ∧ SameIn f.i f.d f.lead a b

/-- Blocks that say the same in every format. -/
inductive SameSaying : Str → Str → Prop
  /-- the selection of an aperture, with or without `G54`, with any number of leading zeros -/
  | aperture {p p' ds ds' : Str} : p ∈ ["".toList, "G54".toList, "G55".toList] → p' ∈ ["".toList, "G54".toList, "G55".toList] →
      ds ≠ [] → ds.all isDig = true → ds' ≠ [] → ds'.all isDig = true → natVal ds = natVal ds' →
      natVal ds ∉ [1, 2, 3] → SameSaying (p ++ 'D' :: (ds ++ ['*'])) (p' ++ 'D' :: (ds' ++ ['*']))
  /-- the end -/
  | eof {a b : String} : a ∈ ["M0*", "M1*", "M2*", "M00*", "M01*", "M02*"] →
      b ∈ ["M0*", "M1*", "M2*", "M00*", "M01*", "M02*"] → SameSaying a.toList b.toList
  | inch {a b : String} : a ∈ ["G70*", "%MOIN*%"] → b ∈ ["G70*", "%MOIN*%"] → SameSaying a.toList b.toList
  | metric {a b : String} : a ∈ ["G71*", "%MOMM*%"] → b ∈ ["G71*", "%MOMM*%"] → SameSaying a.toList b.toList

/-- Comments and names. -/
inductive IsRemark : Str → Prop
  | g04 {text : Str} : '*' ∉ text → IsRemark ("G04".toList ++ text ++ ['*'])
  | g4 {text : Str} : '*' ∉ text → IsRemark ("G4".toList ++ text ++ ['*'])
  | ln {text : Str} : '*' ∉ text → '\n' ∉ text → IsRemark ("%LN".toList ++ text ++ ['*', '%'])
  | in_ {text : Str} : '*' ∉ text → '\n' ∉ text → IsRemark ("%IN".toList ++ text ++ ['*', '%'])

/-- Blocks that say the same, read while this format is in force (`none`: not known which). -/
inductive SameText : Option NumFormat → List Str → List Str → Prop
  | nil {f : Option NumFormat} : SameText f [] []
  /-- any block; whatever it does to the format -/
  | any {f : Option NumFormat} {b : Str} {bs bs' : List Str} : SameText none bs bs' → SameText f (b :: bs) (b :: bs')
  /-- a block that does nothing to the format -/
  | same {f : Option NumFormat} {b : Str} {bs bs' : List Str} : ¬['F', 'S'] <:+: b → ¬['I', 'F'] <:+: b →
      SameText f bs bs' → SameText f (b :: bs) (b :: bs')
  /-- a block that sets the format -/
  | format {f : Option NumFormat} {lead : Bool} {n x1 x2 y1 y2 : Char} {bs bs' : List Str} : n ∈ ['A', 'I'] →
      (∀ c ∈ [x1, x2, y1, y2], c ∈ ['0', '1', '2', '3', '4', '5', '6', '7']) →
      SameText (some ⟨digVal x1, digVal x2, lead⟩) bs bs' →
      SameText f (formatBlock lead n x1 x2 y1 y2 :: bs) (formatBlock lead n x1 x2 y1 y2 :: bs')
  | coord {fm : Option NumFormat} {f x y i j op f' x' y' i' j' op' : Option Str} {bs bs' : List Str} :
      (∀ s, f = some s → IsCode 'G' s) → (∀ s, op = some s → IsCode 'D' s) →
      (∀ s, f' = some s → IsCode 'G' s) → (∀ s, op' = some s → IsCode 'D' s) →
      SameCode f f' → SameCode op op' → SameOpt (SameNum fm) x x' → SameOpt (SameNum fm) y y' → SameOpt (SameNum fm) i i' →
      SameOpt (SameNum fm) j j' → SameText fm bs bs' →
      SameText fm (coordText f x y i j op :: bs) (coordText f' x' y' i' j' op' :: bs')
  | saying {f : Option NumFormat} {b b' : Str} {bs bs' : List Str} : SameSaying b b' → SameText f bs bs' →
      SameText f (b :: bs) (b' :: bs')
  | left {f : Option NumFormat} {b : Str} {bs bs' : List Str} : IsRemark b → SameText f bs bs' → SameText f (b :: bs) bs'
  | right {f : Option NumFormat} {b : Str} {bs bs' : List Str} : IsRemark b → SameText f bs bs' → SameText f bs (b :: bs')
  /-- the function code in a block of its own -/
  | apart {fm : Option NumFormat} {g : Str} {x y i j op : Option Str} {bs bs' : List Str} : IsCode 'G' g →
      (∀ s, op = some s → IsCode 'D' s) → (∀ o ∈ [x, y, i, j], ∀ s, o = some s → IsWord s) →
      ¬(x = none ∧ y = none ∧ i = none ∧ j = none ∧ op = none) → SameText fm bs bs' →
      SameText fm (coordText (some g) x y i j op :: bs) ((g ++ ['*']) :: coordText none x y i j op :: bs')
  | joined {fm : Option NumFormat} {g : Str} {x y i j op : Option Str} {bs bs' : List Str} : IsCode 'G' g →
      (∀ s, op = some s → IsCode 'D' s) → (∀ o ∈ [x, y, i, j], ∀ s, o = some s → IsWord s) →
      ¬(x = none ∧ y = none ∧ i = none ∧ j = none ∧ op = none) → SameText fm bs bs' →
      SameText fm ((g ++ ['*']) :: coordText none x y i j op :: bs) (coordText (some g) x y i j op :: bs')

/-! ## Lines -/

theorem SameProgram.refl : ∀ l : List Stmt, SameProgram l l
  | [] => .nil
  | s :: l => .cons (.same s) (SameProgram.refl l)

theorem SameProgram.append {a a' b b' : List Stmt} (h : SameProgram a a') (h' : SameProgram b b') :
    SameProgram (a ++ b) (a' ++ b') := by
  induction h with
  | nil => exact h'
  | cons hs _ ih => exact .cons hs ih
  | left hs _ ih => exact .left hs ih
  | right hs _ ih => exact .right hs ih
  | apart hf hc _ ih => exact .apart hf hc ih
  | joined hf hc _ ih => exact .joined hf hc ih

/-- The line holds one statement. -/
theorem line_one {inc : Includer} {st st' : FileSettings} {line : Str} {s : Stmt} (hne : line ≠ [])
    (h : step st line = .ok (.yield s st' [])) : parseLine inc line.length st line = .ok ([s], st', []) := by
  obtain ⟨c, t, rfl⟩ := List.exists_cons_of_ne_nil hne
  have hnil : ∀ n st, parseLine inc n st [] = .ok ([], st, []) := by
    intro n st; cases n <;> simp [parseLine]
  rw [List.length_cons, parseLine, if_neg (by simp), h]
  simp [bind, Except.bind, hnil]

theorem step_remark {b : Str} (h : IsRemark b) (st : FileSettings) :
    ∃ s, Remark s ∧ step st b = .ok (.yield s st []) := by
  cases h with
  | @g04 text h => exact ⟨.comment text, trivial, (C90_comment st h []).1⟩
  | @g4 text h => exact ⟨.comment text, trivial, (C90_comment st h []).2⟩
  | @ln text h1 h2 =>
    have hd : text.all isDot = true := by
      rw [List.all_eq_true]; intro c hc
      have : c ≠ '\n' := by rintro rfl; exact h2 hc
      simp [isDot, this]
    refine ⟨.ln text, trivial, ?_⟩
    have := step_param (st := st) (st' := st) (s := .ln text) (match_ln hd)
      (by simp [paramStmt, reqGroup, Caps.get, List.lookup])
    simpa using this
  | @in_ text h1 h2 =>
    have hd : text.all isDot = true := by
      rw [List.all_eq_true]; intro c hc
      have : c ≠ '\n' := by rintro rfl; exact h2 hc
      simp [isDot, this]
    refine ⟨.in_ text, trivial, ?_⟩
    have := step_param (st := st) (st' := st) (s := .in_ text) (match_in hd)
      (by simp [paramStmt, reqGroup, Caps.get, List.lookup])
    simpa using this

theorem step_select {p ds : Str} (hp : p ∈ ["".toList, "G54".toList, "G55".toList]) (hne : ds ≠ [])
    (hds : ds.all isDig = true) (hv : natVal ds ∉ [1, 2, 3]) (st : FileSettings) :
    ∃ q, step st (p ++ 'D' :: (ds ++ ['*'])) = .ok (.yield (.aperture (natVal ds) q) st []) := by
  have hv' : natVal ds ≠ 1 ∧ natVal ds ≠ 2 ∧ natVal ds ≠ 3 := by simpa using hv
  have hg : natGroup (some ds) = .ok (natVal ds) := by simp [natGroup, pyInt_digits hds hne]
  simp only [List.mem_cons, List.not_mem_nil, or_false] at hp
  rcases hp with rfl | rfl | rfl
  · refine ⟨false, ?_⟩
    change step st ('D' :: (ds ++ ['*'])) = _
    unfold step
    rw [if_neg (by simp), (coord_fails_D hne hds hv').pyMatch, aperture_match hne hds]
    simp [Caps.get, List.lookup, hg, bind, Except.bind]
  · refine ⟨true, ?_⟩
    change step st ('G' :: '5' :: '4' :: 'D' :: (ds ++ ['*'])) = _
    unfold step
    rw [if_neg (by simp), (coord_fails_G (by decide)).pyMatch, aperture_match_dep hne hds]
    simp [Caps.get, List.lookup, hg, bind, Except.bind]
  · refine ⟨true, ?_⟩
    change step st ('G' :: '5' :: '5' :: 'D' :: (ds ++ ['*'])) = _
    have hm : reAperture.pyMatch ('G' :: '5' :: '5' :: 'D' :: (ds ++ ['*'])) =
        some ([("deprecated", ['G', '5', '5']), ("d", ds)], []) :=
      First.pyMatch (First.seq (First.opt_some (First.grp (First.alt_right
        (Fails.lit_seq (Fails.lit_seq (Fails.lit (by decide)))) (First.str ['G', '5', '5'] _)))) (First.seq First.lit (First.seq (digits_first hne hds
          (by intro c t h; cases h; rfl)) First.lit)))
    unfold step
    rw [if_neg (by simp), (coord_fails_G (by decide)).pyMatch, hm]
    simp [Caps.get, List.lookup, hg, bind, Except.bind]

theorem step_units (st : FileSettings) :
    step st "%MOIN*%".toList = .ok (.yield (.mo "inch") { st with units := "inch" } []) ∧
    step st "%MOMM*%".toList = .ok (.yield (.mo "metric") { st with units := "metric" } []) := by
  constructor
  · exact step_param (match_mo (Or.inr rfl)) (by simp [paramStmt, reqGroup, Caps.get, List.lookup])
  · exact step_param (match_mo (Or.inl rfl)) (by simp [paramStmt, reqGroup, Caps.get, List.lookup])

/-- What a saying does to the settings. -/
theorem step_saying {b b' : Str} (h : SameSaying b b') (st : FileSettings) :
    ∃ s s' u, Respelled s s' ∧ step st b = .ok (.yield s { st with units := u } []) ∧
      step st b' = .ok (.yield s' { st with units := u } []) := by
  have w : ∀ x ∈ words st, step st (x.1.toList ++ ['*']) = .ok (.yield x.2.1 x.2.2 []) := C90_words st []
  cases h with
  | aperture hp hp' h1 h2 h3 h4 h5 h6 =>
    obtain ⟨q, hq⟩ := step_select hp h1 h2 h6 st
    obtain ⟨q', hq'⟩ := step_select hp' h3 h4 (h5 ▸ h6) st
    rw [← h5] at hq'
    exact ⟨_, _, st.units, .aperture _ q q', hq, hq'⟩
  | eof ha hb =>
    have e : ∀ a ∈ ["M0*", "M1*", "M2*", "M00*", "M01*", "M02*"], step st a.toList = .ok (.yield .eof st []) := by
      intro a ha
      simp only [List.mem_cons, List.not_mem_nil, or_false] at ha
      rcases ha with rfl | rfl | rfl | rfl | rfl | rfl
      · simpa using w ("M0", .eof, st) (by simp [words])
      · simpa using w ("M1", .eof, st) (by simp [words])
      · simpa using w ("M2", .eof, st) (by simp [words])
      · simpa using w ("M00", .eof, st) (by simp [words])
      · simpa using w ("M01", .eof, st) (by simp [words])
      · simpa using w ("M02", .eof, st) (by simp [words])
    exact ⟨_, _, st.units, .same _, e _ ha, e _ hb⟩
  | inch ha hb =>
    have e : ∀ a ∈ ["G70*", "%MOIN*%"], step st a.toList = .ok (.yield (.mo "inch") { st with units := "inch" } []) := by
      intro a ha
      simp only [List.mem_cons, List.not_mem_nil, or_false] at ha
      rcases ha with rfl | rfl
      · simpa using w ("G70", .mo "inch", { st with units := "inch" }) (by simp [words])
      · exact (step_units st).1
    exact ⟨_, _, "inch", .same _, e _ ha, e _ hb⟩
  | metric ha hb =>
    have e : ∀ a ∈ ["G71*", "%MOMM*%"], step st a.toList = .ok (.yield (.mo "metric") { st with units := "metric" } []) := by
      intro a ha
      simp only [List.mem_cons, List.not_mem_nil, or_false] at ha
      rcases ha with rfl | rfl
      · simpa using w ("G71", .mo "metric", { st with units := "metric" }) (by simp [words])
      · exact (step_units st).2
    exact ⟨_, _, "metric", .same _, e _ ha, e _ hb⟩

/-! ## Blocks -/

/-- Both fail alike, or both give programs that say the same and leave the same settings. -/
def SaysSame (r r' : PyR (List Stmt × FileSettings)) : Prop :=
  (∃ e, r = .error e ∧ r' = .error e) ∨ ∃ l l' s, r = .ok (l, s) ∧ r' = .ok (l', s) ∧ SameProgram l l'

theorem blocks_eq {inc : Includer} {st : FileSettings} {b : Str} {bs : List Str} (hb : Whole b) :
    parseBlocks inc st [] (b :: bs) = (do
      let (l, st', rest) ← parseLine inc b.length st b
      let (l', st'') ← parseBlocks inc st' rest bs
      .ok (l ++ l', st'')) := by
  rw [parseBlocks]
  simp only [List.nil_append, hb.tidy, if_neg hb.ne, hb.closed, Bool.false_eq_true, if_false]

theorem agrees_step {inc : Includer} {st : FileSettings} {b b' : Str} {bs bs' : List Str} (hb : Whole b) (hb' : Whole b')
    (P : FileSettings → Prop)
    (h : (∃ e, parseLine inc b.length st b = .error e ∧ parseLine inc b'.length st b' = .error e) ∨
      ∃ l l' s, parseLine inc b.length st b = .ok (l, s, []) ∧ parseLine inc b'.length st b' = .ok (l', s, []) ∧
        SameProgram l l' ∧ P s)
    (hr : ∀ s, P s → SaysSame (parseBlocks inc s [] bs) (parseBlocks inc s [] bs')) :
    SaysSame (parseBlocks inc st [] (b :: bs)) (parseBlocks inc st [] (b' :: bs')) := by
  rw [blocks_eq hb, blocks_eq hb']
  rcases h with ⟨e, h1, h2⟩ | ⟨l, l', s, h1, h2, h3, h4⟩
  · rw [h1, h2]; exact Or.inl ⟨e, rfl, rfl⟩
  rw [h1, h2]
  rcases hr s h4 with ⟨e, k1, k2⟩ | ⟨m, m', s', k1, k2, k3⟩
  · simp only [bind, Except.bind, k1, k2]
    exact Or.inl ⟨e, rfl, rfl⟩
  · simp only [bind, Except.bind, k1, k2]
    exact Or.inr ⟨_, _, _, rfl, rfl, h3.append k3⟩

theorem agrees_left {inc : Includer} {st : FileSettings} {b : Str} {bs : List Str} {r : PyR (List Stmt × FileSettings)} (hb : Whole b)
    (h : IsRemark b) (hr : SaysSame (parseBlocks inc st [] bs) r) : SaysSame (parseBlocks inc st [] (b :: bs)) r := by
  obtain ⟨s, hs, h1⟩ := step_remark h st
  rw [blocks_eq hb, line_one hb.ne h1]
  rcases hr with ⟨e, k1, k2⟩ | ⟨m, m', s', k1, k2, k3⟩
  · simp only [bind, Except.bind, k1]
    exact Or.inl ⟨e, rfl, k2⟩
  · simp only [bind, Except.bind, k1]
    exact Or.inr ⟨_, _, _, rfl, k2, .left hs k3⟩

theorem agrees_right {inc : Includer} {st : FileSettings} {b : Str} {bs : List Str} {r : PyR (List Stmt × FileSettings)} (hb : Whole b)
    (h : IsRemark b) (hr : SaysSame r (parseBlocks inc st [] bs)) : SaysSame r (parseBlocks inc st [] (b :: bs)) := by
  obtain ⟨s, hs, h1⟩ := step_remark h st
  rw [blocks_eq hb, line_one hb.ne h1]
  rcases hr with ⟨e, k1, k2⟩ | ⟨m, m', s', k1, k2, k3⟩
  · simp only [bind, Except.bind, k2]
    exact Or.inl ⟨e, k1, rfl⟩
  · simp only [bind, Except.bind, k2]
    exact Or.inr ⟨_, _, _, k1, rfl, .right hs k3⟩

/-- The known format is in force. -/
def InForce : Option NumFormat → FileSettings → Prop
  | none, _ => True
  | some f, st => Format f.i f.d (if f.lead then "leading" else "trailing") st

theorem SameNum.reads {f : Option NumFormat} {a b : Str} (h : SameNum f a b) {st : FileSettings} (hst : InForce f st) :
    IsWord a ∧ IsWord b ∧
      parseGerberValue a st.format st.zeroSuppression = parseGerberValue b st.format st.zeroSuppression := by
  have plus : SamePlus a b → _ := fun h => (⟨h.reads.1, h.reads.2.1, h.reads.2.2 _ _⟩ :
    IsWord a ∧ IsWord b ∧
      parseGerberValue a st.format st.zeroSuppression = parseGerberValue b st.format st.zeroSuppression)
  cases f with
  | none => exact plus h
  | some f =>
    rcases h with h | ⟨hi, hd, q, q1, q2⟩
    · exact plus h
    · refine ⟨q1.isWord, q2.isWord, ?_⟩
      obtain ⟨e1, e2⟩ := hst
      rw [e1, e2, q1.reads hi hd, q2.reads hi hd]

theorem InForce.units {f : Option NumFormat} {st : FileSettings} (h : InForce f st) (u : String) :
    InForce f { st with units := u } := by
  cases f <;> exact h

/-- A coordinate block with a function code. -/
theorem one_block {inc : Includer} {st : FileSettings} {g : Str} {x y i j op : Option Str} {bs : List Str} (hg : IsCode 'G' g)
    (ho : ∀ s, op = some s → IsCode 'D' s) (hx : ∀ o ∈ [x, y, i, j], ∀ s, o = some s → IsWord s) :
    parseBlocks inc st [] (coordText (some g) x y i j op :: bs) = (do
      let c ← coordOf st (some g) x y i j op
      let (l', s) ← parseBlocks inc st [] bs
      .ok (.coord c :: l', s)) := by
  have hf : ∀ s, some g = some s → IsCode 'G' s := by rintro s ⟨⟩; exact hg
  rw [blocks_eq (whole_coord hf ho (by simp)), line_coord hf (hx x (by simp)) (hx y (by simp)) (hx i (by simp))
    (hx j (by simp)) ho (by simp)]
  cases coordOf st (some g) x y i j op <;> rfl

/-- The same in two blocks. -/
theorem two_blocks {inc : Includer} {st : FileSettings} {g : Str} {x y i j op : Option Str} {bs : List Str} (hg : IsCode 'G' g)
    (ho : ∀ s, op = some s → IsCode 'D' s) (hx : ∀ o ∈ [x, y, i, j], ∀ s, o = some s → IsWord s)
    (hne : ¬(x = none ∧ y = none ∧ i = none ∧ j = none ∧ op = none)) :
    parseBlocks inc st [] ((g ++ ['*']) :: coordText none x y i j op :: bs) = (do
      let c ← coordOf st (some g) x y i j op
      let (l', s) ← parseBlocks inc st [] bs
      .ok (.coord { function := some g } :: .coord { c with function := none } :: l', s)) := by
  have hf : ∀ s, some g = some s → IsCode 'G' s := by rintro s ⟨⟩; exact hg
  have h1 : g ++ ['*'] = coordText (some g) none none none none none := by simp [coordText, word]
  have hne' : ¬((none : Option Str) = none ∧ x = none ∧ y = none ∧ i = none ∧ j = none ∧ op = none) := fun h => hne h.2
  rw [h1, blocks_eq (whole_coord hf (by simp) (by simp)), line_coord hf (by simp) (by simp) (by simp) (by simp) (by simp) (by simp)]
  have h2 : coordOf st (some g) none none none none none = .ok { function := some g } := rfl
  rw [h2]
  simp only [Except.map, bind, Except.bind]
  rw [blocks_eq (whole_coord (by simp) ho hne'), line_coord (by simp) (hx x (by simp)) (hx y (by simp)) (hx i (by simp))
    (hx j (by simp)) ho hne']
  have h3 : coordOf st none x y i j op = (coordOf st (some g) x y i j op).map fun c => { c with function := none } := by
    unfold coordOf
    cases optValue st x with
    | error e => rfl
    | ok vx =>
    cases optValue st y with
    | error e => rfl
    | ok vy =>
    cases optValue st i with
    | error e => rfl
    | ok vi =>
    cases optValue st j with
    | error e => rfl
    | ok vj => rfl
  rw [h3]
  cases coordOf st (some g) x y i j op with
  | error e => rfl
  | ok c =>
    simp only [Except.map, bind, Except.bind]
    cases parseBlocks inc st [] bs <;> rfl

theorem coordOf_parts {st : FileSettings} {f x y i j op : Option Str} {c : Coord} (h : coordOf st f x y i j op = .ok c) :
    c.function = f ∧ (¬(x = none ∧ y = none ∧ i = none ∧ j = none ∧ op = none) →
      ¬(c.x = none ∧ c.y = none ∧ c.i = none ∧ c.j = none ∧ c.op = none)) := by
  have hv : ∀ {o : Option Str}, optValue st o = .ok none → o = none := by
    intro o ho
    cases o with
    | none => rfl
    | some s =>
      simp only [optValue] at ho
      split at ho <;> cases ho
  unfold coordOf at h
  cases h1 : optValue st x with
  | error e => rw [h1] at h; cases h
  | ok vx =>
  cases h2 : optValue st y with
  | error e => rw [h1, h2] at h; cases h
  | ok vy =>
  cases h3 : optValue st i with
  | error e => rw [h1, h2, h3] at h; cases h
  | ok vi =>
  cases h4 : optValue st j with
  | error e => rw [h1, h2, h3, h4] at h; cases h
  | ok vj =>
    rw [h1, h2, h3, h4] at h
    cases h
    refine ⟨rfl, fun hne ⟨k1, k2, k3, k4, k5⟩ => hne ?_⟩
    simp only at k1 k2 k3 k4 k5
    subst k1 k2 k3 k4
    exact ⟨hv h1, hv h2, hv h3, hv h4, k5⟩

theorem text_agrees {inc : Includer} {f : Option NumFormat} {bs bs' : List Str} (h : SameText f bs bs')
    (hw : ∀ b ∈ bs, Whole b ∧ Settled b) (hw' : ∀ b ∈ bs', Whole b ∧ Settled b) :
    ∀ st, InForce f st → SaysSame (parseBlocks inc st [] bs) (parseBlocks inc st [] bs') := by
  induction h with
  | nil => exact fun st _ => Or.inr ⟨[], [], st, rfl, rfl, .nil⟩
  | @any f b bs bs' _ ih =>
    intro st hst
    obtain ⟨h1, h2⟩ := hw b (by simp)
    refine agrees_step h1 h1 (fun _ => True) ?_ fun s _ =>
      ih (fun c hc => hw c (by simp [hc])) (fun c hc => hw' c (by simp [hc])) s trivial
    cases hp : parseLine inc b.length st b with
    | error e => exact Or.inl ⟨e, rfl, rfl⟩
    | ok v =>
      obtain ⟨l, s, r⟩ := v
      cases h2 _ _ _ _ _ hp
      exact Or.inr ⟨l, l, s, rfl, rfl, SameProgram.refl l, trivial⟩
  | @same f b bs bs' k1 k2 _ ih =>
    intro st hst
    obtain ⟨h1, h2⟩ := hw b (by simp)
    refine agrees_step h1 h1 (InForce f) ?_ fun s hs =>
      ih (fun c hc => hw c (by simp [hc])) (fun c hc => hw' c (by simp [hc])) s hs
    cases hp : parseLine inc b.length st b with
    | error e => exact Or.inl ⟨e, rfl, rfl⟩
    | ok v =>
      obtain ⟨l, s, r⟩ := v
      cases h2 _ _ _ _ _ hp
      refine Or.inr ⟨l, l, s, rfl, rfl, SameProgram.refl l, ?_⟩
      cases f with
      | none => trivial
      | some f => exact line_format _ hst k1 k2 hp
  | @format f lead n x1 x2 y1 y2 bs bs' hn hx _ ih =>
    intro st hst
    obtain ⟨h1, h2⟩ := hw _ List.mem_cons_self
    have o : ∀ c ∈ [x1, x2, y1, y2], oneOf ['0', '1', '2', '3', '4', '5', '6', '7'] c = true := fun c hc => by
      simpa [oneOf] using hx c hc
    refine agrees_step h1 h1 (InForce (some ⟨digVal x1, digVal x2, lead⟩)) ?_ fun s hs =>
      ih (fun c hc => hw c (by simp [hc])) (fun c hc => hw' c (by simp [hc])) s hs
    cases hp : parseLine inc (formatBlock lead n x1 x2 y1 y2).length st (formatBlock lead n x1 x2 y1 y2) with
    | error e => exact Or.inl ⟨e, rfl, rfl⟩
    | ok v =>
      obtain ⟨l, s, r⟩ := v
      obtain ⟨rfl, hf⟩ := line_formatBlock (by simpa [oneOf] using hn) (o x1 (by simp)) (o x2 (by simp)) (o y1 (by simp))
        (o y2 (by simp)) hp
      exact Or.inr ⟨l, l, s, rfl, rfl, SameProgram.refl l, hf⟩
  | @coord fm f x y i j op f' x' y' i' j' op' bs bs' hf ho hf' ho' sf so hx hy hi hj _ ih =>
    intro st hst
    refine agrees_step (hw _ List.mem_cons_self).1 (hw' _ List.mem_cons_self).1 (InForce fm) ?_ fun s hs =>
      ih (fun c hc => hw c (by simp [hc])) (fun c hc => hw' c (by simp [hc])) s hs
    have wd : ∀ {o o' : Option Str}, SameOpt (SameNum fm) o o' → (∀ s, o = some s → IsWord s) ∧
        (∀ s, o' = some s → IsWord s) ∧ optValue st o = optValue st o' ∧ (o' = none → o = none) := by
      intro o o' h
      cases h with
      | none => simp
      | some h =>
        obtain ⟨h1, h2, h3⟩ := h.reads hst
        refine ⟨fun s e => ?_, fun s e => ?_, ?_, by simp⟩
        · cases e; exact h1
        · cases e; exact h2
        · simp [optValue, h3]
    obtain ⟨x1, x2, x3, x4⟩ := wd hx
    obtain ⟨y1, y2, y3, y4⟩ := wd hy
    obtain ⟨i1, i2, i3, i4⟩ := wd hi
    obtain ⟨j1, j2, j3, j4⟩ := wd hj
    by_cases hne : f = none ∧ x = none ∧ y = none ∧ i = none ∧ j = none ∧ op = none
    · obtain ⟨rfl, rfl, rfl, rfl, rfl, rfl⟩ := hne
      cases hx; cases hy; cases hi; cases hj
      have : f' = none := by have := sf.isSome; cases f' <;> simp_all
      have : op' = none := by have := so.isSome; cases op' <;> simp_all
      subst f' op'
      refine Or.inr ⟨[], [], st, ?_, ?_, .nil, hst⟩ <;> rfl
    have hne' : ¬(f' = none ∧ x' = none ∧ y' = none ∧ i' = none ∧ j' = none ∧ op' = none) := by
      rintro ⟨rfl, h2, h3, h4, h5, rfl⟩
      refine hne ⟨?_, x4 h2, y4 h3, i4 h4, j4 h5, ?_⟩
      · have := sf.isSome; cases f <;> simp_all
      · have := so.isSome; cases op <;> simp_all
    rw [line_coord hf x1 y1 i1 j1 ho hne, line_coord hf' x2 y2 i2 j2 ho' hne']
    simp only [coordOf, x3, y3, i3, j3]
    cases optValue st x' with
    | error e => exact Or.inl ⟨e, rfl, rfl⟩
    | ok vx =>
    cases optValue st y' with
    | error e => exact Or.inl ⟨e, rfl, rfl⟩
    | ok vy =>
    cases optValue st i' with
    | error e => exact Or.inl ⟨e, rfl, rfl⟩
    | ok vi =>
    cases optValue st j' with
    | error e => exact Or.inl ⟨e, rfl, rfl⟩
    | ok vj => exact Or.inr ⟨_, _, st, rfl, rfl, .cons (.coord sf so vx vy vi vj) .nil, hst⟩
  | @saying f b b' bs bs' hs _ ih =>
    intro st hst
    obtain ⟨s, s', u, r, k1, k2⟩ := step_saying hs st
    have w := (hw b (by simp)).1
    have w' := (hw' b' (by simp)).1
    refine agrees_step w w' (InForce f) (Or.inr ⟨[s], [s'], _, line_one w.ne k1, line_one w'.ne k2,
      .cons r .nil, hst.units u⟩) fun s hs => ih (fun c hc => hw c (by simp [hc])) (fun c hc => hw' c (by simp [hc])) s hs
  | @left f b bs bs' hr _ ih =>
    exact fun st hst => agrees_left (hw b (by simp)).1 hr (ih (fun c hc => hw c (by simp [hc])) hw' st hst)
  | @right f b bs bs' hr _ ih =>
    exact fun st hst => agrees_right (hw' b (by simp)).1 hr (ih hw (fun c hc => hw' c (by simp [hc])) st hst)
  | @apart fm g x y i j op bs bs' hg ho hx hne _ ih =>
    intro st hst
    rw [one_block hg ho hx, two_blocks hg ho hx hne]
    cases hc : coordOf st (some g) x y i j op with
    | error e => exact Or.inl ⟨e, rfl, rfl⟩
    | ok c =>
      obtain ⟨k1, k2⟩ := coordOf_parts hc
      rcases ih (fun c hc => hw c (by simp [hc])) (fun c hc => hw' c (by simp [hc])) st hst with
        ⟨e, p1, p2⟩ | ⟨m, m', s', p1, p2, p3⟩
      · simp only [bind, Except.bind, p1, p2]
        exact Or.inl ⟨e, rfl, rfl⟩
      · simp only [bind, Except.bind, p1, p2]
        exact Or.inr ⟨_, _, _, rfl, rfl, .apart k1 (k2 hne) p3⟩
  | @joined fm g x y i j op bs bs' hg ho hx hne _ ih =>
    intro st hst
    rw [one_block hg ho hx, two_blocks hg ho hx hne]
    cases hc : coordOf st (some g) x y i j op with
    | error e => exact Or.inl ⟨e, rfl, rfl⟩
    | ok c =>
      obtain ⟨k1, k2⟩ := coordOf_parts hc
      rcases ih (fun c hc => hw c (by simp [hc])) (fun c hc => hw' c (by simp [hc])) st hst with
        ⟨e, p1, p2⟩ | ⟨m, m', s', p1, p2, p3⟩
      · simp only [bind, Except.bind, p1, p2]
        exact Or.inl ⟨e, rfl, rfl⟩
      · simp only [bind, Except.bind, p1, p2]
        exact Or.inr ⟨_, _, _, rfl, rfl, .joined k1 (k2 hne) p3⟩

/-! ## Theorems -/

/-- **C95.** Gerber texts that say the same - with other white space and line breaks, other spellings of numbers, codes
and words, and other remarks - make the same primitives in the same units, or fail with the same error.  Missing: blocks
that hold several parameters. -/
theorem C95_text_partial {G : Type} (env : EvalEnv G) {bs bs' : List Str} {t t' : Str} (h : Layout false false bs t)
    (h' : Layout false false bs' t') (hb : SameText none bs bs')
    (hs : ∀ b ∈ bs, b.head? = some '%' → OneParam b) (hs' : ∀ b ∈ bs', b.head? = some '%' → OneParam b)
    (fs : Str → Option Str) :
    (loads env fs t).map (fun f => (f.primitives, f.settings)) =
      (loads env fs t').map fun f => (f.primitives, f.settings) := by
  have key : SaysSame (parseText fs t) (parseText fs t') := by
    unfold parseText parseData
    simp only [splitCommands]
    have k := layout_go h
    have k' := layout_go h'
    rw [Bool.not_false] at k k'
    rw [k _ (by simp) _ _ (Or.inl rfl) fun _ => rfl, k' _ (by simp) _ _ (Or.inl rfl) fun _ => rfl]
    exact text_agrees hb (layout_whole h hs) (layout_whole h' hs') _ trivial
  unfold loads
  rcases key with ⟨e, h1, h2⟩ | ⟨l, l', s, h1, h2, h3⟩
  · rw [h1, h2]
  · rw [h1, h2]
    have := C90_spelling env h3
    simp only [bind, Except.bind]
    cases e1 : evalAll env initState l with
    | error e =>
      cases e2 : evalAll env initState l' with
      | error e' => rw [e1, e2] at this; cases this; rfl
      | ok v => rw [e1, e2] at this; cases this
    | ok v =>
      cases e2 : evalAll env initState l' with
      | error e' => rw [e1, e2] at this; cases this
      | ok v' =>
        rw [e1, e2] at this
        simp only [Except.map, Except.ok.injEq] at this ⊢
        rw [this]

/-- A block on a line of its own. -/
def IsBlock (b : Str) : Prop :=
  (∃ c body, b = c :: body ++ ['*'] ∧ isSpace c = false ∧ Plain (c :: body) ∧ '*' ∉ c :: body) ∨
  ∃ body, b = '%' :: body ++ ['%'] ∧ Plain body

/-- Blocks on lines of their own are a layout of these blocks. -/
theorem layout_lines {bs : List Str} (h : ∀ b ∈ bs, IsBlock b) : ∀ (seen : Bool) (gap : Str), gap = [] ∨ gap = ['\n'] →
    Layout false seen bs (gap ++ bs.flatMap fun b => b ++ ['\n']) := by
  induction bs with
  | nil =>
    intro seen gap hg
    refine .done ?_
    rcases hg with rfl | rfl <;> simp [Blank]
    decide
  | cons b bs ih =>
    intro seen gap hg
    have hb : Blank gap := by
      rcases hg with rfl | rfl <;> simp [Blank]
      decide
    have next := fun seen => ih (fun c hc => h c (by simp [hc])) seen ['\n'] (Or.inr rfl)
    rcases h b (by simp) with ⟨c, body, rfl, h1, h2, h3⟩ | ⟨body, rfl, h1⟩
    · have := Layout.block (brk := false) (seen := seen) hb h1 h2 h3 (fun _ => ⟨[], '\n', _, rfl, by simp [Blank], Or.inl rfl⟩)
        (next seen)
      simpa using this
    · have := Layout.param (brk := false) (seen := seen) hb
        (by rcases hg with rfl | rfl <;> simp) h1 (next true)
      simpa using this

/-- The function codes of several kinds in one block are not read: the block is lost. -/
theorem C95_two_codes_violated :
    shown ["%FSLAX24Y24*%", "%MOIN*%", "%ADD10C,1*%", "D10*", "G75*", "G01X10000Y20000D03*", "M02*"] =
      some [.flash (.circle 1 {}) (1, 2) "dark" "inch"] ∧
    shown ["%FSLAX24Y24*%", "%MOIN*%", "%ADD10C,1*%", "D10*", "G75G01X10000Y20000D03*", "M02*"] = some [] := by
  decide +kernel

/-- A block with the code `G00` is lost, so that lines begin at the wrong place. -/
theorem C95_rapid_violated :
    shown ["%FSLAX24Y24*%", "%MOIN*%", "%ADD10C,1*%", "D10*", "G01X10000Y20000D02*", "G01X30000D01*", "M02*"] =
      some [.edge (.line (1, 2) (3, 2) ⟨.circle 1 {}, some "inch"⟩ "dark" "inch")] ∧
    shown ["%FSLAX24Y24*%", "%MOIN*%", "%ADD10C,1*%", "D10*", "G00X10000Y20000D02*", "G01X30000D01*", "M02*"] =
      some [.edge (.line (0, 0) (3, 0) ⟨.circle 1 {}, some "inch"⟩ "dark" "inch")] := by
  decide +kernel

/-- A block with a sequence number is lost. -/
theorem C95_sequence_violated :
    shown ["%FSLAX24Y24*%", "%MOIN*%", "%ADD10C,1*%", "D10*", "N10G01X10000Y20000D03*", "M02*"] = some [] := by
  decide +kernel

/-! ## Examples -/

local instance (s : Str) : Decidable (Blank s) := by unfold Blank; infer_instance
local instance (s : Str) : Decidable (Plain s) := by unfold Plain; infer_instance

theorem isBlock_star (c : Char) (body : Str) (h1 : isSpace c = false) (h2 : Plain (c :: body)) (h3 : '*' ∉ c :: body) :
    IsBlock (c :: body ++ ['*']) := Or.inl ⟨c, body, rfl, h1, h2, h3⟩

theorem isBlock_param (body : Str) (h : Plain body) : IsBlock ('%' :: body ++ ['%']) := Or.inr ⟨body, rfl, h⟩

/-- Two files that say the same: units, format, a remark, an aperture, a move and a line. -/
example :
    let bs := ["%FSLAX24Y24*%".toList, "%MOIN*%".toList, "%ADD10C,1*%".toList, "G54D10*".toList, "G1X10000Y020000D2*".toList,
      "X30000D1*".toList, "M0*".toList]
    let bs' := ["%FSLAX24Y24*%".toList, "G70*".toList, "%ADD10C,1*%".toList, "G04 a line*".toList, "D010*".toList, "G01*".toList,
      "X+10000Y20000D02*".toList, "X030000D01*".toList, "M02*".toList]
    (∀ b ∈ bs, IsBlock b) ∧ (∀ b ∈ bs', IsBlock b) ∧ (∃ m, SameText none bs m ∧ SameText none m bs') ∧
      (∀ b ∈ bs, b.head? = some '%' → OneParam b) ∧ (∀ b ∈ bs', b.head? = some '%' → OneParam b) := by
  have d1 : IsCode 'G' "G1".toList := ⟨'1', by decide, Or.inr rfl⟩
  have d2 : IsCode 'G' "G01".toList := ⟨'1', by decide, Or.inl rfl⟩
  have e1 : IsCode 'D' "D2".toList := ⟨'2', by decide, Or.inr rfl⟩
  have e2 : IsCode 'D' "D02".toList := ⟨'2', by decide, Or.inl rfl⟩
  have e3 : IsCode 'D' "D1".toList := ⟨'1', by decide, Or.inr rfl⟩
  have e4 : IsCode 'D' "D01".toList := ⟨'1', by decide, Or.inl rfl⟩
  have x1 : Means 2 4 true "30000".toList 3 := by
    have := Means.plain (i := 2) (d := 4) (lead := true) (s := "30000".toList) (by decide) (by decide) (by decide)
    rwa [show placed 2 4 true "30000".toList = 3 by decide +kernel] at this
  have x2 : Means 2 4 true "030000".toList 3 := by
    have := Means.plain (i := 2) (d := 4) (lead := true) (s := "030000".toList) (by decide) (by decide) (by decide)
    rwa [show placed 2 4 true "030000".toList = 3 by decide +kernel] at this
  have y1 : Means 2 4 true "020000".toList 2 := by
    have := Means.plain (i := 2) (d := 4) (lead := true) (s := "020000".toList) (by decide) (by decide) (by decide)
    rwa [show placed 2 4 true "020000".toList = 2 by decide +kernel] at this
  have y2 : Means 2 4 true "20000".toList 2 := by
    have := Means.plain (i := 2) (d := 4) (lead := true) (s := "20000".toList) (by decide) (by decide) (by decide)
    rwa [show placed 2 4 true "20000".toList = 2 by decide +kernel] at this
  have one : ∀ b ∈ ["%FSLAX24Y24*%".toList, "%MOIN*%".toList, "%ADD10C,1*%".toList], OneParam b := by
    intro b hb
    simp only [List.mem_cons, List.not_mem_nil, or_false] at hb
    rcases hb with rfl | rfl | rfl
    · exact Or.inl ⟨"FSLAX24Y24".toList, rfl, by decide, by decide⟩
    · exact Or.inl ⟨"MOIN".toList, rfl, by decide, by decide⟩
    · exact Or.inl ⟨"ADD10C,1".toList, rfl, by decide, by decide⟩
  refine ⟨?_, ?_, ⟨["%FSLAX24Y24*%".toList, "G70*".toList, "%ADD10C,1*%".toList, "G04 a line*".toList, "D010*".toList,
    "G01X+10000Y20000D02*".toList, "X030000D01*".toList, "M02*".toList], ?_, ?_⟩, ?_, ?_⟩
  · intro b hb
    simp only [List.mem_cons, List.not_mem_nil, or_false] at hb
    rcases hb with rfl | rfl | rfl | rfl | rfl | rfl | rfl
    · exact isBlock_param "FSLAX24Y24*".toList (by decide)
    · exact isBlock_param "MOIN*".toList (by decide)
    · exact isBlock_param "ADD10C,1*".toList (by decide)
    · exact isBlock_star 'G' "54D10".toList (by decide) (by decide) (by decide)
    · exact isBlock_star 'G' "1X10000Y020000D2".toList (by decide) (by decide) (by decide)
    · exact isBlock_star 'X' "30000D1".toList (by decide) (by decide) (by decide)
    · exact isBlock_star 'M' "0".toList (by decide) (by decide) (by decide)
  · intro b hb
    simp only [List.mem_cons, List.not_mem_nil, or_false] at hb
    rcases hb with rfl | rfl | rfl | rfl | rfl | rfl | rfl | rfl | rfl
    · exact isBlock_param "FSLAX24Y24*".toList (by decide)
    · exact isBlock_star 'G' "70".toList (by decide) (by decide) (by decide)
    · exact isBlock_param "ADD10C,1*".toList (by decide)
    · exact isBlock_star 'G' "04 a line".toList (by decide) (by decide) (by decide)
    · exact isBlock_star 'D' "010".toList (by decide) (by decide) (by decide)
    · exact isBlock_star 'G' "01".toList (by decide) (by decide) (by decide)
    · exact isBlock_star 'X' "+10000Y20000D02".toList (by decide) (by decide) (by decide)
    · exact isBlock_star 'X' "030000D01".toList (by decide) (by decide) (by decide)
    · exact isBlock_star 'M' "02".toList (by decide) (by decide) (by decide)
  · refine .format (lead := true) (n := 'A') (x1 := '2') (x2 := '4') (y1 := '2') (y2 := '4') (by decide) (by decide) ?_
    refine .saying (.inch (a := "%MOIN*%") (b := "G70*") (by simp) (by simp)) ?_
    refine .same (by decide) (by decide) ?_
    refine .right (.g04 (text := " a line".toList) (by decide)) ?_
    refine .saying (.aperture (p := "G54".toList) (p' := "".toList) (ds := "10".toList) (ds' := "010".toList) (by decide)
      (by decide) (by decide) (by decide) (by decide) (by decide) (by decide) (by decide)) ?_
    refine .coord (f := some "G1".toList) (x := some "10000".toList) (y := some "020000".toList) (i := none) (j := none)
      (op := some "D2".toList) (f' := some "G01".toList) (x' := some "+10000".toList) (y' := some "20000".toList) (i' := none)
      (j' := none) (op' := some "D02".toList) (by rintro s ⟨⟩; exact d1) (by rintro s ⟨⟩; exact e1) (by rintro s ⟨⟩; exact d2)
      (by rintro s ⟨⟩; exact e2) (.inr ⟨_, _, .inl ⟨rfl, rfl⟩⟩) (.inr ⟨_, _, .inl ⟨rfl, rfl⟩⟩)
      (.some (Or.inl (.plus (by decide) (by decide)))) (.some (Or.inr ⟨by decide, by decide, 2, y1, y2⟩)) .none .none ?_
    refine .coord (f := none) (x := some "30000".toList) (y := none) (i := none) (j := none)
      (op := some "D1".toList) (f' := none) (x' := some "030000".toList) (y' := none) (i' := none)
      (j' := none) (op' := some "D01".toList) (by simp) (by rintro s ⟨⟩; exact e3) (by simp)
      (by rintro s ⟨⟩; exact e4) (.inl rfl) (.inr ⟨_, _, .inl ⟨rfl, rfl⟩⟩)
      (.some (Or.inr ⟨by decide, by decide, 3, x1, x2⟩)) .none .none .none ?_
    exact .saying (.eof (a := "M0*") (b := "M02*") (by simp) (by simp)) .nil
  · refine .any (.any (.any (.any (.any ?_))))
    refine .apart (g := "G01".toList) (x := some "+10000".toList) (y := some "20000".toList) (i := none) (j := none)
      (op := some "D02".toList) d2 (by rintro s ⟨⟩; exact e2) ?_ (by simp) (.any (.any .nil))
    intro o ho s hs
    simp only [List.mem_cons, List.not_mem_nil, or_false] at ho
    rcases ho with rfl | rfl | rfl | rfl
    · cases hs; exact ⟨['+'], "10000".toList, rfl, by simp, by decide, by decide⟩
    · cases hs; exact ⟨[], "20000".toList, rfl, by simp, by decide, by decide⟩
    · cases hs
    · cases hs
  · intro b hb hp
    simp only [List.mem_cons, List.not_mem_nil, or_false] at hb
    rcases hb with rfl | rfl | rfl | rfl | rfl | rfl | rfl <;> first | exact absurd hp (by decide) | exact one _ (by simp)
  · intro b hb hp
    simp only [List.mem_cons, List.not_mem_nil, or_false] at hb
    rcases hb with rfl | rfl | rfl | rfl | rfl | rfl | rfl | rfl | rfl <;>
      first | exact absurd hp (by decide) | exact one _ (by simp)

end Verif.Gerber
