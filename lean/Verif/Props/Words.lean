import Verif.Model.GerberEval
import Verif.Lemmas.GerberParse
import Verif.Props.GerberPictureFail

/-! # C90: Gerber words mean the same however they are spelled -/

namespace Verif.Gerber
open Verif.Py Verif.Cam Verif.Py.Re

/-! ## Specification -/

/-- The same code, with or without a leading zero: `G01` and `G1`. -/
def SameCode (a b : Option Str) : Prop :=
  a = b ∨ ∃ c d, a = some [c, d] ∧ b = some [c, '0', d] ∨ a = some [c, '0', d] ∧ b = some [c, d]

/-- The same statement up to leading zeros and the word `G54`. -/
inductive Respelled : Stmt → Stmt → Prop
  | same (s : Stmt) : Respelled s s
  | coord {f f' o o' : Option Str} (hf : SameCode f f') (ho : SameCode o o') (x y i j : Option ℚ) :
      Respelled (.coord { function := f, x := x, y := y, i := i, j := j, op := o })
        (.coord { function := f', x := x, y := y, i := i, j := j, op := o' })
  | aperture (d : ℕ) (p q : Bool) : Respelled (.aperture d p) (.aperture d q)

/-- Statements that mean nothing for the picture: comments and names. -/
def Remark : Stmt → Prop
  | .comment _ => True
  | .in_ _ => True
  | .ln _ => True
  | _ => False

/-- The same program up to spelling and remarks. -/
inductive SameProgram : List Stmt → List Stmt → Prop
  | nil : SameProgram [] []
  | cons {s s' : Stmt} {l l' : List Stmt} : Respelled s s' → SameProgram l l' → SameProgram (s :: l) (s' :: l')
  | left {s : Stmt} {l l' : List Stmt} : Remark s → SameProgram l l' → SameProgram (s :: l) l'
  | right {s : Stmt} {l l' : List Stmt} : Remark s → SameProgram l l' → SameProgram l (s :: l')
  /-- the function code in a statement of its own -/
  | apart {f : Str} {c : Coord} {l l' : List Stmt} : c.function = some f →
      ¬(c.x = none ∧ c.y = none ∧ c.i = none ∧ c.j = none ∧ c.op = none) → SameProgram l l' →
      SameProgram (.coord c :: l) (.coord { function := some f } :: .coord { c with function := none } :: l')
  | joined {f : Str} {c : Coord} {l l' : List Stmt} : c.function = some f →
      ¬(c.x = none ∧ c.y = none ∧ c.i = none ∧ c.j = none ∧ c.op = none) → SameProgram l l' →
      SameProgram (.coord { function := some f } :: .coord { c with function := none } :: l) (.coord c :: l')

/-! ## Lemmas -/

variable {G : Type}

theorem SameCode.is {a b : Str} (h : SameCode (some a) (some b)) (k : Char) :
    (a = ['D', '0', k] ∨ a = ['D', k]) ↔ (b = ['D', '0', k] ∨ b = ['D', k]) := by
  rcases h with h | ⟨c, d, ⟨h1, h2⟩ | ⟨h1, h2⟩⟩
  · cases h; rfl
  · cases h1; cases h2; simp
  · cases h1; cases h2; simp

theorem SameCode.setFunction {a b : Option Str} (h : SameCode a b) (st : EvalState G) :
    setFunction st a = setFunction st b := by
  rcases h with rfl | ⟨c, d, ⟨rfl, rfl⟩ | ⟨rfl, rfl⟩⟩
  · rfl
  · simp [Verif.Gerber.setFunction, isG1, isG2, isG3]
  · simp [Verif.Gerber.setFunction, isG1, isG2, isG3]

theorem SameCode.isSome {a b : Option Str} (h : SameCode a b) : a.isSome = b.isSome := by
  rcases h with rfl | ⟨c, d, ⟨rfl, rfl⟩ | ⟨rfl, rfl⟩⟩ <;> rfl

/-- States that differ in the spelling of the operation only. -/
structure Alike (st st' : EvalState G) : Prop where
  op : SameCode (some st.op) (some st'.op)
  rest : { st with op := [] } = { st' with op := [] }

theorem Alike.split {st st' : EvalState G} (h : Alike st st') : st' = { st with op := st'.op } := by
  have := h.rest
  cases st; cases st'
  simp only [EvalState.mk.injEq] at this ⊢
  simp [this]

theorem evalOp_alike (env : EvalEnv G) (st : EvalState G) {o : Str} (h : SameCode (some st.op) (some o)) (c c' : Coord)
    (hi : c.i = c'.i) (hj : c.j = c'.j) (x y : ℚ) :
    evalOp env { st with op := o } c' x y = (evalOp env st c x y).map fun s => { s with op := o } := by
  have h1 : isD1 o = isD1 st.op := by
    rw [Bool.eq_iff_iff]; simpa [isD1] using (h.is '1').symm
  have h2 : isD2 o = isD2 st.op := by
    rw [Bool.eq_iff_iff]; simpa [isD2] using (h.is '2').symm
  have h3 : isD3 o = isD3 st.op := by
    rw [Bool.eq_iff_iff]; simpa [isD3] using (h.is '3').symm
  have he : ∀ ap, edgeTo env { st with op := o } c' x y ap = edgeTo env st c x y ap := by
    intro ap
    simp only [edgeTo, hi, hj]
    rfl
  unfold evalOp
  simp only [h1, h2, h3, he]
  split
  · split
    · cases st.apertures st.aperture <;> rfl
    · rfl
  · split
    · split <;> rfl
    · split
      · cases st.apertures st.aperture <;> rfl
      · rfl

/-- The outcome of one evaluation, up to the spelling of the operation. -/
def Match (r r' : PyR (EvalState G × Stmt)) : Prop :=
  (∃ e, r = .error e ∧ r' = .error e) ∨ ∃ a b, r = .ok a ∧ r' = .ok b ∧ Alike a.1 b.1

theorem Alike.of (st : EvalState G) {o : Str} (h : SameCode (some st.op) (some o)) : Alike st { st with op := o } :=
  ⟨h, rfl⟩

theorem evaluate_same (env : EvalEnv G) (st : EvalState G) {o : Str} (h : SameCode (some st.op) (some o)) (s : Stmt)
    (hs : ∀ c, s ≠ .coord c) : Match (evaluate env st s) (evaluate env { st with op := o } s) := by
  cases s with
  | coord c => exact absurd rfl (hs c)
  | ad d shape mods =>
    simp only [evaluate, bind, Except.bind]
    cases shapeOf env st.macros shape mods with
    | error e => exact .inl ⟨e, rfl, rfl⟩
    | ok a => exact .inr ⟨_, _, rfl, rfl, h, rfl⟩
  | region m =>
    refine .inr ⟨_, _, rfl, rfl, ?_, ?_⟩
    · simp only [evalRegion]
      split <;> exact h
    · simp only [evalRegion]
      split <;> rfl
  | _ => exact .inr ⟨_, _, rfl, rfl, h, rfl⟩

theorem setFunction_op (st : EvalState G) (f : Option Str) (o : Str) :
    setFunction { st with op := o } f = { setFunction st f with op := o } ∧ (setFunction st f).op = st.op := by
  unfold setFunction
  split
  · exact ⟨rfl, rfl⟩
  · split
    · exact ⟨rfl, rfl⟩
    · split <;> exact ⟨rfl, rfl⟩

theorem evalOp_op {env : EvalEnv G} {st st' : EvalState G} {c : Coord} {x y : ℚ} (h : evalOp env st c x y = .ok st') :
    st'.op = st.op := by
  unfold evalOp at h
  split at h
  · split at h
    · split at h
      · cases h
      · cases h; rfl
    · cases h; rfl
  · split at h
    · split at h <;> (cases h; rfl)
    · split at h
      · split at h
        · cases h
        · cases h; rfl
      · cases h; rfl

theorem evaluate_coord (env : EvalEnv G) (st : EvalState G) {o : Str} (h : SameCode (some st.op) (some o))
    {f f' q q' : Option Str} (hf : SameCode f f') (ho : SameCode q q') (x y i j : Option ℚ) :
    Match (evaluate env st (.coord { function := f, x := x, y := y, i := i, j := j, op := q }))
      (evaluate env { st with op := o } (.coord { function := f', x := x, y := y, i := i, j := j, op := q' })) := by
  have key : ∀ (s : EvalState G) (o : Str), SameCode (some s.op) (some o) → ∀ c c' : Coord, c.i = c'.i → c.j = c'.j →
      ∀ u v, Match (evalOp env s c u v >>= fun s => .ok ({ s with x := u, y := v }, Stmt.coord c))
        (evalOp env { s with op := o } c' u v >>= fun s => .ok ({ s with x := u, y := v }, Stmt.coord c')) := by
    intro s o hs c c' hi hj u v
    rw [evalOp_alike env s hs c c' hi hj]
    cases e : evalOp env s c u v with
    | error e' => exact .inl ⟨e', rfl, rfl⟩
    | ok a => exact .inr ⟨_, _, rfl, rfl, by simpa [evalOp_op e] using hs, rfl⟩
  have hof : Coord.onlyFunction { function := f, x := x, y := y, i := i, j := j, op := q } =
      Coord.onlyFunction { function := f', x := x, y := y, i := i, j := j, op := q' } := by
    have := hf.isSome
    have h2 := ho.isSome
    simp only [Coord.onlyFunction, this]
    cases q <;> cases q' <;> simp_all
  simp only [evaluate, evalCoord, hof, hf.setFunction]
  rw [(setFunction_op st f' o).1]
  have hop := (setFunction_op st f' o).2
  generalize setFunction st f' = s at *
  have hs : SameCode (some s.op) (some o) := by rw [hop]; exact h
  by_cases hc : Coord.onlyFunction { function := f', x := x, y := y, i := i, j := j, op := q' } = true
  · simp only [hc, if_true]
    exact .inr ⟨_, _, rfl, rfl, hs, rfl⟩
  · simp only [hc]
    have hq : (q = q' ∧ (q = none ∨ q = some [])) ∨ ∃ a w b v, q = some (a :: w) ∧ q' = some (b :: v) := by
      rcases ho with rfl | ⟨c, d, ⟨rfl, rfl⟩ | ⟨rfl, rfl⟩⟩
      · rcases q with _ | _ | ⟨a, w⟩
        · exact .inl ⟨rfl, .inl rfl⟩
        · exact .inl ⟨rfl, .inr rfl⟩
        · exact .inr ⟨_, _, _, _, rfl, rfl⟩
      · exact .inr ⟨_, _, _, _, rfl, rfl⟩
      · exact .inr ⟨_, _, _, _, rfl, rfl⟩
    have un : ∀ (s : EvalState G) (c : Coord) (u v : ℚ),
        ((evalOp env s c u v >>= fun s => (.ok ({ s with x := u, y := v }, c) : PyR (EvalState G × Coord))) >>= fun p =>
          .ok (p.1, Stmt.coord p.2)) =
        (evalOp env s c u v >>= fun s => .ok ({ s with x := u, y := v }, Stmt.coord c)) := by
      intro s c u v
      cases evalOp env s c u v <;> rfl
    rcases hq with ⟨rfl, rfl | rfl⟩ | ⟨a, w, b, v, rfl, rfl⟩
    · have := key s o hs { function := f, x := x, y := y, i := i, j := j, op := some s.op }
        { function := f', x := x, y := y, i := i, j := j, op := some o } rfl rfl (x.getD st.x) (y.getD st.y)
      rw [← un, ← un] at this
      exact this
    · have := key s o hs { function := f, x := x, y := y, i := i, j := j, op := some s.op }
        { function := f', x := x, y := y, i := i, j := j, op := some o } rfl rfl (x.getD st.x) (y.getD st.y)
      rw [← un, ← un] at this
      exact this
    · have := key { s with op := a :: w } (b :: v) ho
        { function := f, x := x, y := y, i := i, j := j, op := some (a :: w) }
        { function := f', x := x, y := y, i := i, j := j, op := some (b :: v) } rfl rfl (x.getD st.x) (y.getD st.y)
      rw [← un, ← un] at this
      exact this

theorem evaluate_respelled (env : EvalEnv G) {st st' : EvalState G} (h : Alike st st') {s s' : Stmt}
    (hs : Respelled s s') : Match (evaluate env st s) (evaluate env st' s') := by
  rw [h.split]
  cases hs with
  | same s =>
    by_cases hc : ∃ c, s = .coord c
    · obtain ⟨c, rfl⟩ := hc
      exact evaluate_coord env st h.op (.inl rfl) (.inl rfl) c.x c.y c.i c.j
    · exact evaluate_same env st h.op s fun c e => hc ⟨c, e⟩
  | coord hf ho x y i j => exact evaluate_coord env st h.op hf ho x y i j
  | aperture d p q => exact .inr ⟨_, _, rfl, rfl, h.op, rfl⟩

theorem evaluate_remark (env : EvalEnv G) (st : EvalState G) {s : Stmt} (hs : Remark s) :
    evaluate env st s = .ok (st, s) := by
  cases s <;> first | rfl | cases hs

/-! ## C90 -/

/-- What evaluating statements makes, or the error. -/
def made (env : EvalEnv G) (st : EvalState G) (l : List Stmt) : PyR (List (Prim G)) :=
  (evalAll env st l).map fun r => r.1.primitives

theorem made_cons (env : EvalEnv G) (st : EvalState G) (s : Stmt) (l : List Stmt) :
    made env st (s :: l) = (evaluate env st s) >>= fun r => made env r.1 l := by
  unfold made
  simp only [evalAll, bind, Except.bind]
  cases evaluate env st s with
  | error e => rfl
  | ok r =>
    simp only
    cases evalAll env r.1 l <;> rfl

theorem made_apart (env : EvalEnv G) (st : EvalState G) {f : Str} {c : Coord} (hf : c.function = some f)
    (hc : ¬(c.x = none ∧ c.y = none ∧ c.i = none ∧ c.j = none ∧ c.op = none)) (l : List Stmt) :
    made env st (.coord { function := some f } :: .coord { c with function := none } :: l) = made env st (.coord c :: l) := by
  have h1 : evaluate env st (.coord { function := some f }) =
      .ok (setFunction st (some f), .coord { function := some f }) := rfl
  have hn : ∀ s : EvalState G, setFunction s none = s := fun s => rfl
  have hxy : (setFunction st (some f)).x = st.x ∧ (setFunction st (some f)).y = st.y := by
    unfold setFunction
    split
    · exact ⟨rfl, rfl⟩
    · split
      · exact ⟨rfl, rfl⟩
      · split <;> exact ⟨rfl, rfl⟩
  have ho : c.onlyFunction = false := by
    rw [Bool.eq_false_iff]
    intro h
    simp only [Coord.onlyFunction, Bool.and_eq_true, Option.isNone_iff_eq_none] at h
    exact hc ⟨h.1.1.1.2, h.1.1.2, h.1.2, h.2, h.1.1.1.1.2⟩
  have hop : ∀ (s : EvalState G) (c' c : Coord) (x y : ℚ), c'.i = c.i → c'.j = c.j →
      evalOp env s c' x y = evalOp env s c x y := by
    intro s c' c x y hi hj
    have := evalOp_alike env s (o := s.op) (.inl rfl) c c' hi.symm hj.symm x y
    rw [this]
    cases h : evalOp env s c x y with
    | error e => rfl
    | ok v => rw [← evalOp_op h]; rfl
  have key : (evaluate env (setFunction st (some f)) (.coord { c with function := none })).map (·.1) =
      (evaluate env st (.coord c)).map (·.1) := by
    simp only [evaluate, evalCoord, hf, hn, hxy.1, hxy.2, ho, Bool.false_eq_true, if_false]
    rw [if_neg (by simp [Coord.onlyFunction])]
    cases hop' : c.op with
    | none =>
      simp only
      rw [hop (setFunction st (some f)) { c with function := none, op := some (setFunction st (some f)).op }
        { c with function := some f, op := some (setFunction st (some f)).op } _ _ rfl rfl]
      cases evalOp env (setFunction st (some f)) _ (c.x.getD st.x) (c.y.getD st.y) <;> rfl
    | some o =>
      cases o with
      | nil =>
        simp only
        rw [hop (setFunction st (some f)) { c with function := none, op := some (setFunction st (some f)).op }
          { c with function := some f, op := some (setFunction st (some f)).op } _ _ rfl rfl]
        cases evalOp env (setFunction st (some f)) _ (c.x.getD st.x) (c.y.getD st.y) <;> rfl
      | cons ch o =>
        simp only
        rw [hop _ { x := c.x, y := c.y, i := c.i, j := c.j, op := some (ch :: o) } c _ _ rfl rfl]
        cases evalOp env _ c (c.x.getD st.x) (c.y.getD st.y) <;> rfl
  rw [made_cons, h1]
  change made env (setFunction st (some f)) (.coord { c with function := none } :: l) = _
  rw [made_cons, made_cons]
  cases e1 : evaluate env (setFunction st (some f)) (.coord { c with function := none }) with
  | error e =>
    cases e2 : evaluate env st (.coord c) with
    | error e' => rw [e1, e2] at key; cases key; rfl
    | ok v => rw [e1, e2] at key; cases key
  | ok v =>
    cases e2 : evaluate env st (.coord c) with
    | error e' => rw [e1, e2] at key; cases key
    | ok v' =>
      rw [e1, e2] at key
      simp only [Except.map, Except.ok.injEq] at key
      simp only [bind, Except.bind, key]

theorem made_same (env : EvalEnv G) {l l' : List Stmt} (h : SameProgram l l') {st st' : EvalState G}
    (hst : Alike st st') : made env st l = made env st' l' := by
  have step : ∀ {s s' : Stmt} {l l' : List Stmt}, Respelled s s' →
      (∀ {st st' : EvalState G}, Alike st st' → made env st l = made env st' l') → ∀ {st st' : EvalState G}, Alike st st' →
      made env st (s :: l) = made env st' (s' :: l') := by
    intro s s' l l' hs ih st st' hst
    rw [made_cons, made_cons]
    rcases evaluate_respelled env hst hs with ⟨e, h1, h2⟩ | ⟨a, b, h1, h2, h3⟩
    · rw [h1, h2]; rfl
    · rw [h1, h2]; exact ih h3
  induction h generalizing st st' with
  | nil => rw [hst.split]; rfl
  | cons hs _ ih => exact step hs ih hst
  | left hs _ ih => rw [made_cons, evaluate_remark env st hs]; exact ih hst
  | right hs _ ih => rw [made_cons, evaluate_remark env st' hs]; exact ih hst
  | apart hf hc _ ih => rw [made_apart env st' hf hc]; exact step (.same _) ih hst
  | joined hf hc _ ih => rw [made_apart env st hf hc]; exact step (.same _) ih hst

/-- **C90.**  Programs that differ in the spelling of words and in remarks only make the same primitives, or fail with
the same error. -/
theorem C90_spelling (env : EvalEnv G) {l l' : List Stmt} (h : SameProgram l l') :
    (evalAll env initState l).map (fun r => r.1.primitives) = (evalAll env initState l').map fun r => r.1.primitives :=
  made_same env h ⟨.inl rfl, rfl⟩

/-- The words without numbers, what they say and what they do to the settings. -/
def words (st : FileSettings) : List (String × Stmt × FileSettings) :=
  [("M0", .eof, st), ("M1", .eof, st), ("M2", .eof, st), ("M00", .eof, st), ("M01", .eof, st), ("M02", .eof, st),
    ("G36", .region "on", st), ("G37", .region "off", st), ("G74", .quad "single-quadrant", st),
    ("G75", .quad "multi-quadrant", st), ("G70", .mo "inch", { st with units := "inch" }),
    ("G71", .mo "metric", { st with units := "metric" })]

/-- **C90.**  Every such word is recognised, whatever follows on the line. -/
theorem C90_words (st : FileSettings) (rest : Str) :
    ∀ w ∈ words st, step st (w.1.toList ++ '*' :: rest) = .ok (.yield w.2.1 w.2.2 rest) := by
  intro w hw
  simp only [words, List.mem_cons, List.not_mem_nil, or_false] at hw
  rcases hw with rfl | rfl | rfl | rfl | rfl | rfl | rfl | rfl | rfl | rfl | rfl | rfl
  all_goals
    simp [step, reCoord, reWord, reAperture, reRegion, reQuad, reComment, reDepUnit, reDepFormat, reEof, Re.pyMatch,
      Re.run, Re.cat, Re.opt, Re.lit, oneOf, Re.str, params_none, codes, reqGroup, Caps.get]

/-- **C90.**  A comment ends with the next `*`, in both spellings. -/
theorem C90_comment (st : FileSettings) {text : Str} (h : '*' ∉ text) (rest : Str) :
    step st ("G04".toList ++ text ++ '*' :: rest) = .ok (.yield (.comment text) st rest) ∧
      step st ("G4".toList ++ text ++ '*' :: rest) = .ok (.yield (.comment text) st rest) := by
  have hall : text.all (· != '*') = true := by
    rw [List.all_eq_true]
    intro c hc
    simp only [bne_iff_ne, ne_eq]
    rintro rfl; exact h hc
  have h1 : reComment.pyMatch ('G' :: '0' :: '4' :: (text ++ '*' :: rest)) = some ([("comment", text)], rest) :=
    First.pyMatch (First.seq First.lit (First.seq (First.opt_some First.lit) (First.seq First.lit
      (First.seq (First.grp (First.star_append hall (by intro c t h; cases h; rfl))) (First.opt_some First.lit)))))
  have h2 : reComment.pyMatch ('G' :: '4' :: (text ++ '*' :: rest)) = some ([("comment", text)], rest) :=
    First.pyMatch (First.seq First.lit (First.seq (First.opt_none (Fails.lit (by decide))) (First.seq First.lit
      (First.seq (First.grp (First.star_append hall (by intro c t h; cases h; rfl))) (First.opt_some First.lit)))))
  have e1 : "G04".toList ++ text ++ '*' :: rest = 'G' :: '0' :: '4' :: (text ++ '*' :: rest) := by simp
  have e2 : "G4".toList ++ text ++ '*' :: rest = 'G' :: '4' :: (text ++ '*' :: rest) := by simp
  have g : ∀ {n : String} {c d : Char} {l k : Re} {t : Str}, d ≠ c →
      Fails (.seq (.grp n (.seq (Re.lit 'G') (.seq (Re.lit c) l))) k) ('G' :: d :: t) := fun hne =>
    Fails.seq_left (Fails.grp (Fails.lit_seq (Fails.seq_left (Fails.lit hne))))
  have r1 : ∀ t, reRegion.pyMatch ('G' :: '0' :: t) = none := fun t => Fails.pyMatch (g (by decide))
  have r2 : ∀ t, reQuad.pyMatch ('G' :: '0' :: t) = none := fun t => Fails.pyMatch (g (by decide))
  have r3 : ∀ t, reRegion.pyMatch ('G' :: '4' :: t) = none := fun t => Fails.pyMatch (g (by decide))
  have r4 : ∀ t, reQuad.pyMatch ('G' :: '4' :: t) = none := fun t => Fails.pyMatch (g (by decide))
  rw [e1, e2]
  constructor
  · unfold step
    rw [if_neg (by simp), (coord_fails_G0 (by decide)).pyMatch, (aperture_fails_G (by decide)).pyMatch,
      params_none (by decide) (by decide), r1, r2, h1]
    rfl
  · unfold step
    rw [if_neg (by simp), (coord_fails_G (by decide)).pyMatch, (aperture_fails_G (by decide)).pyMatch,
      params_none (by decide) (by decide), r3, r4, h2]
    rfl

/-! ## Examples and violations -/

-- the hypothesis of C90_spelling, with primitives made
example : SameProgram
    [.ad 10 ['C'] [[1]], .comment ['a'], .aperture 10 true,
      .coord { function := some ['G', '1'], x := some 1, y := some 2, op := some ['D', '2'] },
      .coord { x := some 3, op := some ['D', '1'] }, .coord { y := some 3 }]
    [.ln ['b'], .ad 10 ['C'] [[1]], .aperture 10 false,
      .coord { function := some ['G', '0', '1'], x := some 1, y := some 2, op := some ['D', '0', '2'] },
      .coord { x := some 3, op := some ['D', '0', '1'] }, .coord { y := some 3 }] :=
  .right trivial (.cons (.same _) (.left trivial (.cons (.aperture _ _ _)
    (.cons (.coord (.inr ⟨_, _, .inl ⟨rfl, rfl⟩⟩) (.inr ⟨_, _, .inl ⟨rfl, rfl⟩⟩) _ _ _ _)
    (.cons (.coord (.inl rfl) (.inr ⟨_, _, .inl ⟨rfl, rfl⟩⟩) _ _ _ _) (.cons (.same _) .nil))))))

/-- The primitives of a file. -/
def shown (l : List String) : Option (List (Prim Unit)) := (readLines l).toOption.map (·.primitives)

example : SameProgram [.coord { function := some "G02".toList, x := some 3, i := some 1, op := some "D01".toList }]
    [.coord { function := some "G02".toList }, .coord { x := some 3, i := some 1, op := some "D01".toList }] :=
  .apart (f := "G02".toList) (c := { function := some "G02".toList, x := some 3, i := some 1, op := some "D01".toList }) rfl
    (by simp) .nil

example : shown ["%FSLAX24Y24*%", "%MOIN*%", "%ADD10C,1*%", "G54D10*", "G1X10000Y20000D2*", "X30000D1*", "M0*"] =
    some [.edge (.line (1, 2) (3, 2) ⟨.circle 1 {}, some "inch"⟩ "dark" "inch")] ∧
    shown ["%FSLAX24Y24*%", "%MOIN*%", "%ADD10C,1*%", "D10*", "G4 a*", "G01X10000Y20000D02*", "X30000D01*", "M02*"] =
    some [.edge (.line (1, 2) (3, 2) ⟨.circle 1 {}, some "inch"⟩ "dark" "inch")] := by
  decide +kernel

/-- **C90 fails** at the end of a file: what follows `M02` is drawn. -/
theorem C90_after_end_violated :
    shown ["%FSLAX24Y24*%", "%MOIN*%", "%ADD10C,1*%", "D10*", "X10000Y20000D03*", "M02*", "X30000D03*"] =
      some [.flash (.circle 1 {}) (1, 2) "dark" "inch", .flash (.circle 1 {}) (3, 2) "dark" "inch"] := by
  decide +kernel

/-- **C90 fails** for incremental coordinates, by `G91` and by the format statement: they are taken as absolute. -/
theorem C90_incremental_violated :
    shown ["%FSLAX24Y24*%", "%MOIN*%", "%ADD10C,1*%", "D10*", "G91*", "X10000Y20000D03*", "X10000D03*"] =
      some [.flash (.circle 1 {}) (1, 2) "dark" "inch", .flash (.circle 1 {}) (1, 2) "dark" "inch"] ∧
    shown ["%FSLIX24Y24*%", "%MOIN*%", "%ADD10C,1*%", "D10*", "X10000Y20000D03*", "X10000D03*"] =
      some [.flash (.circle 1 {}) (1, 2) "dark" "inch", .flash (.circle 1 {}) (1, 2) "dark" "inch"] := by
  decide +kernel

/-- A parameter that changes where or how large things are drawn. -/
def Places : Stmt → Prop
  | .as_ _ => True
  | .ir _ => True
  | .mi _ _ => True
  | .of_ _ _ => True
  | .sf _ _ => True
  | _ => False

/-- **C90 fails** for axis selection, image rotation, mirror, offset and scale factor: they change nothing, wherever they
stand. -/
theorem C90_placing_violated (env : EvalEnv G) (a b : List Stmt) {s : Stmt} (hs : Places s) :
    (evalAll env initState (a ++ s :: b)).map (fun r => r.1.primitives) =
      (evalAll env initState (a ++ b)).map fun r => r.1.primitives := by
  change made env initState _ = made env initState _
  generalize (initState : EvalState G) = st
  induction a generalizing st with
  | nil =>
    rw [List.nil_append, List.nil_append, made_cons]
    cases s <;> first | rfl | cases hs
  | cons x a ih =>
    rw [List.cons_append, List.cons_append, made_cons, made_cons]
    cases evaluate env st x with
    | error e => rfl
    | ok r => exact ih r.1

example : Places (.of_ 1 2) ∧ shown ["%FSLAX24Y24*%", "%MOIN*%", "%OFA1.0B2.0*%", "%ADD10C,1*%", "D10*", "X10000Y20000D03*"] =
    some [.flash (.circle 1 {}) (1, 2) "dark" "inch"] := by
  refine ⟨trivial, ?_⟩
  decide +kernel

end Verif.Gerber
