import Verif.Props.Words
import Verif.Props.DrillRemarks

/-! # C100: what has been read is not changed by what follows -/

namespace Verif.Gerber
open Verif.Py Verif.Cam

variable {G : Type}

/-! ## Gerber files -/

/-- The statement may draw: it gives coordinates, or it leaves a region. -/
def Stmt.mayDraw : Stmt → Bool
  | .coord c => c.op.isSome || c.x.isSome || c.y.isSome || c.i.isSome || c.j.isSome || c.function.isNone
  | .region m => m == "off"
  | _ => false

theorem setFunction_primitives (st : EvalState G) (f : Option Str) : (setFunction st f).primitives = st.primitives := by
  unfold setFunction
  split_ifs <;> rfl

theorem evalOp_adds (env : EvalEnv G) {st st' : EvalState G} {c : Coord} {x y : ℚ} (h : evalOp env st c x y = .ok st') :
    ∃ r, st'.primitives = st.primitives ++ r ∧ r.length ≤ 1 := by
  unfold evalOp at h
  split_ifs at h
  · cases e : st.apertures st.aperture with
    | none => rw [e] at h; cases h
    | some ap => rw [e] at h; cases h; exact ⟨_, rfl, le_refl _⟩
  · cases h; exact ⟨[], by simp, by simp⟩
  · cases h
    cases st.currentRegion with
    | none => exact ⟨[], by simp, by simp⟩
    | some l =>
      dsimp only
      split_ifs
      · exact ⟨_, rfl, le_refl _⟩
      · exact ⟨[], by simp, by simp⟩
  · cases h; exact ⟨[], by simp, by simp⟩
  · cases e : st.apertures st.aperture with
    | none => rw [e] at h; cases h
    | some ap => rw [e] at h; cases h; exact ⟨_, rfl, le_refl _⟩
  · cases h; exact ⟨[], by simp, by simp⟩

/-- **C100** (statements).  A statement adds at most one primitive behind the others and changes none of them; only
coordinates and the end of a region add one. -/
theorem C100_statement (env : EvalEnv G) {st st' : EvalState G} {s s' : Stmt} (h : evaluate env st s = .ok (st', s')) :
    ∃ r, st'.primitives = st.primitives ++ r ∧ r.length ≤ if s.mayDraw then 1 else 0 := by
  cases s with
  | coord c =>
    simp only [evaluate] at h
    cases e : evalCoord env st c with
    | error _ => rw [e] at h; cases h
    | ok v =>
      rw [e] at h
      obtain ⟨st1, c1⟩ := v
      cases h
      unfold evalCoord at e
      simp only at e
      split_ifs at e with hf
      · cases e
        refine ⟨[], ?_, by simp⟩
        rw [setFunction_primitives]; simp
      · have hm : Stmt.mayDraw (.coord c) = true := by
          have hf : ¬(c.function.isSome && c.op.isNone && c.x.isNone && c.y.isNone && c.i.isNone && c.j.isNone) = true := hf
          change (c.op.isSome || c.x.isSome || c.y.isSome || c.i.isSome || c.j.isSome || c.function.isNone) = true
          revert hf
          cases c.function <;> cases c.op <;> cases c.x <;> cases c.y <;> cases c.i <;> cases c.j <;> simp
        rw [hm]
        have fin : ∀ {t : EvalState G} {d : Coord}, t.primitives = st.primitives →
            (do let u ← evalOp env t d (c.x.getD st.x) (c.y.getD st.y)
                .ok ({ u with x := c.x.getD st.x, y := c.y.getD st.y }, d) : PyR (EvalState G × Coord)) = .ok (st1, c1) →
            ∃ r, st1.primitives = st.primitives ++ r ∧ r.length ≤ 1 := by
          intro t d ht hd
          cases e2 : evalOp env t d (c.x.getD st.x) (c.y.getD st.y) with
          | error _ => rw [e2] at hd; cases hd
          | ok u =>
            rw [e2] at hd
            cases hd
            have := evalOp_adds env e2
            rwa [ht] at this
        rcases ho : c.op with _ | _ | ⟨ch, o⟩ <;> rw [ho] at e
        · exact fin (setFunction_primitives _ _) e
        · exact fin (setFunction_primitives _ _) e
        · refine fin (t := { setFunction st c.function with op := ch :: o }) ?_ e
          exact setFunction_primitives _ _
  | region m =>
    cases h
    unfold evalRegion
    split_ifs with h1 h2 h2
    · cases st.currentRegion with
      | none => exact ⟨[], by simp, by simp⟩
      | some l => cases l with
        | nil => exact ⟨[], by simp, by simp⟩
        | cons e es => exact ⟨_, rfl, le_refl _⟩
    · exact absurd (by simp [Stmt.mayDraw, h1.2]) h2
    · exact ⟨[], by simp, by simp⟩
    · exact ⟨[], by simp, by simp⟩
  | ad d shape mods =>
    simp only [evaluate] at h
    cases e : shapeOf env st.macros shape mods with
    | error _ => rw [e] at h; cases h
    | ok v => rw [e] at h; cases h; exact ⟨[], by simp, by simp⟩
  | _ => cases h; exact ⟨[], by simp, by simp⟩

/-- **C100** (Gerber).  If a list of statements can be read, so can its beginning; the statements and primitives of the
beginning are the first ones of the whole, unchanged, and the rest adds at most one primitive for each statement that may
draw. -/
theorem C100_gerber (env : EvalEnv G) {b : List Stmt} : ∀ {a : List Stmt} {st st2 : EvalState G} {l : List Stmt},
    evalAll env st (a ++ b) = .ok (st2, l) → ∃ st1 la lb r, evalAll env st a = .ok (st1, la) ∧
      evalAll env st1 b = .ok (st2, lb) ∧ l = la ++ lb ∧ st2.primitives = st1.primitives ++ r ∧
      r.length ≤ b.countP Stmt.mayDraw := by
  have tail : ∀ {b : List Stmt} {st st2 : EvalState G} {l : List Stmt}, evalAll env st b = .ok (st2, l) →
      ∃ r, st2.primitives = st.primitives ++ r ∧ r.length ≤ b.countP Stmt.mayDraw := by
    intro b
    induction b with
    | nil => intro st st2 l h; cases h; exact ⟨[], by simp, by simp⟩
    | cons s b ih =>
      intro st st2 l h
      simp only [evalAll] at h
      cases e : evaluate env st s with
      | error _ => rw [e] at h; cases h
      | ok v =>
        obtain ⟨st1, s1⟩ := v
        rw [e] at h
        simp only [bind, Except.bind] at h
        cases e2 : evalAll env st1 b with
        | error _ => rw [e2] at h; cases h
        | ok w =>
          obtain ⟨st3, l3⟩ := w
          rw [e2] at h
          cases h
          obtain ⟨r1, h1, h2⟩ := C100_statement env e
          obtain ⟨r2, h3, h4⟩ := ih e2
          refine ⟨r1 ++ r2, by rw [h3, h1, List.append_assoc], ?_⟩
          rw [List.length_append, List.countP_cons]
          split_ifs at h2 ⊢ <;> omega
  intro a
  induction a with
  | nil =>
    intro st st2 l h
    obtain ⟨r, h1, h2⟩ := tail h
    exact ⟨st, [], l, r, rfl, h, rfl, h1, h2⟩
  | cons s a ih =>
    intro st st2 l h
    simp only [List.cons_append, evalAll] at h
    cases e : evaluate env st s with
    | error _ => rw [e] at h; cases h
    | ok v =>
      obtain ⟨st1, s1⟩ := v
      rw [e] at h
      simp only [bind, Except.bind] at h
      cases e2 : evalAll env st1 (a ++ b) with
      | error _ => rw [e2] at h; cases h
      | ok w =>
        obtain ⟨st3, l3⟩ := w
        rw [e2] at h
        cases h
        obtain ⟨st4, la, lb, r, h1, h2, h3, h4, h5⟩ := ih e2
        refine ⟨st4, s1 :: la, lb, r, ?_, h2, by rw [h3]; rfl, h4, h5⟩
        simp only [evalAll, e, bind, Except.bind, h1]

/-- **C100** (files).  A file has at most as many primitives as statements that may draw. -/
theorem C100_file (env : EvalEnv G) (fs : Str → Option Str) {t : Str} {l : List Stmt} {c : FileSettings} {f : GerberFile G}
    (ht : parseText fs t = .ok (l, c)) (h : loads env fs t = .ok f) : f.primitives.length ≤ l.countP Stmt.mayDraw := by
  unfold loads at h
  rw [ht] at h
  simp only [bind, Except.bind] at h
  cases e : evalAll env initState l with
  | error _ => rw [e] at h; cases h
  | ok v =>
    obtain ⟨st, l'⟩ := v
    rw [e] at h
    cases h
    obtain ⟨st1, la, lb, r, h1, h2, h3, h4, h5⟩ := C100_gerber env (a := []) (b := l) e
    cases h1
    rw [h4]
    exact h5

-- a circle is flashed, then its number gets another circle: the first statements keep their primitive
example : shown ["%FSLAX24Y24*%", "%MOIN*%", "%ADD10C,1*%", "D10*", "X10000Y20000D03*"] =
      some [.flash (.circle 1 {}) (1, 2) "dark" "inch"] ∧
    shown ["%FSLAX24Y24*%", "%MOIN*%", "%ADD10C,1*%", "D10*", "X10000Y20000D03*", "%ADD10C,2*%", "X20000D03*", "M02*"] =
      some [.flash (.circle 1 {}) (1, 2) "dark" "inch", .flash (.circle 2 {}) (2, 2) "dark" "inch"] := by
  decide +kernel

end Verif.Gerber

namespace Verif.Excellon
open Verif.Py Verif.Cam Verif.Utils

/-! ## Drill files -/

/-- A tool without its settings and the count of its hits. -/
def Tool.made (t : Tool) : Tool := { t with settings := none, hitCount := 0 }

/-- Everything made before is there and has the same tools, which are the same but for their settings and counts. -/
def Grown (n : ℕ) (hits hits' : List Hit) (heap heap' : List Tool) : Prop :=
  (∃ r, hits' = hits ++ r ∧ r.length ≤ n) ∧
    ∀ (i : ℕ) (t : Tool), heap[i]? = some t → ∃ t', heap'[i]? = some t' ∧ t'.made = t.made

/-- The states grow. -/
abbrev GrownState (n : ℕ) (s s' : PState) : Prop := Grown n s.hits s'.hits s.heap s'.heap

theorem GrownState.refl {n : ℕ} (s : PState) : GrownState n s s := ⟨⟨[], by simp, by simp⟩, fun _ t h => ⟨t, h, rfl⟩⟩

theorem GrownState.trans {n m : ℕ} {s t u : PState} (h : GrownState n s t) (h' : GrownState m t u) : GrownState (n + m) s u := by
  obtain ⟨⟨r, h1, hr⟩, h2⟩ := h
  obtain ⟨⟨q, h3, hq⟩, h4⟩ := h'
  refine ⟨⟨r ++ q, by rw [h3, h1, List.append_assoc], by rw [List.length_append]; omega⟩, fun i t ht => ?_⟩
  obtain ⟨t1, h5, h6⟩ := h2 i t ht
  obtain ⟨t2, h7, h8⟩ := h4 i t1 h5
  exact ⟨t2, h7, h8.trans h6⟩

theorem GrownState.mono {n m : ℕ} {s t : PState} (h : GrownState n s t) (hm : n ≤ m) : GrownState m s t :=
  ⟨⟨h.1.choose, h.1.choose_spec.1, h.1.choose_spec.2.trans hm⟩, h.2⟩

/-- If the step succeeds, the state grows. -/
def Keep (n : ℕ) (s : PState) (x : PyR PState) : Prop := ∀ s', x = .ok s' → GrownState n s s'

theorem Keep.ok {n : ℕ} {s t : PState} (h : GrownState n s t) : Keep n s (.ok t) := fun _ e => by cases e; exact h

theorem Keep.error {n : ℕ} {s : PState} {e : PyErr} : Keep n s (.error e) := fun _ h => by cases h

theorem Keep.bind {n : ℕ} {α : Type} {s : PState} {x : PyR α} {f : α → PyR PState} (h : ∀ a, Keep n s (f a)) :
    Keep n s (x >>= f) := by
  intro s' hs
  obtain ⟨a, _, ha⟩ := bindOk hs
  exact h a s' ha

theorem Keep.andThen {n m : ℕ} {s : PState} {x : PyR PState} {f : PState → PyR PState} (hx : Keep n s x)
    (h : ∀ t, Keep m t (f t)) : Keep (n + m) s (x >>= f) := by
  intro s' hs
  obtain ⟨t, ht, hf⟩ := bindOk hs
  exact (hx t ht).trans (h t s' hf)

theorem Keep.ite {n : ℕ} {c : Prop} [Decidable c] {s : PState} {x y : PyR PState} (hx : c → Keep n s x) (hy : ¬c → Keep n s y) :
    Keep n s (if c then x else y) := by
  by_cases h : c
  · rw [if_pos h]; exact hx h
  · rw [if_neg h]; exact hy h

/-- A state with the same hits and tools. -/
theorem Keep.same {n : ℕ} {s t : PState} (h1 : t.hits = s.hits) (h2 : t.heap = s.heap) : Keep n s (.ok t) :=
  .ok ⟨⟨[], by simp [h1], by simp⟩, fun _ t h => ⟨t, by rw [h2]; exact h, rfl⟩⟩

theorem Keep.of {n : ℕ} {s t : PState} {x : PyR PState} (h : Keep n t x) (h1 : t.hits = s.hits) (h2 : t.heap = s.heap) :
    Keep n s x := by
  intro s' hs
  have := h s' hs
  unfold GrownState at this
  rwa [h1, h2] at this

theorem modify_made {h : List Tool} {r : ℕ} {g : Tool → Tool} (hg : ∀ t, (g t).made = t.made) (i : ℕ) (t : Tool)
    (ht : h[i]? = some t) : ∃ t', (h.modify r g)[i]? = some t' ∧ t'.made = t.made := by
  rw [List.getElem?_modify, ht]
  by_cases e : r = i
  · simp [e, hg]
  · simp [e]

theorem getTool_keep (s : PState) (n : ℤ) {r : Option ℕ} {t : PState} (h : s.getTool n = .ok (r, t)) : GrownState 0 s t := by
  have set : ∀ (k : ℕ) (st : FileSettings) (d : List (ℤ × ℕ)),
      GrownState 0 s { s with heap := setToolSettings s.heap k st, tools := d } := fun k st d =>
    ⟨⟨[], by simp, by simp⟩, fun i t ht => modify_made (g := fun t => { t with settings := some st }) (fun _ => rfl) i t ht⟩
  unfold PState.getTool at h
  split at h
  · cases h; exact .refl _
  · split at h
    · obtain ⟨st, _, h⟩ := bindOk h
      cases h; exact set _ _ _
    · split at h
      · obtain ⟨st, _, h⟩ := bindOk h
        cases h; exact set _ _ _
      · cases h; exact .refl _

theorem needTool_keep (s : PState) : Keep 0 s s.needTool := by
  intro s' h
  unfold PState.needTool at h
  split at h
  · cases h; exact .refl _
  · obtain ⟨⟨r, t⟩, h1, h2⟩ := bindOk h
    have g : GrownState 0 s t := getTool_keep s 1 h1
    cases h2
    exact g

theorem countHit_keep (s : PState) : Keep 0 s s.countHit := by
  unfold PState.countHit
  split
  · exact .error
  · exact .ok ⟨⟨[], by simp, by simp⟩, fun i t ht =>
      modify_made (g := fun t => { t with hitCount := t.hitCount + 1 }) (fun _ => rfl) i t ht⟩

theorem addHit_keep (s : PState) (x : Hit) : GrownState 1 s (s.addHit x) := ⟨⟨[x], rfl, by simp⟩, fun _ t h => ⟨t, h, rfl⟩⟩

theorem hit_keep {s : PState} (x : PState → Hit) : Keep 1 s (s.needTool >>= fun s => (s.addHit (x s)).countHit) := by
  have := (needTool_keep s).andThen (m := 1) (f := fun s => (s.addHit (x s)).countHit) fun t u h => by
    have := (addHit_keep t (x t)).trans (countHit_keep _ u h)
    simpa using this
  simpa using this

theorem repeatHole_keep (dx dy : ℚ) (n : ℕ) : ∀ s : PState, Keep n s (s.repeatHole dx dy n) := by
  induction n with
  | zero => intro s; exact .ok (.refl _)
  | succ n ih =>
    intro s
    unfold PState.repeatHole
    have h1 : Keep 1 s (PState.countHit (PState.addHit { s with pos := (s.pos.1 + dx, s.pos.2 + dy) }
        (.hole s.active (s.pos.1 + dx, s.pos.2 + dy)))) := by
      intro u hu
      have := (addHit_keep { s with pos := (s.pos.1 + dx, s.pos.2 + dy) } (.hole s.active (s.pos.1 + dx, s.pos.2 + dy))).trans
        (countHit_keep _ u hu)
      simpa using this
    have := h1.andThen fun t => ih t
    rwa [Nat.add_comm] at this

theorem commentLine_keep {n : ℕ} (s : PState) (l : Str) : Keep n s (s.commentLine l) := by
  unfold PState.commentLine
  intro s' h
  obtain ⟨t, h1, h⟩ := bindOk h
  have e : t.hits = s.hits ∧ t.heap = s.heap := by
    unfold PState.commentLineFormat at h1
    split at h1
    · obtain ⟨f, _, h1⟩ := bindOk h1
      cases h1
      split <;> exact ⟨rfl, rfl⟩
    · cases h1; exact ⟨rfl, rfl⟩
  have key : Keep n t (have s := t.commentLinePlating (lstripBy (· == ';') l)
      let s := { s with state := if isInfix "HEADER:".toList (lstripBy (· == ';') l) then "HEADER" else s.state }
      if isInfix " Holesize ".toList (lstripBy (· == ';') l) then do
        let s := { s with state := "HEADER" }
        let st ← s.settings
        let ts ← toolDefs st.units (lstripBy (· == ';') l)
        if ts.length = 1 then .error .typeError else .ok s
      else .ok s) :=
    .ite (fun _ => .bind fun _ => .bind fun _ => .ite (fun _ => .error) fun _ => .same rfl rfl) fun _ => .same rfl rfl
  exact key.of e.1 e.2 s' h

theorem selectTool_keep {n : ℕ} (s : PState) (l : Str) : Keep n s (s.selectTool l) := by
  unfold PState.selectTool
  refine .bind fun k => ?_
  cases k <;> first | exact .ok (.refl _) | skip
  rename_i m c
  refine .ite (fun _ => .same rfl rfl) fun _ => ?_
  intro s' h
  obtain ⟨⟨r, t⟩, h1, h⟩ := bindOk h
  have g : GrownState 0 (s.add (.toolSel m c)) t := getTool_keep _ _ h1
  have g : GrownState 0 s t := g
  refine GrownState.mono ?_ (Nat.zero_le n)
  cases r with
  | some r => cases h; exact g
  | none =>
    obtain ⟨st, _, h⟩ := bindOk h
    cases h
    refine ⟨g.1, fun i u hu => ?_⟩
    obtain ⟨u', h2, h3⟩ := g.2 i u hu
    refine ⟨u', ?_, h3⟩
    rw [List.getElem?_append_left (List.getElem?_eq_some_iff.1 h2).1]
    exact h2

theorem defineTool_keep {n : ℕ} (s : PState) (l : Str) : Keep n s (s.defineTool l) := by
  unfold PState.defineTool
  refine .ite (fun _ => .bind fun st => .bind fun t => .ok ⟨⟨[], by simp [PState.add], by simp⟩, fun i u hu => ⟨u, ?_, rfl⟩⟩)
    fun _ => .same rfl rfl
  show (s.heap ++ _)[i]? = some u
  rw [List.getElem?_append_left (List.getElem?_eq_some_iff.1 hu).1]
  exact hu

/-- The number of holes a line may make: the count of a repeat command, one for others. -/
def mostHits (s : PState) (line : Str) : ℕ :=
  match s.settings with
  | .ok st => match repFrom line st with
    | .ok (.rep n _ _) => max 1 n.toNat
    | _ => 1
  | _ => 1

theorem repeatLine_keep (s : PState) (l : Str) : Keep (mostHits s l) s (s.repeatLine l) := by
  unfold PState.repeatLine mostHits
  intro s' h
  obtain ⟨st, h1, h⟩ := bindOk h
  obtain ⟨k, h2, h⟩ := bindOk h
  rw [h1]
  simp only [h2]
  cases k <;> first | (cases h; exact .refl _) | skip
  rename_i n dx dy
  have := (repeatHole_keep (dx.getD 0) (dy.getD 0) n.toNat (s.add (.rep n dx dy))).of rfl rfl s' h
  exact this.mono (le_max_right _ _)

theorem one_le_mostHits (s : PState) (l : Str) : 1 ≤ mostHits s l := by
  unfold mostHits
  split
  · split
    · exact le_max_left _ _
    · exact le_refl _
  · exact le_refl _

theorem Keep.mono {n m : ℕ} {s : PState} {x : PyR PState} (h : Keep n s x) (hm : n ≤ m) : Keep m s x :=
  fun s' hs => (h s' hs).mono hm

theorem slotLine_keep (s : PState) (l : Str) : Keep 1 s (s.slotLine l) := by
  unfold PState.slotLine
  refine .bind fun st => .bind fun k => ?_
  cases k <;> first | exact .ok (.refl _) | skip
  rename_i x1 y1 x2 y2
  refine .ite (fun _ => ?_) fun _ => .same rfl rfl
  exact (hit_keep (s := { s.add (.slot x1 y1 x2 y2) with pos := move s.notation_ s.pos x2 y2 })
    fun s => .slot s.active (x1, y1) (x2, y2) true).of rfl rfl

theorem coordLine_keep (s : PState) (l : Str) : Keep 1 s (s.coordLine l) := by
  unfold PState.coordLine
  refine .bind fun st => .bind fun xy => ?_
  refine .ite (fun _ => ?_) fun _ => .ite (fun _ => ?_) fun _ => .same rfl rfl
  · have := ((needTool_keep { s.add (.coord xy.1 xy.2 none) with pos := move s.notation_ s.pos xy.1 xy.2 }).andThen (m := 1)
      fun t => .ok (addHit_keep t (.slot t.active (both s.pos) (both t.pos) false))).of (s := s) rfl rfl
    rw [Nat.zero_add] at this
    exact this
  · exact (hit_keep (s := { s.add (.coord xy.1 xy.2 none) with pos := move s.notation_ s.pos xy.1 xy.2 })
      fun s => .hole s.active s.pos).of rfl rfl

theorem linear_keep (s : PState) (l : Str) : Keep 1 s (s.linear l) := by
  unfold PState.linear
  refine .bind fun st => .bind fun xy => ?_
  refine .ite (fun _ => ?_) fun _ => .same rfl rfl
  exact (hit_keep (s := { PState.add { s.add .routeMode with state := "LINEAR" } (.coord xy.1 xy.2 (some "LINEAR")) with
    pos := move s.notation_ s.pos xy.1 xy.2 }) fun t => .slot t.active (both s.pos) (both t.pos) false).of rfl rfl

theorem nextTool_keep {n : ℕ} (s : PState) : Keep n s s.nextTool := by
  unfold PState.nextTool
  split
  · exact .error
  · intro s' h
    obtain ⟨t, _, h⟩ := bindOk h
    obtain ⟨⟨r, u⟩, h1, h⟩ := bindOk h
    cases h
    exact (getTool_keep s _ h1).mono (Nat.zero_le n)

theorem dispatch_keep (s : PState) (l : Str) : Keep (mostHits s l) s (s.dispatch l) := by
  have one := one_le_mostHits s l
  have same : ∀ {t : PState}, t.hits = s.hits → t.heap = s.heap → Keep (mostHits s l) s (.ok t) := fun h1 h2 => .same h1 h2
  unfold PState.dispatch
  refine .ite (fun _ => commentLine_keep s l) fun _ => .ite (fun _ => same rfl rfl) fun _ => .ite (fun _ => same rfl rfl) fun _ =>
    .ite (fun _ => nextTool_keep s) fun _ => .ite (fun _ => same rfl rfl) fun _ => .ite (fun _ => same rfl rfl) fun _ =>
    .ite (fun _ => same rfl rfl) fun _ => .ite (fun _ => same rfl rfl) fun _ =>
    .ite (fun _ => .bind fun _ => .bind fun _ => same rfl rfl) fun _ =>
    .ite (fun _ => .ite (fun _ => same rfl rfl) fun _ => ?_) fun _ =>
    .ite (fun _ => .ite (fun _ => same rfl rfl) fun _ => (linear_keep s l).mono one) fun _ => .ite (fun _ => same rfl rfl) fun _ => ?_
  · unfold PState.rout
    exact .bind fun _ => .bind fun _ => same rfl rfl
  unfold PState.dispatchSettings
  refine .ite (fun _ => ?_) fun _ => .ite (fun _ => .bind fun _ => same rfl rfl) fun _ => .ite (fun _ => ?_) fun _ =>
    .ite (fun _ => .bind fun _ => same rfl rfl) fun _ => .ite (fun _ => .bind fun _ => same rfl rfl) fun _ =>
    .ite (fun _ => same rfl rfl) fun _ => .ite (fun _ => same rfl rfl) fun _ => .ite (fun _ => same rfl rfl) fun _ =>
    .ite (fun _ => same rfl rfl) fun _ => .ite (fun _ => .bind fun _ => same rfl rfl) fun _ => ?_
  · unfold PState.unitLine
    split <;> exact same rfl rfl
  · split <;> exact same rfl rfl
  unfold PState.dispatchTools
  exact .ite (fun _ => defineTool_keep s l) fun _ => .ite (fun _ => selectTool_keep s l) fun _ =>
    .ite (fun _ => repeatLine_keep s l) fun _ => .ite (fun _ => .ite (fun _ => (slotLine_keep s l).mono one) fun _ =>
      (coordLine_keep s l).mono one) fun _ => same rfl rfl

/-- **C100** (lines).  A line of a drill file adds its holes behind the others and changes none of them, nor their tools
but for their settings and counts; it adds at most one hole or slot, or as many as a repeat command says. -/
theorem C100_line {s s' : PState} {line : Str} (h : s.parseLine line = .ok s') :
    Grown (mostHits s (s.prev ++ line)) s.hits s'.hits s.heap s'.heap := by
  unfold PState.parseLine at h
  simp only at h
  split at h
  · cases h
    exact (GrownState.refl s).mono (Nat.zero_le _)
  · exact (dispatch_keep { s with prev := [] } (s.prev ++ line)).of rfl rfl s' h

/-- **C100** (drill).  The holes and slots of a beginning of a drill file that consists of whole lines are the first ones of the whole
file, and their tools are the same but for their settings and counts. -/
theorem C100_drill {settings : Option FileSettings} {ext : List (ℤ × Tool)} {a b : List Str} (ha : ∀ l ∈ a, '\n' ∉ l)
    (hb : ∀ l ∈ b, '\n' ∉ l) {f g : XFile} (hf : parseRaw settings ext (unlines (a ++ b)) = .ok f)
    (hg : parseRaw settings ext (unlines a) = .ok g) :
    (∃ r, f.hits = g.hits ++ r) ∧
      ∀ (i : ℕ) (t : Tool), g.heap[i]? = some t → ∃ t', f.heap[i]? = some t' ∧ t'.made = t.made := by
  unfold parseRaw at hf hg
  rw [pyLines_unlines (by simpa [or_imp, forall_and] using ⟨ha, hb⟩)] at hf
  rw [pyLines_unlines ha] at hg
  have run : ∀ (b : List Str) (s s' : PState), s.run b = .ok s' → ∃ n, GrownState n s s' := by
    intro b
    induction b with
    | nil => intro s s' h; cases h; exact ⟨0, .refl _⟩
    | cons l b ih =>
      intro s s' h
      unfold PState.run at h
      rw [List.foldlM_cons] at h
      obtain ⟨t, h1, h2⟩ := bindOk h
      obtain ⟨n, h3⟩ := ih t s' h2
      exact ⟨_, GrownState.trans (C100_line h1) h3⟩
  obtain ⟨s, h1, h2⟩ := bindOk hf
  obtain ⟨t, h3, h4⟩ := bindOk hg
  unfold PState.run at h1
  rw [List.foldlM_append] at h1
  obtain ⟨u, h5, h6⟩ := bindOk h1
  unfold PState.run at h3
  rw [h3] at h5
  cases h5
  obtain ⟨n, h7, h8⟩ := run b t s h6
  unfold PState.finish at h2 h4
  obtain ⟨_, _, h2⟩ := bindOk h2
  obtain ⟨_, _, h4⟩ := bindOk h4
  cases h2
  cases h4
  exact ⟨⟨_, h7.choose_spec.1⟩, h8⟩

/-- The hits and the diameters of the tools of a file. -/
def hitsAndTools (l : List String) : Option (List Hit × List (Option ℚ)) :=
  match parseRaw none [] (unlines (l.map String.toList)) with
  | .ok f => some (f.hits, f.heap.map (·.diameter))
  | .error _ => none

-- the hypotheses of C100_drill: a tool is defined again, the first hole keeps its tool
example : hitsAndTools ["M48", "INCH,LZ", "T1C0.02", "%", "T1", "X01Y02"] =
      some ([.hole (some 0) (1, 2)], [some (2 / 100)]) ∧
    hitsAndTools ["M48", "INCH,LZ", "T1C0.02", "%", "T1", "X01Y02", "M48", "T1C0.03", "%", "T1", "R2X01"] =
      some ([.hole (some 0) (1, 2), .hole (some 1) (2, 2), .hole (some 1) (3, 2)], [some (2 / 100), some (3 / 100)]) := by
  decide +kernel

end Verif.Excellon
