import Verif.Props.Words

/-! # C98: the numbers of apertures and the names of macros do not matter -/

namespace Verif.Gerber
open Verif.Py Verif.Cam

variable {G : Type}

/-! ## Specification -/

/-- The statement with other numbers of apertures and other names of macros. -/
def Stmt.rename (σ : ℕ → ℕ) (τ : Str → Str) : Stmt → Stmt
  | .ad d shape mods => .ad (σ d) (τ shape) mods
  | .aperture d dep => .aperture (σ d) dep
  | .am n b l => .am (τ n) b l
  | s => s

/-- Other numbers for all apertures; the number 0, which is that of a file before it selects one, is kept. -/
structure Renumbers (σ : ℕ → ℕ) : Prop where
  inj : Function.Injective σ
  zero : σ 0 = 0

/-- Other names for all macros; those of the standard shapes are kept. -/
structure Renames (τ : Str → Str) : Prop where
  inj : Function.Injective τ
  standard : ∀ s ∈ [['C'], ['R'], ['O'], ['P']], τ s = s

/-- The aperture is selected nowhere. -/
def NeverSelected (d : ℕ) (l : List Stmt) : Prop := d ≠ 0 ∧ ∀ s ∈ l, ∀ dep, s ≠ .aperture d dep

/-- A statement that may stand before or behind the definition of an aperture: neither a drawing, nor a unit, nor the macro of
the aperture, nor a definition of the same aperture. -/
def Free (d : ℕ) (shape : Str) : Stmt → Prop
  | .coord _ | .mo _ => False
  | .am n _ _ => n ≠ shape
  | .ad d' _ _ => d' ≠ d
  | _ => True

/-! ## States -/

/-- The same state with other numbers and names. -/
structure SameBut (σ : ℕ → ℕ) (τ : Str → Str) (st st' : EvalState G) : Prop where
  split : st' = { st with apertures := st'.apertures, macros := st'.macros, aperture := σ st.aperture }
  apertures : ∀ k, st'.apertures (σ k) = st.apertures k
  macros : ∀ n, st'.macros (τ n) = st.macros n

theorem edgeTo_with (env : EvalEnv G) (st : EvalState G) (A : ℕ → Option (Aperture G)) (M : Str → Option (Str × String)) (a : ℕ)
    (c : Coord) (x y : ℚ) (ap : Aperture G) :
    edgeTo env { st with apertures := A, macros := M, aperture := a } c x y ap = edgeTo env st c x y ap := rfl

/-- An operation looks only at the current aperture. -/
theorem evalOp_with (env : EvalEnv G) (st : EvalState G) (A : ℕ → Option (Aperture G)) (M : Str → Option (Str × String)) (a : ℕ)
    (h : A a = st.apertures st.aperture) (c : Coord) (x y : ℚ) :
    evalOp env { st with apertures := A, macros := M, aperture := a } c x y =
      (evalOp env st c x y).map fun s => { s with apertures := A, macros := M, aperture := a } := by
  unfold evalOp
  simp only [edgeTo_with, h]
  split
  · split
    · cases st.apertures st.aperture <;> rfl
    · rfl
  · split
    · split <;> rfl
    · split
      · cases st.apertures st.aperture <;> rfl
      · rfl

theorem evalOp_tables {env : EvalEnv G} {st s : EvalState G} {c : Coord} {x y : ℚ} (h : evalOp env st c x y = .ok s) :
    s.apertures = st.apertures ∧ s.macros = st.macros ∧ s.aperture = st.aperture := by
  unfold evalOp at h
  split at h
  · split at h
    · split at h
      · cases h
      · cases h; exact ⟨rfl, rfl, rfl⟩
    · cases h; exact ⟨rfl, rfl, rfl⟩
  · split at h
    · split at h <;> (cases h; exact ⟨rfl, rfl, rfl⟩)
    · split at h
      · split at h
        · cases h
        · cases h; exact ⟨rfl, rfl, rfl⟩
      · cases h; exact ⟨rfl, rfl, rfl⟩

theorem setFunction_with (st : EvalState G) (A : ℕ → Option (Aperture G)) (M : Str → Option (Str × String)) (a : ℕ)
    (f : Option Str) : setFunction { st with apertures := A, macros := M, aperture := a } f =
      { setFunction st f with apertures := A, macros := M, aperture := a } ∧
    (setFunction st f).apertures = st.apertures ∧ (setFunction st f).macros = st.macros ∧
      (setFunction st f).aperture = st.aperture := by
  unfold setFunction
  split
  · exact ⟨rfl, rfl, rfl, rfl⟩
  · split
    · exact ⟨rfl, rfl, rfl, rfl⟩
    · split <;> exact ⟨rfl, rfl, rfl, rfl⟩

/-- A coordinate statement looks only at the current aperture, and keeps apertures and macros. -/
theorem evalCoord_with (env : EvalEnv G) (st : EvalState G) (A : ℕ → Option (Aperture G)) (M : Str → Option (Str × String)) (a : ℕ)
    (h : A a = st.apertures st.aperture) (c : Coord) :
    evalCoord env { st with apertures := A, macros := M, aperture := a } c =
      (evalCoord env st c).map fun r => ({ r.1 with apertures := A, macros := M, aperture := a }, r.2) := by
  have hs := setFunction_with st A M a c.function
  unfold evalCoord
  simp only [hs.1]
  have h' : A a = (setFunction st c.function).apertures (setFunction st c.function).aperture := by
    rw [hs.2.1, hs.2.2.2]; exact h
  generalize setFunction st c.function = s at *
  split
  · rfl
  · have key : ∀ (s : EvalState G) (c : Coord) (x y : ℚ), A a = s.apertures s.aperture →
        (evalOp env { s with apertures := A, macros := M, aperture := a } c x y >>= fun s =>
          (.ok ({ s with x := x, y := y }, c) : PyR (EvalState G × Coord))) =
        (evalOp env s c x y >>= fun s => (.ok ({ s with x := x, y := y }, c) : PyR (EvalState G × Coord))).map fun r =>
          ({ r.1 with apertures := A, macros := M, aperture := a }, r.2) := by
      intro s c x y hs
      rw [evalOp_with env s A M a hs]
      cases evalOp env s c x y <;> rfl
    cases hop : c.op with
    | none => exact key s { c with op := some s.op } _ _ h'
    | some o =>
      cases o with
      | nil => exact key s { c with op := some s.op } _ _ h'
      | cons ch o => exact key { s with op := ch :: o } c _ _ h'

theorem evalCoord_tables {env : EvalEnv G} {st : EvalState G} {c : Coord} {r : EvalState G × Coord}
    (h : evalCoord env st c = .ok r) :
    r.1.apertures = st.apertures ∧ r.1.macros = st.macros ∧ r.1.aperture = st.aperture := by
  have hs := setFunction_with st st.apertures st.macros st.aperture c.function
  unfold evalCoord at h
  simp only at h
  rw [← hs.2.1, ← hs.2.2.1, ← hs.2.2.2]
  generalize setFunction st c.function = s at *
  split at h
  · cases h; exact ⟨rfl, rfl, rfl⟩
  · have key : ∀ (s : EvalState G) (c : Coord) (x y : ℚ), (evalOp env s c x y >>= fun s =>
        (.ok ({ s with x := x, y := y }, c) : PyR (EvalState G × Coord))) = .ok r →
        r.1.apertures = s.apertures ∧ r.1.macros = s.macros ∧ r.1.aperture = s.aperture := by
      intro s c x y hk
      cases e : evalOp env s c x y with
      | error e' => rw [e] at hk; cases hk
      | ok s' =>
        rw [e] at hk
        cases hk
        have := evalOp_tables e
        exact this
    cases hop : c.op with
    | none => rw [hop] at h; exact key s { c with op := some s.op } _ _ h
    | some o =>
      cases o with
      | nil => rw [hop] at h; exact key s { c with op := some s.op } _ _ h
      | cons ch o => rw [hop] at h; exact key { s with op := ch :: o } c _ _ h

theorem evalRegion_with (st : EvalState G) (A : ℕ → Option (Aperture G)) (M : Str → Option (Str × String)) (a : ℕ) (m : String) :
    evalRegion { st with apertures := A, macros := M, aperture := a } m =
      { evalRegion st m with apertures := A, macros := M, aperture := a } ∧
    (evalRegion st m).apertures = st.apertures ∧ (evalRegion st m).macros = st.macros ∧
      (evalRegion st m).aperture = st.aperture := by
  unfold evalRegion
  simp only
  split <;> exact ⟨rfl, rfl, rfl, rfl⟩

theorem shapeOf_rename (env : EvalEnv G) {τ : Str → Str} (hτ : Renames τ) {M M' : Str → Option (Str × String)}
    (hM : ∀ n, M' (τ n) = M n) (shape : Str) (mods : List (List ℚ)) :
    shapeOf env M' (τ shape) mods = shapeOf env M shape mods := by
  have h : ∀ s ∈ [['C'], ['R'], ['O'], ['P']], (τ shape = s ↔ shape = s) := by
    intro s hs
    have := hτ.standard s hs
    constructor
    · intro e
      exact hτ.inj (e.trans this.symm)
    · rintro rfl
      exact this
  unfold shapeOf
  simp only [h ['C'] (by simp), h ['R'] (by simp), h ['O'] (by simp), h ['P'] (by simp), hM]

/-- Both fail the same, or both states are related. -/
def Follows (R : EvalState G → EvalState G → Prop) (a b : PyR (EvalState G × Stmt)) : Prop :=
  (∃ e, a = .error e ∧ b = .error e) ∨ ∃ r r', a = .ok r ∧ b = .ok r' ∧ R r.1 r'.1

theorem evaluate_rename (env : EvalEnv G) {σ : ℕ → ℕ} {τ : Str → Str} (hσ : Renumbers σ) (hτ : Renames τ)
    {st st' : EvalState G} (h : SameBut σ τ st st') (s : Stmt) :
    Follows (SameBut σ τ) (evaluate env st s) (evaluate env st' (s.rename σ τ)) := by
  obtain ⟨h1, h2, h3⟩ := h
  generalize st'.apertures = A at *
  generalize st'.macros = M at *
  subst h1
  cases s with
  | coord c =>
    have hc := evalCoord_with env st A M (σ st.aperture) (h2 st.aperture) c
    simp only [Stmt.rename, evaluate]
    rw [hc]
    cases e : evalCoord env st c with
    | error e' => exact .inl ⟨e', rfl, rfl⟩
    | ok r =>
      obtain ⟨k1, k2, k3⟩ := evalCoord_tables e
      refine .inr ⟨_, _, rfl, rfl, ?_, ?_, ?_⟩
      · simp only [k3]
      · simpa only [k1] using h2
      · simpa only [k2] using h3
  | ad d shape mods =>
    simp only [Stmt.rename, evaluate]
    rw [shapeOf_rename env hτ h3]
    cases shapeOf env st.macros shape mods with
    | error e => exact .inl ⟨e, rfl, rfl⟩
    | ok sh =>
      refine .inr ⟨_, _, rfl, rfl, rfl, fun k => ?_, h3⟩
      simp only [hσ.inj.eq_iff, h2]
  | am n b l =>
    refine .inr ⟨_, _, rfl, rfl, rfl, h2, fun k => ?_⟩
    simp only [hτ.inj.eq_iff, h3]
  | region m =>
    have hr := evalRegion_with st A M (σ st.aperture) m
    refine .inr ⟨_, _, rfl, rfl, ?_, ?_, ?_⟩
    · simp only [hr.1, hr.2.2.2]
    · simpa only [hr.1, hr.2.1] using h2
    · simpa only [hr.1, hr.2.2.1] using h3
  | _ => exact .inr ⟨_, _, rfl, rfl, rfl, h2, h3⟩

theorem made_follows (env : EvalEnv G) {R : EvalState G → EvalState G → Prop} (hR : ∀ s s', R s s' → s'.primitives = s.primitives)
    {P : Stmt → Stmt → Prop} (hP : ∀ st st' s s', R st st' → P s s' → Follows R (evaluate env st s) (evaluate env st' s'))
    {l l' : List Stmt} (hl : List.Forall₂ P l l') : ∀ {st st' : EvalState G}, R st st' → made env st' l' = made env st l := by
  induction hl with
  | nil =>
    intro st st' h
    simp [made, evalAll, Except.map, hR _ _ h]
  | cons hs _ ih =>
    intro st st' h
    rw [made_cons, made_cons]
    rcases hP _ _ _ _ h hs with ⟨e, h1, h2⟩ | ⟨r, r', h1, h2, h3⟩
    · rw [h1, h2]; rfl
    · rw [h1, h2]
      exact ih h3

/-! ## C98 -/

/-- **C98** (names).  Other numbers for the apertures and other names for the macros make the same primitives, or the same
error. -/
theorem C98_names (env : EvalEnv G) {σ : ℕ → ℕ} {τ : Str → Str} (hσ : Renumbers σ) (hτ : Renames τ) (l : List Stmt) :
    made env initState (l.map (Stmt.rename σ τ)) = made env initState l := by
  refine made_follows env (R := SameBut σ τ) (P := fun s s' => s' = s.rename σ τ) (fun s s' h => by rw [h.split])
    (fun st st' s s' h e => by rw [e]; exact evaluate_rename env hσ hτ h s) ?_ (st := initState) (st' := initState) ?_
  · induction l with
    | nil => exact .nil
    | cons a l ih => exact .cons rfl ih
  · refine ⟨?_, fun k => rfl, fun n => rfl⟩
    simp [initState, hσ.zero]

/-- **C98** (files).  Texts that are read to the same statements with other numbers and names are loaded to the same
primitives and settings, or fail with the same error. -/
theorem C98_loaded (env : EvalEnv G) (fs fs' : Str → Option Str) {t t' : Str} {l : List Stmt} {σ : ℕ → ℕ} {τ : Str → Str}
    (hσ : Renumbers σ) (hτ : Renames τ) {c : FileSettings} (h : parseText fs t = .ok (l, c))
    (h' : parseText fs' t' = .ok (l.map (Stmt.rename σ τ), c)) :
    (loads env fs' t').map (fun f => (f.primitives, f.settings)) = (loads env fs t).map fun f => (f.primitives, f.settings) := by
  have key := C98_names env hσ hτ l
  unfold made at key
  unfold loads
  rw [h, h']
  simp only [bind, Except.bind]
  cases h1 : evalAll env initState (l.map (Stmt.rename σ τ)) with
  | error e =>
    cases h2 : evalAll env initState l with
    | error e' => rw [h1, h2] at key; cases key; rfl
    | ok v => rw [h1, h2] at key; cases key
  | ok v =>
    cases h2 : evalAll env initState l with
    | error e' => rw [h1, h2] at key; cases key
    | ok w =>
      rw [h1, h2] at key
      simp only [Except.map, Except.ok.injEq] at key
      simp only [Except.map, key]

/-- The same state but for one aperture, which is not the current one. -/
structure SameBarring (d : ℕ) (st st' : EvalState G) : Prop where
  split : st' = { st with apertures := st'.apertures }
  apertures : ∀ k, k ≠ d → st'.apertures k = st.apertures k
  current : st.aperture ≠ d

theorem evaluate_aperture {env : EvalEnv G} {st : EvalState G} {s : Stmt} {r : EvalState G × Stmt}
    (h : evaluate env st s = .ok r) {d : ℕ} (hs : ∀ dep, s ≠ .aperture d dep) (hd : st.aperture ≠ d) : r.1.aperture ≠ d := by
  cases s with
  | coord c =>
    simp only [evaluate] at h
    cases e : evalCoord env st c with
    | error e' => rw [e] at h; cases h
    | ok q =>
      rw [e] at h
      cases h
      have := (evalCoord_tables e).2.2
      simpa only [this] using hd
  | ad d' shape mods =>
    simp only [evaluate] at h
    cases e : shapeOf env st.macros shape mods with
    | error e' => rw [e] at h; cases h
    | ok q => rw [e] at h; cases h; exact hd
  | aperture k dep =>
    cases h
    intro hk
    exact hs dep (by rw [← hk])
  | region m =>
    cases h
    have := (evalRegion_with st st.apertures st.macros st.aperture m).2.2.2
    simpa only [this] using hd
  | _ => cases h; exact hd

theorem evaluate_barring (env : EvalEnv G) {d : ℕ} {st st' : EvalState G} (h : SameBarring d st st') {s : Stmt}
    (hs : ∀ dep, s ≠ .aperture d dep) : Follows (SameBarring d) (evaluate env st s) (evaluate env st' s) := by
  have ha : ∀ r, evaluate env st s = .ok r → r.1.aperture ≠ d := fun r hr => evaluate_aperture hr hs h.current
  obtain ⟨h1, h2, h4⟩ := h
  generalize st'.apertures = A at *
  subst h1
  cases s with
  | coord c =>
    have hc := evalCoord_with env st A st.macros st.aperture (h2 _ h4) c
    simp only [evaluate] at ha ⊢
    change Follows _ _ ((evalCoord env { st with apertures := A, macros := st.macros, aperture := st.aperture } c) >>= _)
    rw [hc]
    cases e : evalCoord env st c with
    | error e' => exact .inl ⟨e', rfl, rfl⟩
    | ok r =>
      obtain ⟨k1, k2, k3⟩ := evalCoord_tables e
      refine .inr ⟨_, _, rfl, rfl, ?_, ?_, ?_⟩
      · simp only [← k3, ← k2]
      · simpa only [k1] using h2
      · simpa only [k3] using h4
  | ad d' shape mods =>
    simp only [evaluate]
    cases shapeOf env st.macros shape mods with
    | error e => exact .inl ⟨e, rfl, rfl⟩
    | ok sh =>
      refine .inr ⟨_, _, rfl, rfl, rfl, fun k hk => ?_, h4⟩
      simp only [h2 k hk]
  | aperture k dep => exact .inr ⟨_, _, rfl, rfl, rfl, h2, ha _ rfl⟩
  | region m =>
    have hr := (evalRegion_with st A st.macros st.aperture m).2
    have e : evalRegion { st with apertures := A } m = { evalRegion st m with apertures := A } := by
      unfold evalRegion
      simp only
      split <;> rfl
    refine .inr ⟨_, _, rfl, rfl, by simp only [e], ?_, ?_⟩
    · simpa only [e, hr.1] using h2
    · simpa only [hr.2.2] using h4
  | _ => exact .inr ⟨_, _, rfl, rfl, rfl, h2, h4⟩

theorem made_barring (env : EvalEnv G) {d : ℕ} {b : List Stmt} (hb : ∀ s ∈ b, ∀ dep, s ≠ .aperture d dep)
    {st st' : EvalState G} (h : SameBarring d st st') : made env st' b = made env st b := by
  refine made_follows env (R := SameBarring d) (P := fun s s' => s' = s ∧ ∀ dep, s ≠ .aperture d dep) (fun s s' h => by rw [h.split])
    (fun st st' s s' h e => by rw [e.1]; exact evaluate_barring env h e.2) ?_ h
  induction b with
  | nil => exact .nil
  | cons x b ih => exact .cons ⟨rfl, hb x (by simp)⟩ (ih fun s hs => hb s (by simp [hs]))

/-- **C98** (unused apertures).  An aperture that is selected nowhere may be left out. -/
theorem C98_unused (env : EvalEnv G) {d : ℕ} {a b : List Stmt} (h : NeverSelected d (a ++ b)) (shape : Str)
    (mods : List (List ℚ)) {p : List (Prim G)} (hp : made env initState (a ++ .ad d shape mods :: b) = .ok p) :
    made env initState (a ++ b) = .ok p := by
  obtain ⟨h0, h⟩ := h
  have key : ∀ st : EvalState G, st.aperture ≠ d → made env st (a ++ .ad d shape mods :: b) = .ok p →
      made env st (a ++ b) = .ok p := by
    clear hp
    induction a with
    | nil =>
      intro st hst hp
      rw [List.nil_append, made_cons] at hp
      simp only [evaluate] at hp
      cases e : shapeOf env st.macros shape mods with
      | error e' => rw [e] at hp; cases hp
      | ok sh =>
        rw [e] at hp
        rw [List.nil_append, ← hp]
        refine (made_barring env (fun s hs => h s (by simp [hs])) ⟨rfl, fun k hk => ?_, hst⟩).symm
        simp [hk]
    | cons x a ih =>
      intro st hst hp
      rw [List.cons_append, made_cons] at hp ⊢
      cases e : evaluate env st x with
      | error e' => rw [e] at hp; cases hp
      | ok r =>
        rw [e] at hp
        exact ih (fun s hs => h s (by simp only [List.cons_append, List.mem_cons]; exact Or.inr hs)) r.1
          (evaluate_aperture e (h x (by simp)) hst) hp
  exact key initState (fun e => h0 e.symm) hp

theorem made_context (env : EvalEnv G) {x y : List Stmt}
    (h : ∀ (st : EvalState G) (p : List (Prim G)), made env st x = .ok p → made env st y = .ok p) (a : List Stmt) :
    ∀ (st : EvalState G) (p : List (Prim G)), made env st (a ++ x) = .ok p → made env st (a ++ y) = .ok p := by
  induction a with
  | nil => exact h
  | cons s a ih =>
    intro st p hp
    rw [List.cons_append, made_cons] at hp ⊢
    cases e : evaluate env st s with
    | error e' => rw [e] at hp; cases hp
    | ok r => rw [e] at hp; exact ih r.1 p hp

theorem made_free (env : EvalEnv G) {d : ℕ} {shape : Str} {s : Stmt} (hs : Free d shape s) (mods : List (List ℚ)) (b : List Stmt)
    (st : EvalState G) (p : List (Prim G)) :
    made env st (.ad d shape mods :: s :: b) = .ok p ↔ made env st (s :: .ad d shape mods :: b) = .ok p := by
  rw [made_cons, made_cons]
  cases s with
  | coord c => cases hs
  | mo m => cases hs
  | am n t l =>
    have : (fun k => if k = n then some (t, st.settings.units) else st.macros k) shape = st.macros shape := by
      simp only
      rw [if_neg (Ne.symm hs)]
    have hsh : shapeOf env (fun k => if k = n then some (t, st.settings.units) else st.macros k) shape mods =
        shapeOf env st.macros shape mods := by
      unfold shapeOf
      simp only [this]
    simp only [evaluate, bind, Except.bind, made_cons, hsh]
    cases shapeOf env st.macros shape mods <;> rfl
  | ad d' shape' mods' =>
    have hd : d' ≠ d := hs
    simp only [evaluate, bind, Except.bind, made_cons]
    cases h1 : shapeOf env st.macros shape mods with
    | error e => cases h2 : shapeOf env st.macros shape' mods' <;> simp [h1]
    | ok a =>
      cases h2 : shapeOf env st.macros shape' mods' with
      | error e => simp [h2]
      | ok a' =>
        have : (fun k => if k = d' then some (⟨a', some st.settings.units⟩ : Aperture G)
            else if k = d then some ⟨a, some st.settings.units⟩ else st.apertures k) =
            fun k => if k = d then some ⟨a, some st.settings.units⟩
              else if k = d' then some ⟨a', some st.settings.units⟩ else st.apertures k := by
          funext k
          by_cases h1 : k = d'
          · subst h1; simp [hd]
          · by_cases h2 : k = d
            · subst h2; simp [h1]
            · simp [h1, h2]
        simp only [h1, h2, this]
  | region m =>
    simp only [evaluate, bind, Except.bind, made_cons]
    have hr := fun A => evalRegion_with st A st.macros st.aperture m
    have hu : (evalRegion st m).settings = st.settings := by
      unfold evalRegion
      split <;> rfl
    rw [(hr st.apertures).2.2.1]
    cases shapeOf env st.macros shape mods with
    | error e => simp
    | ok a =>
      simp only
      have e1 := (hr fun k => if k = d then some ⟨a, some st.settings.units⟩ else st.apertures k).1
      rw [show evalRegion { st with apertures := fun k => if k = d then some ⟨a, some st.settings.units⟩ else st.apertures k } m = _
        from e1]
      rw [hu, (hr st.apertures).2.1]
      simp only [← (hr st.apertures).2.2.1, ← (hr st.apertures).2.2.2, hu]
  | fs z n f =>
    have hu : (st.settings.setZeroSuppression z).units = st.settings.units := by
      unfold FileSettings.setZeroSuppression
      split <;> rfl
    simp only [evaluate, bind, Except.bind, made_cons, hu]
    cases shapeOf env st.macros shape mods <;> rfl
  | _ =>
    simp only [evaluate, bind, Except.bind, made_cons]
    try (cases shapeOf env st.macros shape mods <;> rfl)

/-- **C98** (order of definitions).  The definition of an aperture may change places with every statement that neither draws, nor
sets the unit, nor defines its macro, nor defines the same aperture. -/
theorem C98_order (env : EvalEnv G) {d : ℕ} {shape : Str} {s : Stmt} (hs : Free d shape s) (mods : List (List ℚ)) (a b : List Stmt)
    (p : List (Prim G)) :
    made env initState (a ++ .ad d shape mods :: s :: b) = .ok p ↔ made env initState (a ++ s :: .ad d shape mods :: b) = .ok p :=
  ⟨made_context env (fun st p => (made_free env hs mods b st p).1) a initState p,
    made_context env (fun st p => (made_free env hs mods b st p).2) a initState p⟩

/-! ## Examples -/

/-- Apertures from 10 on get numbers that are higher by 15. -/
example : Renumbers fun d => if d < 10 then d else d + 15 where
  inj a b h := by
    simp only at h
    split at h <;> split at h <;> omega
  zero := rfl

/-- Macros get longer names. -/
example : Renames fun n => if n ∈ [['C'], ['R'], ['O'], ['P']] then n else n ++ "_NEW".toList where
  inj a b h := by
    simp only at h
    split at h <;> split at h
    · exact h
    · rename_i h1 _
      exfalso
      have := congrArg List.length h
      simp only [List.mem_cons, List.not_mem_nil, or_false] at h1
      rcases h1 with rfl | rfl | rfl | rfl <;> simp at this
    · rename_i _ h1
      exfalso
      have := congrArg List.length h
      simp only [List.mem_cons, List.not_mem_nil, or_false] at h1
      rcases h1 with rfl | rfl | rfl | rfl <;> simp at this
    · exact List.append_cancel_right h
  standard s hs := by simp only [hs, if_true]

/-- The same file with other numbers, with an aperture that is not used, and with definitions in another order. -/
example : shown ["%FSLAX24Y24*%", "%MOIN*%", "%ADD10C,1*%", "%ADD11C,2*%", "D11*", "X10000Y20000D03*", "M02*"] =
      some [.flash (.circle 2 {}) (1, 2) "dark" "inch"] ∧
    shown ["%FSLAX24Y24*%", "%MOIN*%", "%ADD25C,1*%", "%ADD26C,2*%", "D26*", "X10000Y20000D03*", "M02*"] =
      some [.flash (.circle 2 {}) (1, 2) "dark" "inch"] ∧
    shown ["%FSLAX24Y24*%", "%MOIN*%", "D11*", "%ADD11C,2*%", "X10000Y20000D03*", "M02*"] =
      some [.flash (.circle 2 {}) (1, 2) "dark" "inch"] := by
  decide +kernel

example : NeverSelected 10 [.mo "inch", .ad 11 ['C'] [[2]], .aperture 11 false] ∧ Free 11 ['C'] (.aperture 11 false) ∧
    Free 10 "THERMAL".toList (.am "OTHER".toList [] []) :=
  ⟨⟨by decide, by simp⟩, trivial, by change "OTHER".toList ≠ "THERMAL".toList; decide⟩

end Verif.Gerber
