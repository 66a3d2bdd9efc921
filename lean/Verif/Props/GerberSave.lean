import Verif.Model.GerberSave
import Verif.Props.Eval
import Verif.Props.GroupWrite
import Verif.Model.MacroPicture

/-! # C83: a Gerber file written and read again shows the same -/

namespace Verif.Gerber
open Verif.Py Verif.Cam Verif.Am

variable {G : Type}

/-! ## Spec -/

/-- Is this a macro statement? -/
def isAM : Stmt → Bool
  | .am _ _ _ => true
  | _ => false

/-- The macros of a file (`s` is what reading leaves of them) can be written: every macro is used, and made the same
primitives each time, which are shapes with numbers that are printed as they are, or comments of one line; names are
those the writer may use. -/
structure MacrosKept (s : AmState) (l : List Stmt) : Prop where
  same : ∀ u ∈ s.uses, u.2.2 = s.prims u.1
  some_ : ∀ u ∈ s.uses, u.2.2 ≠ []
  used : ∀ k n b x, l[k]? = some (.am n b x) → s.prims k ≠ []
  plainly : ∀ u ∈ s.uses, ∀ p ∈ u.2.2, Rs274x.Plainly p
  names : ∀ n b x, .am n b x ∈ l → MacroName n

/-! ## What is written -/

/-- The same with the text as it will be read. -/
def readable (prims : ℕ → List AmPrim) (k : ℕ) : List Stmt → List Stmt
  | [] => []
  | .am n _ _ :: l => .am n (reread (prims k)) ((prims k).map toGerber) :: readable prims (k + 1) l
  | s :: l => s :: readable prims (k + 1) l

theorem write_readable (st : FileSettings) (prims : ℕ → List AmPrim) (l : List Stmt) (k : ℕ) :
    writeFile st (readable prims k l) = writeFile st (withPrims prims k l) := by
  induction l generalizing k with
  | nil => rfl
  | cons s l ih => cases s <;> simp only [readable, withPrims, writeFile, Stmt.toGerber, ih]

theorem asRead_readable {prims : ℕ → List AmPrim} {l : List Stmt} {k : ℕ}
    (h : ∀ j n b x, l[j]? = some (.am n b x) → prims (k + j) ≠ []) (h' : ∀ s ∈ l, isAM s = false → asRead s = s) :
    (readable prims k l).map asRead = rewritten prims k l := by
  induction l generalizing k with
  | nil => rfl
  | cons s l ih =>
    have ih := ih (k := k + 1) (fun j n b x hj => by
      have := h (j + 1) n b x (by simpa using hj)
      rwa [show k + 1 + j = k + (j + 1) by omega]) fun s hs => h' s (by simp [hs])
    cases s with
    | am n b x =>
      have : prims k ≠ [] := h 0 n b x rfl
      simp only [readable, List.map_cons, asRead, rewritten, ih, if_neg this]
    | _ => simp only [readable, List.map_cons, asRead, rewritten, ih]

theorem wf_readable (st : FileSettings) {prims : ℕ → List AmPrim} {l : List Stmt} {k : ℕ} {ready : Bool}
    (h : ∀ j n b x, l[j]? = some (.am n b x) → prims (k + j) ≠ [])
    (hp : ∀ j, ∀ p ∈ prims j, Rs274x.Plainly p) (hn : ∀ n b x, .am n b x ∈ l → MacroName n)
    (hwf : WFList st ready (l.filter fun s => !isAM s)) : WFList st ready (readable prims k l) := by
  induction l generalizing k ready with
  | nil => trivial
  | cons s l ih =>
    have ih := fun r hr => ih (k := k + 1) (ready := r) (fun j n b x hj => by
      have := h (j + 1) n b x (by simpa using hj)
      rwa [show k + 1 + j = k + (j + 1) by omega]) (fun n b x hs => hn n b x (by simp [hs])) hr
    cases s with
    | am n b x =>
      have hne := h 0 n b x rfl
      obtain ⟨p1, p2⟩ := Rs274x.pieces_of (hp k) hne
      have hr := fun p hp' => (hp k p hp').rebuildable
      obtain ⟨qs, h1, -⟩ := rebuild oneLine (.inr rfl) _ hr (bodyText_star hr hne) []
      refine ⟨⟨hn n b x (by simp), p1, p2, readMacro_of_build h1⟩, by simp, ?_⟩
      have : (ready || isFS (.am n (reread (prims k)) ((prims k).map toGerber))) = ready := by simp [isFS]
      rw [this]
      exact ih ready (by simpa [isAM] using hwf)
    | _ =>
      simp only [List.filter_cons, isAM, Bool.not_false, if_true] at hwf
      obtain ⟨h1, h2, h3⟩ := hwf
      exact ⟨h1, h2, ih _ h3⟩

/-! ## Interpreting what was written -/

/-- The state with other macros. -/
def EvalState.withMacros (st : EvalState G) (m : Str → Option (Str × String)) : EvalState G := { st with macros := m }

theorem setFunction_withMacros (st : EvalState G) (m : Str → Option (Str × String)) (f : Option Str) :
    setFunction (st.withMacros m) f = (setFunction st f).withMacros m := by
  unfold setFunction
  split_ifs <;> rfl

theorem evalOp_withMacros (env : EvalEnv G) (st : EvalState G) (m : Str → Option (Str × String)) (c : Coord) (x y : ℚ) :
    evalOp env (st.withMacros m) c x y = (evalOp env st c x y).map (·.withMacros m) := by
  unfold evalOp
  have r1 : (st.withMacros m).op = st.op := rfl
  have r2 : (st.withMacros m).regionMode = st.regionMode := rfl
  have r3 : (st.withMacros m).apertures (st.withMacros m).aperture = st.apertures st.aperture := rfl
  rw [r1, r2, r3]
  split_ifs
  · cases st.apertures st.aperture <;> rfl
  · rfl
  · rfl
  · rfl
  · cases st.apertures st.aperture <;> rfl
  · rfl

theorem evalCoord_withMacros (env : EvalEnv G) (st : EvalState G) (m : Str → Option (Str × String)) (c : Coord) :
    evalCoord env (st.withMacros m) c = (evalCoord env st c).map fun r => (r.1.withMacros m, r.2) := by
  unfold evalCoord
  simp only [setFunction_withMacros]
  split_ifs
  · rfl
  · have key : ∀ (st' : EvalState G) (c' : Coord) (x y : ℚ),
        (do let s ← evalOp env (st'.withMacros m) c' x y
            Except.ok (({ s with x := x, y := y } : EvalState G), c') : PyR (EvalState G × Coord)) =
        (do let s ← evalOp env st' c' x y
            Except.ok (({ s with x := x, y := y } : EvalState G), c') : PyR (EvalState G × Coord)).map
          fun r => (r.1.withMacros m, r.2) := by
      intro st' c' x y
      rw [evalOp_withMacros]
      cases evalOp env st' c' x y <;> rfl
    rcases ho : c.op with _ | _ | ⟨ch, o⟩
    · exact key _ _ _ _
    · exact key _ _ _ _
    · exact key { setFunction st c.function with op := ch :: o } _ _ _

theorem evalCoord_keeps (env : EvalEnv G) {st st' : EvalState G} {c c' : Coord}
    (h : evalCoord env st c = .ok (st', c')) : st'.macros = st.macros := by
  have := evalCoord_withMacros env st st.macros c
  rw [show st.withMacros st.macros = st from rfl, h] at this
  exact congrArg (fun r => EvalState.macros r.1) (Except.ok.inj this)

open Rs274x (amReader)

/-- The statements are changed by `g`, the primitives of macros by `c`; `env` makes the changed groups of the changed
statements. -/
structure Changes (g : Stmt → Stmt) (c : AmPrim → AmPrim) (env : EvalEnv (List AmPrim)) : Prop where
  am : ∀ n b x, g (.am n b x) = .am n b x
  ad : ∀ d s mods, ∃ mods', g (.ad d s mods) = .ad d s mods' ∧ ∀ ms, firstMods mods = .ok ms →
    ∃ ms', firstMods mods' = .ok ms' ∧ ∀ b u ps, Am.build b ms = .ok ps →
      env.build b u ms' = .ok ((ps.map c).filter isShape)
  other : ∀ a, (∀ n b x, a ≠ .am n b x) → (∀ d s m, a ≠ .ad d s m) →
    (∀ n b x, g a ≠ .am n b x) ∧ ∀ d s m, g a ≠ .ad d s m

theorem evalCoord_center {env env' : EvalEnv G} (h : env.center = env'.center) (st : EvalState G) (c : Coord) :
    evalCoord env st c = evalCoord env' st c := by
  obtain ⟨b, ce⟩ := env
  obtain ⟨b', ce'⟩ := env'
  cases h
  rfl

/-- Interpreting the statements of the file written after a change. -/
theorem eval_changed (center : String → Pt → Pt → Pt → Option Pt) {fin : ℕ → List AmPrim}
    (hfin : ∀ i, ∀ p ∈ fin i, Rebuildable p) {g : Stmt → Stmt} {c : AmPrim → AmPrim} {env : EvalEnv (List AmPrim)}
    (hg : Changes g c env) (hcen : env.center = center) {l : List Stmt} :
    ∀ {k : ℕ} {A s : AmState} {E F : EvalState (List AmPrim)} {l' : List Stmt} (m : Str → Option (Str × String)),
      amRun k A l = .ok s → (∀ u ∈ s.uses, u.2.2.map c = fin u.1 ∧ u.2.2 ≠ []) →
      (∀ n i b, A.macros n = some (i, b) → ∃ u, E.macros n = some (b, u) ∧
        (fin i ≠ [] → m n = some (reread (fin i), u))) →
      evalAll env E (l.map g) = .ok (F, l') →
      ∃ m', evalAll (amReader center) (E.withMacros m) (rewritten fin k (l.map g)) =
        .ok (F.withMacros m', rewritten fin k l') := by
  induction l with
  | nil =>
    intro k A s E F l' m _ _ _ h
    cases h
    exact ⟨m, rfl⟩
  | cons a l ih =>
    intro k A s E F l' m hA huse hm hE
    obtain ⟨A1, hA1, hA2⟩ := Excellon.bindOk hA
    obtain ⟨⟨E1, a1⟩, hE1, hE'⟩ := Excellon.bindOk hE
    obtain ⟨⟨F1, l1⟩, hE2, hE3⟩ := Excellon.bindOk hE'
    clear hE hE'
    cases hE3
    by_cases ham : ∃ n b x, a = .am n b x
    · obtain ⟨n, b, x, rfl⟩ := ham
      rw [hg.am] at hE1
      rw [List.map_cons, hg.am]
      obtain ⟨_, -, hA1⟩ := Excellon.bindOk hA1
      cases hA1
      cases hE1
      by_cases hk : fin k = []
      · obtain ⟨m', hm'⟩ := ih m hA2 huse (by
          intro n' i b' hi
          by_cases hn : n' = n
          · subst hn
            simp only [Function.update_self, Option.some.injEq, Prod.mk.injEq] at hi
            refine ⟨E.settings.units, by simp [hi.2], fun h => absurd (hi.1 ▸ hk) h⟩
          · simp only [Function.update_of_ne hn] at hi
            simpa [hn] using hm n' i b' hi) hE2
        refine ⟨m', ?_⟩
        simp only [rewritten, if_pos hk, evalAll, evaluate, bind, Except.bind]
        have e : ({ E with macros := fun k' => if k' = n then some (b, E.settings.units) else E.macros k' } :
            EvalState (List AmPrim)).withMacros m = E.withMacros m := rfl
        rw [e] at hm'
        rw [hm']
      · obtain ⟨m', hm'⟩ := ih (fun k' => if k' = n then some (reread (fin k), E.settings.units) else m k') hA2 huse (by
          intro n' i b' hi
          by_cases hn : n' = n
          · subst hn
            simp only [Function.update_self, Option.some.injEq, Prod.mk.injEq] at hi
            refine ⟨E.settings.units, by simp [hi.2], fun _ => by simp [hi.1]⟩
          · simp only [Function.update_of_ne hn] at hi
            simpa [hn] using hm n' i b' hi) hE2
        refine ⟨m', ?_⟩
        simp only [rewritten, if_neg hk, evalAll, evaluate, bind, Except.bind]
        exact (congrArg (fun r => r.bind fun x => Except.ok (x.1, Stmt.am n (reread (fin k)) [] :: x.2)) hm').trans rfl
    · by_cases had : ∃ d s m, a = .ad d s m
      · obtain ⟨d, shape, mods, rfl⟩ := had
        obtain ⟨mods', hg1, hg2⟩ := hg.ad d shape mods
        rw [hg1] at hE1
        rw [List.map_cons, hg1]
        obtain ⟨sh, hs1, hs2⟩ := Excellon.bindOk hE1
        cases hs2
        by_cases hs : shape = ['C'] ∨ shape = ['R'] ∨ shape = ['O'] ∨ shape = ['P']
        · have e : shapeOf (amReader center) (E.withMacros m).macros shape mods' =
              shapeOf env E.macros shape mods' := by
            unfold shapeOf
            rcases hs with rfl | rfl | rfl | rfl <;> rfl
          simp only [amStep, if_pos hs] at hA1
          cases hA1
          obtain ⟨m', hm'⟩ := ih m hA2 huse (by intro n i b hi; exact hm n i b hi) hE2
          refine ⟨m', ?_⟩
          simp only [rewritten, evalAll, evaluate, e, hs1, bind, Except.bind]
          exact (congrArg (fun r => r.bind fun x => Except.ok (x.1, Stmt.ad d shape mods' :: x.2)) hm').trans rfl
        · simp only [amStep, if_neg hs] at hA1
          split at hA1
          · cases hA1
          · rename_i i b hib
            obtain ⟨ms, hm1, hA1⟩ := Excellon.bindOk hA1
            obtain ⟨ps, hps, hA1⟩ := Excellon.bindOk hA1
            cases hA1
            obtain ⟨ms', hg3, hg4⟩ := hg2 ms hm1
            obtain ⟨U, hU⟩ := amRun_uses hA2
            have hu := huse (i, d, ps) (by rw [hU]; simp)
            simp only at hu
            have hi : fin i ≠ [] := by rw [← hu.1]; simpa using hu.2
            obtain ⟨qs, hq1, hq2⟩ := rebuild oneLine (.inr rfl) (fin i) (hfin i) (bodyText_star (hfin i) hi) ms'
            obtain ⟨u, hu1, hu2⟩ := hm shape i b hib
            push Not at hs
            obtain ⟨c1, c2, c3, c4⟩ := hs
            have e : shapeOf (amReader center) (E.withMacros m).macros shape mods' = .ok sh := by
              rw [← hs1]
              simp only [shapeOf, if_neg c1, if_neg c2, if_neg c3, if_neg c4, hu1, EvalState.withMacros, hu2 hi, hg3,
                bind, Except.bind, amReader, hg4 b u ps hps, hq1, Except.map, hq2, hu.1]
            obtain ⟨m', hm'⟩ := ih m hA2 huse (by intro n i b hi; exact hm n i b hi) hE2
            refine ⟨m', ?_⟩
            simp only [rewritten, evalAll, evaluate, e, bind, Except.bind]
            exact (congrArg (fun r => r.bind fun x => Except.ok (x.1, Stmt.ad d shape mods' :: x.2)) hm').trans rfl
      · push Not at ham had
        obtain ⟨o1, o2⟩ := hg.other a ham had
        rw [amStep_other ham had] at hA1
        cases hA1
        have skip : E1.macros = E.macros →
            evaluate (amReader center) (E.withMacros m) (g a) = .ok (E1.withMacros m, a1) →
            (∀ n b x, a1 ≠ .am n b x) →
            ∃ m', evalAll (amReader center) (E.withMacros m) (rewritten fin k ((a :: l).map g)) =
              .ok (F.withMacros m', rewritten fin k (a1 :: l1)) := by
          intro e2 e3 e5
          obtain ⟨m', hm'⟩ := ih m hA2 huse (by rw [e2]; exact hm) hE2
          refine ⟨m', ?_⟩
          rw [List.map_cons, rewritten_other o1, rewritten_other e5]
          simp only [evalAll, e3, bind, Except.bind, hm']
        generalize g a = a' at hE1 o1 o2 skip
        cases a' with
        | am n b x => exact absurd rfl (o1 n b x)
        | ad d s x => exact absurd rfl (o2 d s x)
        | coord c =>
          obtain ⟨⟨E2, c2⟩, h1, h2⟩ := Excellon.bindOk hE1
          cases h2
          refine skip (evalCoord_keeps _ h1) ?_ (by simp)
          rw [evalCoord_center (env' := amReader center) hcen] at h1
          simp only [evaluate, evalCoord_withMacros, h1, Except.map, bind, Except.bind]
        | region r =>
          cases hE1
          refine skip ?_ ?_ (by simp)
          · unfold evalRegion; split_ifs <;> rfl
          · show Except.ok (evalRegion (E.withMacros m) r, Stmt.region r) = _
            unfold evalRegion
            have r2 : (E.withMacros m).regionMode = E.regionMode := rfl
            rw [r2]
            split_ifs <;> rfl
        | _ =>
          cases hE1
          exact skip rfl rfl (by simp)

/-- Interpreting the statements of the written file. -/
theorem eval_rewritten (center : String → Pt → Pt → Pt → Option Pt) {fin : ℕ → List AmPrim}
    (hfin : ∀ i, ∀ p ∈ fin i, Rebuildable p) {l : List Stmt} {k : ℕ} {A s : AmState}
    {E F : EvalState (List AmPrim)} {l' : List Stmt} (m : Str → Option (Str × String))
    (hA : amRun k A l = .ok s) (huse : ∀ u ∈ s.uses, u.2.2 = fin u.1 ∧ u.2.2 ≠ [])
    (hm : ∀ n i b, A.macros n = some (i, b) → ∃ u, E.macros n = some (b, u) ∧
        (fin i ≠ [] → m n = some (reread (fin i), u)))
    (hE : evalAll (amReader center) E l = .ok (F, l')) :
      ∃ m', evalAll (amReader center) (E.withMacros m) (rewritten fin k l) =
        .ok (F.withMacros m', rewritten fin k l') := by
  have hg : Changes id id (amReader center) := ⟨fun _ _ _ => rfl, fun d s mods => ⟨mods, rfl, fun ms h =>
    ⟨ms, h, fun b u ps hb => by simp [amReader, hb, Except.map]⟩⟩, fun a h1 h2 => ⟨h1, h2⟩⟩
  have := eval_changed center hfin hg rfl m hA (by simpa using huse) hm (by simpa using hE)
  simpa using this

/-! ## C83 -/

/-- **C83, with macros.**  A text is read, the file is written with its own settings, and the written text is read: the
primitives are the same, and so are the settings.  Provided that the statements can be written faithfully (`WFList`, see
C13: coordinates on the grid of the final format, apertures with four digits, one format) and macros too (`MacrosKept`,
see C47). -/
theorem C83_saved_partial (center : String → Pt → Pt → Pt → Option Pt) (fs : Str → Option Str) (data : Str)
    {f : GerberFile (List AmPrim)} (h : loads (amReader center) fs data = .ok f) (hst : FormatOK f.settings)
    (hwf : WFList f.settings false (f.statements.filter fun s => !isAM s))
    {s : AmState} (hs : amRun 0 {} f.statements = .ok s) (hm : MacrosKept s f.statements) :
    ∃ text f', f.save = .ok text ∧ loads (amReader center) fs text = .ok f' ∧
      f'.primitives = f.primitives ∧ f'.settings = f.settings := by
  obtain ⟨stmts, st, h1, -, h3, h4⟩ := loads_ok _ h
  have hset := loads_settings _ h1 h3
  have hpl : ∀ j, ∀ p ∈ s.prims j, Rs274x.Plainly p := by
    intro i p hp
    obtain ⟨d, hd⟩ := amRun_prims hs (fun i hi => absurd rfl hi) i (List.ne_nil_of_mem hp)
    exact hm.plainly _ hd p hp
  have hused : ∀ j n b x, f.statements[j]? = some (.am n b x) → s.prims (0 + j) ≠ [] := by
    intro j n b x hj
    rw [Nat.zero_add]; exact hm.used j n b x hj
  obtain ⟨text, pst, t1, t2⟩ := C13_write_read_partial fs f.settings hst _ (wf_readable _ hused hpl hm.names hwf)
  rw [asRead_readable hused (fun s _ hs => by cases s <;> first | rfl | cases hs)] at t2
  obtain ⟨m', he⟩ := eval_rewritten center (fun i p hp => (hpl i p hp).rebuildable) (fun _ => none) hs
    (fun u hu => ⟨hm.same u hu, hm.some_ u hu⟩) (fun n i b h => by cases h) (C18_again _ stmts h3)
  have he : evalAll (amReader center) initState (rewritten s.prims 0 f.statements) = _ := he
  refine ⟨text, ⟨rewritten s.prims 0 f.statements, pst, st.primitives⟩, ?_, ?_, h4.symm, ?_⟩
  · simp only [GerberFile.save, hs, bind, Except.bind]
    rw [← write_readable]; exact t1
  · simp only [loads, t2, he, bind, Except.bind]
    rfl
  · rw [← hset]
    exact (loads_settings _ t2 he).symm

/-- The pictures are the same, whatever the backend and the parts of macros are. -/
theorem C83_picture_partial (center : String → Pt → Pt → Pt → Option Pt) (fs : Str → Option Str) (data : Str)
    {f : GerberFile (List AmPrim)} (h : loads (amReader center) fs data = .ok f) (hst : FormatOK f.settings)
    (hwf : WFList f.settings false (f.statements.filter fun s => !isAM s))
    {s : AmState} (hs : amRun 0 {} f.statements = .ok s) (hm : MacrosKept s f.statements) :
    ∃ text f', f.save = .ok text ∧ loads (amReader center) fs text = .ok f' ∧
      ∀ K c invert, Am.render K f' c invert = Am.render K f c invert := by
  obtain ⟨text, f', h1, h2, h3, -⟩ := C83_saved_partial center fs data h hst hwf hs hm
  exact ⟨text, f', h1, h2, fun K c invert => by simp only [Am.render, GerberFile.render, h3]⟩

theorem amRun_plain (env : EvalEnv G) {l : List Stmt} (hl : ∀ s ∈ l, isAM s = false) :
    ∀ {k : ℕ} {E F : EvalState G} {l' : List Stmt}, (∀ n, E.macros n = none) → evalAll env E l = .ok (F, l') →
      amRun k {} l = .ok {} := by
  induction l with
  | nil => intro k E F l' _ _; rfl
  | cons a l ih =>
    intro k E F l' hE h
    obtain ⟨⟨E1, a1⟩, h1, h'⟩ := Excellon.bindOk h
    obtain ⟨⟨F1, l1⟩, h2, -⟩ := Excellon.bindOk h'
    have go : (∀ n, E1.macros n = none) → amStep k {} a = .ok {} → amRun k {} (a :: l) = .ok {} := by
      intro e1 e2
      simp only [amRun, e2, bind, Except.bind]
      exact ih (fun s hs => hl s (by simp [hs])) e1 h2
    cases a with
    | am n b x => cases hl _ (by simp : Stmt.am n b x ∈ _)
    | coord c =>
      obtain ⟨⟨E2, c2⟩, h3, h4⟩ := Excellon.bindOk h1
      cases h4
      exact go (fun n => by rw [evalCoord_keeps env h3]; exact hE n) rfl
    | ad d shape mods =>
      obtain ⟨sh, h3, h4⟩ := Excellon.bindOk h1
      cases h4
      refine go hE ?_
      by_cases hs : shape = ['C'] ∨ shape = ['R'] ∨ shape = ['O'] ∨ shape = ['P']
      · simp only [amStep, if_pos hs]
      · push Not at hs
        obtain ⟨c1, c2, c3, c4⟩ := hs
        simp only [shapeOf, if_neg c1, if_neg c2, if_neg c3, if_neg c4, hE shape] at h3
        cases h3
    | region r =>
      cases h1
      refine go (fun n => ?_) rfl
      unfold evalRegion; split_ifs <;> exact hE n
    | _ => cases h1; exact go hE rfl

theorem withPrims_plain {prims : ℕ → List AmPrim} {l : List Stmt} (hl : ∀ s ∈ l, isAM s = false) {k : ℕ} :
    withPrims prims k l = l := by
  induction l generalizing k with
  | nil => rfl
  | cons a l ih =>
    have ih := ih (fun s hs => hl s (by simp [hs])) (k := k + 1)
    cases a with
    | am n b x => cases hl _ (by simp : Stmt.am n b x ∈ _)
    | _ => simp only [withPrims, ih]

/-- **C83, without macros.**  The file that is read from the written text is the file that was written: the same
statements, settings and primitives.  Hence it is written as the same text again. -/
theorem C83_stable_partial (env : EvalEnv G) (fs : Str → Option Str) (data : Str) {f : GerberFile G}
    (h : loads env fs data = .ok f) (hst : FormatOK f.settings) (hno : ∀ s ∈ f.statements, isAM s = false)
    (hwf : WFList f.settings false f.statements) :
    ∃ text, f.save = .ok text ∧ loads env fs text = .ok f := by
  obtain ⟨stmts, st, h1, -, h3, h4⟩ := loads_ok _ h
  have h5 := C18_again _ stmts h3
  obtain ⟨text, pst, t1, t2⟩ := C13_write_read_partial fs f.settings hst _ hwf
  have hr : f.statements.map asRead = f.statements := by
    conv_rhs => rw [← List.map_id f.statements]
    refine List.map_congr_left fun s hs => ?_
    have := hno s hs
    cases s <;> first | rfl | cases this
  rw [hr] at t2
  refine ⟨text, ?_, ?_⟩
  · simp only [GerberFile.save, amRun_plain env hno (E := initState) (fun _ => rfl) h5, bind, Except.bind,
      withPrims_plain hno, t1]
  · have e : pst = f.settings := (loads_settings _ t2 h5).symm.trans (loads_settings _ h1 h3)
    simp only [loads, t2, h5, bind, Except.bind, e, ← h4]

/-! ## Files that are not covered -/

/-- The primitives of the file that is read, the text that is written, and the primitives read from it. -/
def again (data : Str) : Option (List (Prim (List AmPrim)) × Str × List (Prim (List AmPrim))) := do
  let env := amReader fun _ _ _ _ => none
  let f ← (loads env (fun _ => none) data).toOption
  let text ← f.save.toOption
  let f' ← (loads env (fun _ => none) text).toOption
  some (f.primitives, text, f'.primitives)

/-- Sizes of apertures are written with four digits. -/
theorem C83_aperture_violated :
    again "%FSLAX24Y24*%\n%MOIN*%\n%ADD10C,0.012346*%\nD10*\nX10000Y0D03*\nM02*\n".toList =
      some ([.flash (.circle (12346 / 1000000) {}) (1, 0) "dark" "inch"],
        "%FSLAX24Y24*%\n%MOIN*%\n%ADD10C,0.01235*%\nD10*\nX10000Y0D03*\nM02*\n".toList,
        [.flash (.circle (1235 / 100000) {}) (1, 0) "dark" "inch"]) := by
  decide +kernel

/-- Every coordinate is written in the format that the file ends with. -/
theorem C83_format_violated :
    again "%FSLAX24Y24*%\n%MOIN*%\n%ADD10C,0.01*%\nD10*\nX10004Y0D03*\n%FSLAX23Y23*%\nX1000Y0D03*\nM02*\n".toList =
      some ([.flash (.circle (1 / 100) {}) (10004 / 10000, 0) "dark" "inch",
          .flash (.circle (1 / 100) {}) (1, 0) "dark" "inch"],
        "%FSLAX23Y23*%\n%MOIN*%\n%ADD10C,0.01*%\nD10*\nX1000Y0D03*\n%FSLAX23Y23*%\nX1000Y0D03*\nM02*\n".toList,
        [.flash (.circle (1 / 100) {}) (1, 0) "dark" "inch", .flash (.circle (1 / 100) {}) (1, 0) "dark" "inch"]) := by
  decide +kernel

/-- Of a macro with variables, the last use is written. -/
theorem C83_macro_violated :
    again ("%FSLAX24Y24*%\n%MOIN*%\n%AMDOT*1,1,$1,0,0*%\n%ADD10DOT,1*%\n%ADD11DOT,2*%\nD10*\nX10000Y0D03*\n" ++
        "D11*\nX20000Y0D03*\nM02*\n").toList =
      some ([.flash (.group [.circle true 1 (0, 0)]) (1, 0) "dark" "inch",
          .flash (.group [.circle true 2 (0, 0)]) (2, 0) "dark" "inch"],
        ("%FSLAX24Y24*%\n%MOIN*%\n%AMDOT*1,1,2.0,0.0,0.0*%\n%ADD10DOT,1*%\n%ADD11DOT,2*%\nD10*\nX10000Y0D03*\n" ++
          "D11*\nX20000Y0D03*\nM02*\n").toList,
        [.flash (.group [.circle true 2 (0, 0)]) (1, 0) "dark" "inch",
          .flash (.group [.circle true 2 (0, 0)]) (2, 0) "dark" "inch"]) := by
  decide +kernel

/-! ## Examples -/

private def dotText : Str :=
  "G04 x*\n%FSLAX24Y24*%\n%MOIN*%\n%AMDOT*1,1,$1,0,0*%\n%ADD10DOT,2*%\nD10*\nX10000Y0D03*\nX0*\nM02*\n".toList

private def dotStmts : List Stmt := [.comment [' ', 'x'], .fs "leading" "absolute" (2, 4), .mo "inch",
  .am "DOT".toList "1,1,$1,0,0".toList [], .ad 10 "DOT".toList [[2]], .aperture 10 false,
  .coord { x := some 1, y := some 0, op := some ['D', '0', '3'] }, .coord { x := some 0, op := some ['D', '0', '3'] }, .eof]

private theorem dot_wf : WFList sampleSettings false (dotStmts.filter fun s => !isAM s) := by
  have hname : MacroName ['D', 'O', 'T'] := ⟨'D', ['O', 'T'], rfl, by simp, Or.inl (Or.inr (by decide)), by
    intro d hd
    simp only [List.mem_cons, List.not_mem_nil, or_false] at hd
    rcases hd with rfl | rfl <;> exact Or.inl (Or.inr (by decide))⟩
  have g0 : OnGrid sampleSettings.format 0 := ⟨0, by decide, by norm_num⟩
  have g1 : OnGrid sampleSettings.format 1 := ⟨10000, by decide, by norm_num [sampleSettings]⟩
  refine ⟨⟨by unfold Gerber.Plain; decide, by decide⟩, by simp, ⟨rfl, rfl, rfl⟩, by simp, Or.inr rfl, by simp, ?_, by simp,
    Or.inr (by decide), by simp, ?_, by simp [isFS], ?_, by simp [isFS], trivial, by simp, trivial⟩
  · right
    refine ⟨_, rfl, by simp, ?_, by simp [hname]⟩
    intro v hv
    simp only [List.mem_singleton] at hv
    exact ⟨2, 0, by decide, by subst hv; norm_num⟩
  · refine ⟨Or.inl rfl, Or.inr ⟨'3', by decide, Or.inl rfl⟩, by decide, ?_, ?_, by simp, by simp⟩
    · intro v hv; cases hv; exact g1
    · intro v hv; cases hv; exact g0
  · refine ⟨Or.inl rfl, Or.inr ⟨'3', by decide, Or.inl rfl⟩, by decide, ?_, by simp, by simp, by simp⟩
    · intro v hv; cases hv; exact g0

private theorem dot_macros : ∃ s, amRun 0 {} dotStmts = .ok s ∧ MacrosKept s dotStmts := by
  have h : (amRun 0 {} dotStmts).toOption.map (fun s => (s.uses, s.prims 3)) =
      some ([(3, 10, [.circle true 2 (0, 0)])], [.circle true 2 (0, 0)]) := by decide +kernel
  match hs : amRun 0 {} dotStmts, h with
  | .ok s, h =>
    simp only [Except.toOption, Option.map_some, Option.some.injEq, Prod.mk.injEq] at h
    refine ⟨s, rfl, ?_, ?_, ?_, ?_, ?_⟩
    · intro u hu
      rw [h.1] at hu
      simp only [List.mem_singleton] at hu
      subst hu; exact h.2.symm
    · intro u hu
      rw [h.1] at hu
      simp only [List.mem_singleton] at hu
      subst hu; simp
    · intro k n b x hk
      match k, hk with
      | 3, _ => rw [h.2]; simp
      | 0, hk | 1, hk | 2, hk | 4, hk | 5, hk | 6, hk | 7, hk | 8, hk => simp [dotStmts] at hk
      | k + 9, hk => simp [dotStmts] at hk
    · intro u hu
      rw [h.1] at hu
      simp only [List.mem_singleton] at hu
      subst hu
      intro p hp
      simp only [List.mem_singleton] at hp
      subst hp
      exact Rs274x.plainly_circle (n := 2) (by norm_num) (by norm_num)
    · intro n b x hm
      simp only [dotStmts, List.mem_cons, List.not_mem_nil, or_false, reduceCtorEq, false_or, Stmt.am.injEq] at hm
      obtain ⟨rfl, -, -⟩ := hm
      exact ⟨'D', ['O', 'T'], rfl, by simp, Or.inl (Or.inr (by decide)), by
        intro d hd
        simp only [List.mem_cons, List.not_mem_nil, or_false] at hd
        rcases hd with rfl | rfl <;> exact Or.inl (Or.inr (by decide))⟩

/-- A file with a macro that is kept. -/
example : ∃ f s, loads (amReader fun _ _ _ _ => none) (fun _ => none) dotText = .ok f ∧ FormatOK f.settings ∧
    WFList f.settings false (f.statements.filter fun s => !isAM s) ∧ amRun 0 {} f.statements = .ok s ∧
    MacrosKept s f.statements ∧ f.primitives = [.flash (.group [.circle true 2 (0, 0)]) (1, 0) "dark" "inch",
      .flash (.group [.circle true 2 (0, 0)]) (0, 0) "dark" "inch"] := by
  have h : (loads (amReader fun _ _ _ _ => none) (fun _ => none) dotText).toOption.map
      (fun f => (f.statements, f.settings, f.primitives)) =
      some (dotStmts, sampleSettings, [.flash (.group [.circle true 2 (0, 0)]) (1, 0) "dark" "inch",
      .flash (.group [.circle true 2 (0, 0)]) (0, 0) "dark" "inch"]) := by decide +kernel
  match hf : loads (amReader fun _ _ _ _ => none) (fun _ => none) dotText, h with
  | .ok f, h =>
    simp only [Except.toOption, Option.map_some, Option.some.injEq, Prod.mk.injEq] at h
    obtain ⟨s, h1, h2⟩ := dot_macros
    exact ⟨f, s, rfl, by rw [h.2.1]; exact ⟨by decide, by decide, by decide, by decide⟩,
      by rw [h.1, h.2.1]; exact dot_wf, by rw [h.1]; exact h1, by rw [h.1]; exact h2, h.2.2⟩

/-- A file without macros. -/
example : ∃ f, loads (amReader fun _ _ _ _ => none) (fun _ => none)
      "%FSLAX24Y24*%\nG70*\n%ADD10C,.1X.05*%\nG54D10*\nX10000Y0D03*\nM02*\n".toList = .ok f ∧ FormatOK f.settings ∧
    (∀ s ∈ f.statements, isAM s = false) ∧ WFList f.settings false f.statements ∧
    f.primitives = [.flash (.circle (1 / 10) { diameter := 1 / 20 }) (1, 0) "dark" "inch"] := by
  have h : (loads (amReader fun _ _ _ _ => none) (fun _ => none)
      "%FSLAX24Y24*%\nG70*\n%ADD10C,.1X.05*%\nG54D10*\nX10000Y0D03*\nM02*\n".toList).toOption.map
      (fun f => (f.statements, f.settings, f.primitives)) =
      some ([.fs "leading" "absolute" (2, 4), .mo "inch", .ad 10 ['C'] [[1 / 10, 1 / 20]],
        .aperture 10 true, .coord { x := some 1, y := some 0, op := some ['D', '0', '3'] }, .eof], sampleSettings,
        [.flash (.circle (1 / 10) { diameter := 1 / 20 }) (1, 0) "dark" "inch"]) := by
    decide +kernel
  match hf : loads (amReader fun _ _ _ _ => none) (fun _ => none)
      "%FSLAX24Y24*%\nG70*\n%ADD10C,.1X.05*%\nG54D10*\nX10000Y0D03*\nM02*\n".toList, h with
  | .ok f, h =>
    simp only [Except.toOption, Option.map_some, Option.some.injEq, Prod.mk.injEq] at h
    refine ⟨f, rfl, by rw [h.2.1]; exact ⟨by decide, by decide, by decide, by decide⟩, by rw [h.1]; decide, ?_, h.2.2⟩
    rw [h.1, h.2.1]
    refine ⟨⟨rfl, rfl, rfl⟩, by simp, Or.inr rfl, by simp, ?_, by simp, Or.inl rfl, by simp, ?_, by simp [isFS], trivial,
      by simp, trivial⟩
    · right
      refine ⟨_, rfl, by simp, ?_, Or.inl rfl⟩
      intro v hv
      simp only [List.mem_cons, List.not_mem_nil, or_false] at hv
      rcases hv with rfl | rfl
      · exact ⟨1, -1, by decide, by norm_num⟩
      · exact ⟨5, -2, by decide, by norm_num⟩
    · refine ⟨Or.inl rfl, Or.inr ⟨'3', by decide, Or.inl rfl⟩, by decide, ?_, ?_, by simp, by simp⟩
      · intro v hv; cases hv; exact ⟨10000, by decide, by norm_num [sampleSettings]⟩
      · intro v hv; cases hv; exact ⟨0, by decide, by norm_num⟩

end Verif.Gerber
