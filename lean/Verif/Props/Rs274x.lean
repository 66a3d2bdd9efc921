import Verif.Spec.Rs274x
import Verif.Props.Eval

/-! # C22, C23: rendering to Gerber -/

set_option linter.unusedSectionVars false

namespace Verif.Rs274x
open Verif.Py Verif.Cam Verif.Gerber

variable {G : Type} [DecidableEq G]

/-! ## Interpreting a list of statements -/

def Runs (env : EvalEnv G) (st : EvalState G) (l : List Stmt) (st' : EvalState G) : Prop :=
  ∃ l', evalAll env st l = .ok (st', l')

theorem Runs.nil (env : EvalEnv G) (st : EvalState G) : Runs env st [] st := ⟨[], rfl⟩

theorem Runs.cons {env : EvalEnv G} {st st1 st2 : EvalState G} {s s' : Stmt} {l : List Stmt}
    (h : evaluate env st s = .ok (st1, s')) (hl : Runs env st1 l st2) : Runs env st (s :: l) st2 := by
  obtain ⟨l', hl⟩ := hl
  exact ⟨s' :: l', by simp only [evalAll, h, hl, bind, Except.bind]⟩

theorem Runs.one {env : EvalEnv G} {st st1 : EvalState G} {s s' : Stmt}
    (h : evaluate env st s = .ok (st1, s')) : Runs env st [s] st1 := .cons h (.nil _ _)

theorem Runs.append {env : EvalEnv G} {st st1 st2 : EvalState G} {l l' : List Stmt}
    (h : Runs env st l st1) (h' : Runs env st1 l' st2) : Runs env st (l ++ l') st2 := by
  obtain ⟨a, h⟩ := h
  obtain ⟨b, h'⟩ := h'
  exact ⟨a ++ b, by rw [evalAll_append, h]; simp only [bind, Except.bind, h']⟩

/-! ## Backend state and interpreter state -/

/-- The table of apertures contains everything that the backend has defined. -/
def Covers (T : ℕ → Option (Aperture G)) (u : String) (s : RState G) : Prop :=
  (∀ k d, s.shapes k = some d → k.Flashable → T d = some ⟨k.toShape, some u⟩) ∧
  ∀ h, ∀ m ∈ s.macros h, T m.1 = some ⟨.group m.2, some u⟩

/-- Definitions are only added. -/
structure Ext (s s' : RState G) : Prop where
  shapes : ∀ k d, s.shapes k = some d → s'.shapes k = some d
  macros : ∀ h, ∀ m ∈ s.macros h, m ∈ s'.macros h

theorem Ext.refl (s : RState G) : Ext s s := ⟨fun _ _ h => h, fun _ _ h => h⟩

theorem Ext.trans {s s' s'' : RState G} (h : Ext s s') (h' : Ext s' s'') : Ext s s'' :=
  ⟨fun k d hk => h'.shapes k d (h.shapes k d hk), fun k m hm => h'.macros k m (h.macros k m hm)⟩

theorem Covers.mono {T : ℕ → Option (Aperture G)} {u : String} {s s' : RState G} (he : Ext s s')
    (h : Covers T u s') : Covers T u s :=
  ⟨fun k d hk => h.1 k d (he.shapes k d hk), fun k m hm => h.2 k m (he.macros k m hm)⟩

/-- The interpreter is where the backend believes it to be. -/
structure Sim (T : ℕ → Option (Aperture G)) (u : String) (s : RState G) (e : EvalState G) : Prop where
  table : e.apertures = T
  units : e.settings.units = u
  pos : ∀ p, s.pos = some p → (e.x, e.y) = p
  level : e.levelPolarity = s.level.getD "dark"
  func : s.func = some G01 → e.interpolation = "linear"
  quad : ∀ q, s.quad = some q →
    e.quadrantMode = if q ≠ "multi-quadrant" then "single-quadrant" else "multi-quadrant"
  dcode : ∀ d, s.dcode = some d → e.aperture = d

/-! ## Apertures -/

theorem getShape_spec (s : RState G) (k : RShape G) :
    Ext s (getShape s k).1 ∧ (getShape s k).1.shapes k = some (getShape s k).2 ∧
    (getShape s k).1.body = s.body ∧ (getShape s k).1.level = s.level ∧
    (getShape s k).1.pos = s.pos ∧ (getShape s k).1.func = s.func ∧
    (getShape s k).1.quad = s.quad ∧ (getShape s k).1.dcode = s.dcode := by
  unfold getShape
  cases h : s.shapes k with
  | some d => exact ⟨Ext.refl s, h, rfl, rfl, rfl, rfl, rfl, rfl⟩
  | none =>
    refine ⟨⟨?_, fun _ _ h => h⟩, by simp, rfl, rfl, rfl, rfl, rfl, rfl⟩
    intro k' d hk
    simp only
    rw [if_neg]
    · exact hk
    · rintro rfl
      rw [h] at hk
      cases hk

theorem getMacro_spec {menv : MacroEnv G} {s s' : RState G} {g : G} {d : ℕ}
    (h : getMacro menv s g = .ok (s', d)) :
    Ext s s' ∧ (∃ g', (d, g') ∈ s'.macros (menv.hash g) ∧ (g' = g ∨ menv.equiv g g' = true)) ∧
    s'.body = s.body ∧ s'.level = s.level ∧
    s'.pos = s.pos ∧ s'.func = s.func ∧ s'.quad = s.quad ∧ s'.dcode = s.dcode := by
  unfold getMacro at h
  simp only at h
  split at h
  · rename_i m hm
    obtain ⟨rfl, rfl⟩ := Prod.mk.inj (Except.ok.inj h)
    refine ⟨Ext.refl s, ⟨m.2, ?_, .inr ?_⟩, rfl, rfl, rfl, rfl, rfl, rfl⟩
    · exact List.mem_of_find?_eq_some hm
    · simpa using List.find?_some hm
  · obtain ⟨⟨text, built⟩, -, h⟩ := evBind h
    simp only at h
    obtain ⟨rfl, rfl⟩ := Prod.mk.inj (Except.ok.inj h)
    refine ⟨⟨fun _ _ h => h, ?_⟩, ⟨g, by simp, .inl rfl⟩, rfl, rfl, rfl, rfl, rfl, rfl⟩
    intro k m hm
    simp only
    split
    · rename_i he
      subst he
      exact List.mem_append_left _ hm
    · exact hm

/-- Statements that only change aperture, level polarity and quadrant mode of the interpreter. -/
def Tuned (e e' : EvalState G) : Prop :=
  e' = { e with
    aperture := e'.aperture
    levelPolarity := e'.levelPolarity
    quadrantMode := e'.quadrantMode }

theorem Tuned.refl (e : EvalState G) : Tuned e e := rfl

theorem Tuned.trans {e e' e'' : EvalState G} (h : Tuned e e') (h' : Tuned e' e'') : Tuned e e'' := by
  unfold Tuned at *
  rw [h']
  rw [h]

/-- A step of the backend: it writes statements which take the interpreter along. -/
def Step (env : EvalEnv G) (s s' : RState G) (P : EvalState G → EvalState G → Prop) : Prop :=
  Ext s s' ∧ ∃ l, s'.body = s.body ++ l ∧ ∀ T u e, Covers T u s' → Sim T u s e →
    ∃ e', Runs env e l e' ∧ Sim T u s' e' ∧ P e e'

theorem Step.refl (env : EvalEnv G) (s : RState G) {P : EvalState G → EvalState G → Prop}
    (h : ∀ e, P e e) : Step env s s P :=
  ⟨Ext.refl s, [], by simp, fun _ _ e _ hs => ⟨e, .nil _ _, hs, h e⟩⟩

theorem Step.trans {env : EvalEnv G} {s s' s'' : RState G} {P Q R : EvalState G → EvalState G → Prop}
    (h : Step env s s' P) (h' : Step env s' s'' Q)
    (hR : ∀ e e' e'', P e e' → Q e' e'' → R e e'') : Step env s s'' R := by
  obtain ⟨x, l, hl, h⟩ := h
  obtain ⟨x', l', hl', h'⟩ := h'
  refine ⟨x.trans x', l ++ l', by rw [hl', hl, List.append_assoc], ?_⟩
  intro T u e hc hs
  obtain ⟨e', r, s1, p⟩ := h T u e (hc.mono x') hs
  obtain ⟨e'', r', s2, q⟩ := h' T u e' hc s1
  exact ⟨e'', r.append r', s2, hR _ _ _ p q⟩

theorem select_step (env : EvalEnv G) (s : RState G) (d : ℕ) :
    Step env s (select s d) (fun e e' => Tuned e e' ∧ e'.aperture = d ∧
      e'.levelPolarity = e.levelPolarity) ∧
    (select s d).pos = s.pos ∧ (select s d).func = s.func ∧ (select s d).level = s.level := by
  unfold select
  split
  · refine ⟨⟨⟨fun _ _ h => h, fun _ _ h => h⟩, [.aperture d false], rfl, ?_⟩, rfl, rfl, rfl⟩
    intro T u e hc hs
    refine ⟨{ e with aperture := d }, .one rfl, ?_, rfl, rfl, rfl⟩
    exact ⟨hs.table, hs.units, hs.pos, hs.level, hs.func, hs.quad, fun d' h => Option.some.inj h⟩
  · rename_i h
    push Not at h
    refine ⟨⟨Ext.refl s, [], by simp, ?_⟩, rfl, rfl, rfl⟩
    intro T u e hc hs
    exact ⟨e, .nil _ _, hs, rfl, hs.dcode d h, rfl⟩

/-- What `e'` draws with. -/
def DrawsWith (e' : EvalState G) (k : RShape G) : Prop :=
  e'.apertures e'.aperture = some ⟨k.toShape, some e'.settings.units⟩

theorem define_step (env : EvalEnv G) {s s1 : RState G} {d : ℕ} {C : Prop} {k : RShape G} (hx : Ext s s1)
    (hf : s1.body = s.body ∧ s1.level = s.level ∧ s1.pos = s.pos ∧ s1.func = s.func ∧
      s1.quad = s.quad ∧ s1.dcode = s.dcode)
    (hd : ∀ (T : ℕ → Option (Aperture G)) u, Covers T u s1 → C → T d = some ⟨k.toShape, some u⟩) :
    Step env s (select s1 d) (fun e e' => Tuned e e' ∧ e'.levelPolarity = e.levelPolarity ∧
      (C → DrawsWith e' k)) ∧
    (select s1 d).pos = s.pos ∧ (select s1 d).func = s.func ∧ (select s1 d).level = s.level := by
  obtain ⟨⟨hx2, l, hl, hstep⟩, h1, h2, h3⟩ := select_step env s1 d
  obtain ⟨f1, f2, f3, f4, f5, f6⟩ := hf
  refine ⟨⟨hx.trans hx2, l, by rw [hl, f1], ?_⟩, by rw [h1, f3], by rw [h2, f4], by rw [h3, f2]⟩
  intro T u e hc hs
  have hs1 : Sim T u s1 e := ⟨hs.table, hs.units, fun p h => hs.pos p (f3 ▸ h), by rw [f2]; exact hs.level,
    fun h => hs.func (f4 ▸ h), fun q h => hs.quad q (f5 ▸ h), fun d' h => hs.dcode d' (f6 ▸ h)⟩
  obtain ⟨e', hr, hs', ht, ha, hlp⟩ := hstep T u e hc hs1
  refine ⟨e', hr, hs', ht, hlp, fun hC => ?_⟩
  unfold DrawsWith
  rw [hs'.table, hs'.units, ha]
  exact hd T u (hc.mono hx2) hC

theorem selectAperture_step (env : EvalEnv G) {menv : MacroEnv G}
    (hm : ∀ g g', menv.equiv g g' = true → g = g') {s s' : RState G} {ap : Option (RShape G)}
    (h : selectAperture menv s ap = .ok s') :
    Step env s s' (fun e e' => Tuned e e' ∧ e'.levelPolarity = e.levelPolarity ∧
      ∀ k, ap = some k → k.Drawable → DrawsWith e' k) ∧
    s'.pos = s.pos ∧ s'.func = s.func ∧ s'.level = s.level := by
  have go : ∀ {s1 : RState G} {d : ℕ} (k0 k : RShape G), ap = some k0 → Ext s s1 →
      (s1.body = s.body ∧ s1.level = s.level ∧ s1.pos = s.pos ∧ s1.func = s.func ∧
        s1.quad = s.quad ∧ s1.dcode = s.dcode) →
      (k0.Drawable → k.toShape = k0.toShape) →
      (∀ (T : ℕ → Option (Aperture G)) u, Covers T u s1 → k0.Drawable →
        T d = some ⟨k.toShape, some u⟩) →
      Step env s (select s1 d) (fun e e' => Tuned e e' ∧ e'.levelPolarity = e.levelPolarity ∧
        ∀ k, ap = some k → k.Drawable → DrawsWith e' k) ∧
      (select s1 d).pos = s.pos ∧ (select s1 d).func = s.func ∧ (select s1 d).level = s.level := by
    intro s1 d k0 k hap hx hf hk hd
    obtain ⟨⟨hx', l, hl, hstep⟩, h1⟩ := define_step env hx hf hd
    refine ⟨⟨hx', l, hl, ?_⟩, h1⟩
    intro T u e hc hs
    obtain ⟨e', hr, hs', ht, hlp, hdw⟩ := hstep T u e hc hs
    refine ⟨e', hr, hs', ht, hlp, ?_⟩
    intro k' hk' hdr
    rw [hap] at hk'
    obtain rfl := Option.some.inj hk'
    have := hdw hdr
    unfold DrawsWith at this ⊢
    rw [← hk hdr]
    exact this
  match ap, h with
  | none, h =>
    obtain rfl := Except.ok.inj h
    exact ⟨Step.refl env s fun e => ⟨rfl, rfl, fun k hk => by cases hk⟩, rfl, rfl, rfl⟩
  | some (.circle d hole), h =>
    obtain rfl := Except.ok.inj h
    obtain ⟨hx, hk, hf⟩ := getShape_spec s (.circle d hole)
    exact go _ _ rfl hx hf (fun _ => rfl) fun T u hc hd => hc.1 _ _ hk hd
  | some (.rect w v hole), h =>
    obtain rfl := Except.ok.inj h
    obtain ⟨hx, hk, hf⟩ := getShape_spec s (.rect w v {})
    refine go (.rect w v hole) _ rfl hx hf (fun hd => ?_) fun T u hc hd => hc.1 _ _ hk (.inl rfl)
    have hd' : hole.toHole = {} := hd
    simp only [RShape.toShape, hd']
    rfl
  | some (.obround w v hole), h =>
    obtain rfl := Except.ok.inj h
    obtain ⟨hx, hk, hf⟩ := getShape_spec s (.obround w v {})
    refine go (.obround w v hole) _ rfl hx hf (fun hd => ?_) fun T u hc hd => hc.1 _ _ hk (.inl rfl)
    have hd' : hole.toHole = {} := hd
    simp only [RShape.toShape, hd']
    rfl
  | some (.group g), h =>
    obtain ⟨⟨s1, c⟩, h1, h⟩ := evBind h
    obtain rfl := Except.ok.inj h
    obtain ⟨hx, ⟨g', hg', he⟩, hf⟩ := getMacro_spec h1
    have hgg : g' = g := by
      rcases he with he | he
      · exact he
      · exact (hm g g' he).symm
    subst hgg
    exact go (.group g') (.group g') rfl hx hf (fun _ => rfl) fun T u hc hd => hc.2 _ _ hg'
  | some (.polygon _ _ _ _), h => cases h

theorem renderLevel_step (env : EvalEnv G) (s : RState G) (pol dflt : Option String) :
    Step env s (renderLevel s pol dflt) (fun e e' => Tuned e e' ∧ e'.aperture = e.aperture) ∧
    (renderLevel s pol dflt).pos = s.pos ∧ (renderLevel s pol dflt).func = s.func ∧
    (renderLevel s pol dflt).level = if pol.isSome then pol else dflt := by
  unfold renderLevel
  generalize (if pol.isSome then pol else dflt) = p
  simp only
  split
  · refine ⟨⟨⟨fun _ _ h => h, fun _ _ h => h⟩, _, rfl, ?_⟩, rfl, rfl, rfl⟩
    intro T u e hc hs
    refine ⟨{ e with levelPolarity := _ }, .one rfl, ?_, rfl, rfl⟩
    exact ⟨hs.table, hs.units, hs.pos, rfl, hs.func, hs.quad, hs.dcode⟩
  · rename_i h
    push Not at h
    exact ⟨Step.refl env s fun e => ⟨rfl, rfl⟩, rfl, rfl, h.symm⟩

/-! ## Lines and arcs -/

/-- What drawing `es` does to the interpreter. -/
def Drawn (es : List (Edge G)) (e e' : EvalState G) : Prop :=
  e'.regionMode = e.regionMode ∧
  (e.regionMode = "off" → e'.primitives = e.primitives ++ es.map .edge ∧ e'.currentRegion = e.currentRegion) ∧
  (e.regionMode = "on" → e'.primitives = e.primitives ∧
    e'.currentRegion = if es = [] then e.currentRegion else some (e.currentRegion.getD [] ++ es))

theorem simplify_getD {T : ℕ → Option (Aperture G)} {u : String} {s : RState G} {e : EvalState G}
    (hs : Sim T u s e) (p : Pt) : ((simplify s.pos p).1.getD e.x, (simplify s.pos p).2.getD e.y) = p := by
  unfold simplify
  cases h : s.pos with
  | none => rfl
  | some q =>
    have := hs.pos q h
    subst this
    refine Prod.ext ?_ ?_
    · simp only
      split
      · rfl
      · rename_i h1
        push Not at h1
        exact h1.symm
    · simp only
      split
      · rfl
      · rename_i h1
        push Not at h1
        exact h1.symm

/-- A coordinate statement without offsets. -/
def coordOf (f : Option Str) (p : Option ℚ × Option ℚ) (op : Str) : Coord := ⟨f, p.1, p.2, none, none, some op⟩

theorem setFunction_keeps (e : EvalState G) (f : Option Str) :
    (setFunction e f).regionMode = e.regionMode ∧
      (setFunction e f).currentRegion = e.currentRegion ∧
      (setFunction e f).primitives = e.primitives ∧ (setFunction e f).x = e.x ∧
      (setFunction e f).y = e.y ∧ (setFunction e f).apertures = e.apertures ∧
      (setFunction e f).aperture = e.aperture ∧ (setFunction e f).settings = e.settings ∧
      (setFunction e f).levelPolarity = e.levelPolarity ∧
      (setFunction e f).quadrantMode = e.quadrantMode := by
  unfold setFunction
  split
  · exact ⟨rfl, rfl, rfl, rfl, rfl, rfl, rfl, rfl, rfl, rfl⟩
  split
  · exact ⟨rfl, rfl, rfl, rfl, rfl, rfl, rfl, rfl, rfl, rfl⟩
  split <;> exact ⟨rfl, rfl, rfl, rfl, rfl, rfl, rfl, rfl, rfl, rfl⟩

theorem evaluate_coord (env : EvalEnv G) (e : EvalState G) (c : Coord) {ch : Char} {o : Str}
    (hop : c.op = some (ch :: o)) :
    evaluate env e (.coord c) = (do
      let st ← evalOp env { setFunction e c.function with op := ch :: o } c (c.x.getD e.x) (c.y.getD e.y)
      .ok ({ st with x := c.x.getD e.x, y := c.y.getD e.y }, .coord c)) := by
  have honly : c.onlyFunction = false := by
    simp [Coord.onlyFunction, hop]
  simp only [evaluate, evalCoord, honly, hop]
  cases evalOp env { setFunction e c.function with op := ch :: o } c (c.x.getD e.x) (c.y.getD e.y) <;> rfl

theorem evaluate_move (env : EvalEnv G) {T : ℕ → Option (Aperture G)} {u : String} {s : RState G}
    {e : EvalState G} (hs : Sim T u s e) (f : Option Str) (a : Pt)
    (hc : e.regionMode = "on" → e.currentRegion = none) :
    Runs env e [.coord (coordOf f (simplify s.pos a) D02)]
      { setFunction e f with op := D02, x := a.1, y := a.2 } := by
  have hp := simplify_getD hs a
  have h1 : (coordOf f (simplify s.pos a) D02).x.getD e.x = a.1 := congrArg Prod.fst hp
  have h2 : (coordOf f (simplify s.pos a) D02).y.getD e.y = a.2 := congrArg Prod.snd hp
  obtain ⟨k1, k2, -⟩ := setFunction_keeps e f
  have hev := evaluate_coord env e (coordOf f (simplify s.pos a) D02) rfl
  rw [h1, h2] at hev
  have hf : (coordOf f (simplify s.pos a) D02).function = f := rfl
  rw [hf] at hev
  generalize setFunction e f = e1 at *
  have hmove : ∀ c x y, evalOp env { e1 with op := D02 } c x y = .ok { e1 with op := D02 } := by
    intro c x y
    have n1 : isD1 D02 = false := rfl
    have n2 : isD2 D02 = true := rfl
    simp only [evalOp, n1, n2, if_true, Bool.false_eq_true, if_false]
    by_cases hr : e.regionMode = "on"
    · rw [k1, k2, if_pos hr, hc hr]
    · rw [k1, if_neg hr]
  refine .one (s' := .coord (coordOf f (simplify s.pos a) D02)) (hev.trans ?_)
  have hD : 'D' :: ['0', '2'] = D02 := rfl
  simp only [hD, hmove]
  rfl

/-- A draw statement. -/
theorem evaluate_draw (env : EvalEnv G) {T : ℕ → Option (Aperture G)} {u : String} {s : RState G}
    {e : EvalState G} (hs : Sim T u s e) (c : Coord) (b : Pt) (hop : c.op = some D01)
    (hx : c.x = (simplify s.pos b).1) (hy : c.y = (simplify s.pos b).2)
    (hm : e.regionMode = "on" ∨ e.regionMode = "off" ∧ ∃ ap, e.apertures e.aperture = some ap) :
    ∃ ap e', Runs env e [.coord c] e' ∧ (∀ ap', e.apertures e.aperture = some ap' → ap = ap') ∧
      Drawn [edgeTo env (setFunction e c.function) c b.1 b.2 ap] e e' ∧
      e'.x = b.1 ∧ e'.y = b.2 ∧ e'.apertures = e.apertures ∧ e'.aperture = e.aperture ∧
      e'.settings = e.settings ∧ e'.levelPolarity = e.levelPolarity ∧
      e'.quadrantMode = e.quadrantMode ∧
      ((setFunction e c.function).interpolation = "linear" → e'.interpolation = "linear") := by
  have hp := simplify_getD hs b
  have h1 : c.x.getD e.x = b.1 := by rw [hx]; exact congrArg Prod.fst hp
  have h2 : c.y.getD e.y = b.2 := by rw [hy]; exact congrArg Prod.snd hp
  obtain ⟨k1, k2, k3, k4, k5, k6, k7, k8, k9, k10⟩ := setFunction_keeps e c.function
  have hev := evaluate_coord env e c hop
  rw [h1, h2] at hev
  generalize setFunction e c.function = e1 at *
  have hd1 : isD1 D01 = true := rfl
  have hD : 'D' :: ['0', '1'] = D01 := rfl
  rw [hD] at hev
  rcases hm with hr | ⟨hr, ap, hap⟩
  · have hoff : ¬ e.regionMode = "off" := by rw [hr]; decide
    refine ⟨(e.apertures e.aperture).getD noAperture,
      { e1 with
        op := D01
        currentRegion := some (e1.currentRegion.getD [] ++
          [edgeTo env e1 c b.1 b.2 ((e.apertures e.aperture).getD noAperture)])
        interpolation := "linear"
        x := b.1
        y := b.2 }, .one (s' := .coord c) (hev.trans ?_), ?_, ?_⟩
    · simp only [evalOp, hd1, if_true, k1, hoff, if_false, k6, k7]
      cases hcr : e1.currentRegion <;> rfl
    · intro ap' h; rw [h]; rfl
    · refine ⟨⟨k1, fun h => absurd h hoff, fun _ => ⟨k3, ?_⟩⟩, rfl, rfl, k6, k7, k8, k9, k10, fun _ => rfl⟩
      simp only [k2, List.cons_ne_nil, if_false]
  · have hon : ¬ e.regionMode = "on" := by rw [hr]; decide
    refine ⟨ap, { e1 with
        op := D01
        primitives := e1.primitives ++ [.edge (edgeTo env e1 c b.1 b.2 ap)]
        x := b.1
        y := b.2 }, .one (s' := .coord c) (hev.trans ?_), ?_, ?_⟩
    · simp only [evalOp, hd1, if_true, k1, hr, k6, k7, hap]
      rfl
    · intro ap' h; rw [hap] at h; exact Option.some.inj h
    · refine ⟨⟨k1, fun _ => ⟨?_, k2⟩, fun h => absurd h hon⟩, rfl, rfl, k6, k7, k8, k9, k10, fun h => h⟩
      simp only [k3, List.map_cons, List.map_nil]

/-- The move to the start of a line or arc. -/
def moveTo (s : RState G) (f : Option Str) (a : Pt) : RState G :=
  if s.pos ≠ some a then
    { s.emit (.coord (coordOf f (simplify s.pos a) D02)) with pos := some a } else s

/-- The rest of `renderLine`. -/
def lineTail (s : RState G) (a b : Pt) : RState G :=
  let f := if s.func ≠ some G01 then some G01 else none
  let s' := moveTo { s with func := some G01 } f a
  let f' := if s.pos ≠ some a then none else f
  if (simplify s'.pos b).1 ≠ none ∨ (simplify s'.pos b).2 ≠ none then
    { s'.emit (.coord (coordOf f' (simplify s'.pos b) D01)) with pos := some b }
  else if f'.isSome then s'.emit (.coord ⟨f', none, none, none, none, none⟩)
  else s'

theorem renderLine_eq (env : MacroEnv G) (s : RState G) (a b : Pt) (ap : Option (RShape G))
    (pol dflt : Option String) : renderLine env s a b ap pol dflt = (do
      let s ← selectAperture env s ap
      .ok (lineTail (renderLevel s pol dflt) a b)) := by
  unfold renderLine
  cases selectAperture env s ap with
  | error e => rfl
  | ok s1 =>
    simp only [bind, Except.bind, lineTail, moveTo]
    generalize renderLevel s1 pol dflt = s2
    by_cases hp : s2.pos ≠ some a
    · simp only [ne_eq, hp, not_false_eq_true, if_true]
      split <;> rfl
    · push Not at hp
      simp only [hp, ne_eq, not_true_eq_false, if_false]
      split
      · rfl
      · split <;> rfl

/-- The rest of `renderArc`. -/
def arcTail (s : RState G) (a b c : Pt) (func : Str) : RState G :=
  let s' := moveTo { s with func := some func } (some G01) a
  { s'.emit (.coord ⟨some func, (simplify s'.pos b).1, (simplify s'.pos b).2,
    some (if c.1 ≠ a.1 then c.1 - a.1 else 0), some (if c.2 ≠ a.2 then c.2 - a.2 else 0), some D01⟩) with
    pos := some b }

/-- The quadrant mode part of `renderArc`. -/
def setQuad (s : RState G) (quadrant : String) : RState G :=
  if some quadrant ≠ s.quad then
    { s.emit (.quad (if quadrant ≠ "multi-quadrant" then "single-quadrant" else "multi-quadrant")) with
      quad := some quadrant }
  else s

/-- The code for a direction. -/
def funcOf (direction : String) : PyR Str :=
  if direction = "clockwise" then .ok G02
  else if direction = "counterclockwise" then .ok G03
  else .error .valueError

theorem renderArc_eq (env : MacroEnv G) (s : RState G) (a b c : Pt) (dir : String)
    (ap : Option (RShape G)) (quad : String) (pol dflt : Option String) :
    renderArc env s a b c dir ap quad pol dflt = (do
      let s ← selectAperture env (setQuad s quad) ap
      let func ← funcOf dir
      .ok (arcTail (renderLevel s pol dflt) a b c func)) := by
  unfold renderArc setQuad funcOf
  simp only
  generalize selectAperture env _ ap = r
  cases r with
  | error e => rfl
  | ok s1 =>
    simp only [bind, Except.bind, arcTail, moveTo]
    generalize renderLevel s1 pol dflt = s2
    by_cases h1 : dir = "clockwise"
    · simp only [h1, if_true]
      by_cases hp : s2.pos ≠ some a
      · simp only [ne_eq, hp, not_false_eq_true, if_true]; rfl
      · push Not at hp
        simp only [hp, ne_eq, not_true_eq_false, if_false]
    · simp only [h1, if_false]
      by_cases h2 : dir = "counterclockwise"
      · simp only [h2, if_true]
        by_cases hp : s2.pos ≠ some a
        · simp only [ne_eq, hp, not_false_eq_true, if_true]; rfl
        · push Not at hp
          simp only [hp, ne_eq, not_true_eq_false, if_false]
      · simp only [h2, if_false]

/-- The interpreter can draw. -/
def Ready (e : EvalState G) : Prop :=
  e.regionMode = "on" ∨ e.regionMode = "off" ∧ ∃ ap, e.apertures e.aperture = some ap

theorem moveTo_of_ne {s : RState G} {f : Option Str} {a : Pt} (h : s.pos ≠ some a) :
    moveTo s f a = { s.emit (.coord (coordOf f (simplify s.pos a) D02)) with pos := some a } := if_pos h

theorem moveTo_of_eq {s : RState G} {f : Option Str} {a : Pt} (h : s.pos = some a) :
    moveTo s f a = s := if_neg (not_not.2 h)

theorem moveTo_spec (env : EvalEnv G) (s : RState G) (f : Option Str) (a : Pt) :
    (moveTo s f a).pos = some a ∧ Ext s (moveTo s f a) ∧ (moveTo s f a).level = s.level ∧
    (moveTo s f a).quad = s.quad ∧ (moveTo s f a).dcode = s.dcode ∧ (moveTo s f a).func = s.func ∧
    ∃ l, (moveTo s f a).body = s.body ++ l ∧ ∀ T u e, Sim T u { s with func := none } e →
      (e.regionMode = "on" → s.pos = some a ∨ e.currentRegion = none) →
      ∃ e', Runs env e l e' ∧ Sim T u { moveTo s f a with func := none } e' ∧ Drawn [] e e' ∧
        e'.aperture = e.aperture ∧ e'.quadrantMode = e.quadrantMode ∧ e'.interpolation =
          (if s.pos ≠ some a then (setFunction e f).interpolation else e.interpolation) := by
  by_cases hp : s.pos ≠ some a
  · rw [moveTo_of_ne hp]
    refine ⟨rfl, ⟨fun _ _ h => h, fun _ _ h => h⟩, rfl, rfl, rfl, rfl, _, rfl, ?_⟩
    intro T u e hs hc
    have hc' : e.regionMode = "on" → e.currentRegion = none := by
      intro h
      rcases hc h with h | h
      · exact absurd h hp
      · exact h
    obtain ⟨k1, k2, k3, k4, k5, k6, k7, k8, k9, k10⟩ := setFunction_keeps e f
    refine ⟨_, evaluate_move env hs f a hc', ?_, ?_, k7, k10, (if_pos hp).symm⟩
    · refine ⟨k6.trans hs.table, (congrArg _ k8).trans hs.units, ?_, k9.trans hs.level, ?_, ?_, ?_⟩
      · intro p h; exact Option.some.inj h
      · intro h; cases h
      · intro q h; exact k10.trans (hs.quad q h)
      · intro d h; exact k7.trans (hs.dcode d h)
    · refine ⟨k1, fun _ => ⟨?_, k2⟩, fun _ => ⟨k3, ?_⟩⟩
      · simpa using k3
      · simpa using k2
  · push Not at hp
    rw [moveTo_of_eq hp]
    simp only [hp, ne_eq, not_true_eq_false, if_false]
    refine ⟨trivial, Ext.refl s, trivial, trivial, trivial, trivial, [], by simp, ?_⟩
    intro T u e hs hc
    refine ⟨e, .nil _ _, hs, ⟨rfl, fun _ => ⟨by simp, rfl⟩, fun _ => ⟨rfl, by simp⟩⟩, rfl, rfl, rfl⟩

theorem Sim.congr {T : ℕ → Option (Aperture G)} {u : String} {s s' : RState G} {e : EvalState G}
    (h : Sim T u s e) (h1 : s'.pos = s.pos) (h2 : s'.level = s.level) (h3 : s'.quad = s.quad)
    (h4 : s'.dcode = s.dcode) (h5 : s'.func = some G01 → e.interpolation = "linear") : Sim T u s' e :=
  ⟨h.table, h.units, fun p hp => h.pos p (h1 ▸ hp), by rw [h2]; exact h.level, h5,
    fun q hq => h.quad q (h3 ▸ hq), fun d hd => h.dcode d (h4 ▸ hd)⟩

theorem simplify_some (a b : Pt) :
    ((simplify (some a) b).1 ≠ none ∨ (simplify (some a) b).2 ≠ none) ↔ a ≠ b := by
  unfold simplify
  simp only [ne_eq]
  constructor
  · rintro h rfl
    simp at h
  · intro h
    by_contra hn
    push Not at hn
    obtain ⟨h1, h2⟩ := hn
    apply h
    refine Prod.ext ?_ ?_
    · by_contra hne
      rw [if_pos (fun h => hne h.symm)] at h1
      cases h1
    · by_contra hne
      rw [if_pos (fun h => hne h.symm)] at h2
      cases h2

theorem Ready.of_drawn {e e' : EvalState G} (h : Ready e) (hd : Drawn [] e e')
    (h1 : e'.apertures = e.apertures) (h2 : e'.aperture = e.aperture) : Ready e' := by
  unfold Ready
  rw [hd.1, h1, h2]
  exact h

theorem Drawn.trans {l l' : List (Edge G)} {e e' e'' : EvalState G} (h : Drawn l e e')
    (h' : Drawn l' e' e'') : Drawn (l ++ l') e e'' := by
  obtain ⟨a1, a2, a3⟩ := h
  obtain ⟨b1, b2, b3⟩ := h'
  refine ⟨b1.trans a1, fun hr => ?_, fun hr => ?_⟩
  · obtain ⟨c1, c2⟩ := a2 hr
    obtain ⟨d1, d2⟩ := b2 (a1.trans hr)
    exact ⟨by rw [d1, c1, List.map_append, List.append_assoc], d2.trans c2⟩
  · obtain ⟨c1, c2⟩ := a3 hr
    obtain ⟨d1, d2⟩ := b3 (a1.trans hr)
    refine ⟨d1.trans c1, ?_⟩
    rw [d2, c2]
    by_cases hl : l = []
    · subst hl
      simp
    · by_cases hl' : l' = []
      · subst hl'
        simp [hl]
      · simp [hl, hl', List.append_assoc]

theorem lineTail_spec (env : EvalEnv G) (s : RState G) (a b : Pt) :
    (lineTail s a b).pos = some b ∧ Ext s (lineTail s a b) ∧ (lineTail s a b).level = s.level ∧
    ∃ l, (lineTail s a b).body = s.body ++ l ∧ ∀ T u e, Sim T u s e → Ready e →
      (e.regionMode = "on" → s.pos = some a ∨ e.currentRegion = none) →
      ∃ e' ap, Runs env e l e' ∧ Sim T u (lineTail s a b) e' ∧
        (∀ ap', e.apertures e.aperture = some ap' → ap = ap') ∧
        Drawn (if a = b then [] else [.line a b ap e.levelPolarity u]) e e' := by
  unfold lineTail
  simp only
  generalize hf : (if s.func ≠ some G01 then some G01 else none) = f
  generalize hf' : (if s.pos ≠ some a then none else f) = f'
  obtain ⟨m1, m2, m3, m4, m5, m6, l, m7, m8⟩ := moveTo_spec env { s with func := some G01 } f a
  simp only at m7 m8
  generalize moveTo { s with func := some G01 } f a = s' at *
  -- the interpreter after the move
  have key : ∀ T u e, Sim T u s e → Ready e →
      (e.regionMode = "on" → s.pos = some a ∨ e.currentRegion = none) →
      ∃ e', Runs env e l e' ∧ Sim T u { s' with func := none } e' ∧ Drawn [] e e' ∧ Ready e' ∧
        e'.apertures = e.apertures ∧
        e'.aperture = e.aperture ∧ (setFunction e' f').interpolation = "linear" ∧
        (f' = none → e'.interpolation = "linear") := by
    intro T u e hs hr hc
    obtain ⟨e', r1, r2, r3, r4, _, r5⟩ := m8 T u e (hs.congr rfl rfl rfl rfl (by intro h; cases h)) hc
    have htab : e'.apertures = e.apertures := r2.table.trans hs.table.symm
    have hlin : ∀ e0 : EvalState G, (f = none → e0.interpolation = "linear") →
        (setFunction e0 f).interpolation = "linear" := by
      intro e0 h0
      rw [← hf] at h0 ⊢
      split
      · rfl
      · rename_i hn
        rw [if_neg hn] at h0
        exact h0 rfl
    have hnone : f = none → e.interpolation = "linear" := by
      intro h
      apply hs.func
      by_contra hn
      rw [← hf, if_pos hn] at h
      cases h
    have hnone' : f' = none → e'.interpolation = "linear" := by
      intro h
      rw [r5]
      split
      · exact hlin e hnone
      · rename_i hn
        rw [← hf', if_neg hn] at h
        exact hnone h
    refine ⟨e', r1, r2, r3, hr.of_drawn r3 htab r4, htab, r4, ?_, hnone'⟩
    cases hff : f' with
    | none => exact hnone' hff
    | some g =>
      have : f' = f := by
        rw [← hf']
        split
        · rename_i hn
          rw [← hf', if_pos hn] at hff
          cases hff
        · rfl
      rw [← hff, this]
      apply hlin
      intro h
      rw [← this, hff] at h
      cases h
  have hx : Ext s s' := ⟨fun k d h => m2.shapes k d h, fun k m h => m2.macros k m h⟩
  have hab := simplify_some a b
  rw [m1]
  by_cases hne : a ≠ b
  · rw [if_pos (hab.2 hne)]
    refine ⟨rfl, ⟨hx.shapes, hx.macros⟩, m3, l ++ [.coord (coordOf f' (simplify (some a) b) D01)], ?_, ?_⟩
    · simp only [RState.emit, m7, List.append_assoc]
    · intro T u e hs hr hc
      obtain ⟨e1, r1, r2, r3, r4, r5, r6, r7, r8⟩ := key T u e hs hr hc
      obtain ⟨ap, e2, q1, q2, q3, q4, q5, q6, q7, q8, q9, q10, q11⟩ :=
        evaluate_draw env r2 (coordOf f' (simplify (some a) b) D01) b rfl (by rw [m1]; rfl)
          (by rw [m1]; rfl) r4
      have hx1 : (e1.x, e1.y) = a := r2.pos a m1
      obtain ⟨k1, k2, k3, k4, k5, k6, k7, k8, k9, k10⟩ := setFunction_keeps e1 f'
      have hedge : edgeTo env (setFunction e1 f') (coordOf f' (simplify (some a) b) D01) b.1 b.2 ap =
          .line a b ap e.levelPolarity u := by
        unfold edgeTo
        rw [if_pos r7, k4, k5, hx1, k9, k8, r2.units]
        have : e1.levelPolarity = e.levelPolarity := by
          rw [r2.level, hs.level]
          simp only [m3]
        rw [this]
      refine ⟨e2, ap, r1.append q1, ?_, ?_, ?_⟩
      · refine ⟨q6.trans r2.table, (congrArg _ q8).trans r2.units, ?_, ?_, ?_, ?_, ?_⟩
        · intro p h
          rw [q4, q5]
          exact Option.some.inj h
        · exact q9.trans r2.level
        · intro _
          exact q11 r7
        · intro q h
          exact q10.trans (r2.quad q h)
        · intro d h
          exact q7.trans (r2.dcode d h)
      · intro ap' h
        exact q2 ap' (by rw [r5, r6]; exact h)
      · rw [if_neg hne, ← hedge]
        exact r3.trans q3
  · rw [if_neg (fun h => hne (hab.1 h))]
    push Not at hne
    subst hne
    split
    · rename_i hsome
      refine ⟨m1, ⟨hx.shapes, hx.macros⟩, m3, l ++ [.coord ⟨f', none, none, none, none, none⟩], ?_, ?_⟩
      · simp only [RState.emit, m7, List.append_assoc]
      · intro T u e hs hr hc
        obtain ⟨e1, r1, r2, r3, r4, r5, r6, r7, r8⟩ := key T u e hs hr hc
        obtain ⟨k1, k2, k3, k4, k5, k6, k7, k8, k9, k10⟩ := setFunction_keeps e1 f'
        have honly : Coord.onlyFunction ⟨f', none, none, none, none, none⟩ = true := by
          simp [Coord.onlyFunction, hsome]
        refine ⟨setFunction e1 f', (e.apertures e.aperture).getD noAperture,
          r1.append (.one (s' := .coord ⟨f', none, none, none, none, none⟩) ?_), ?_, ?_, ?_⟩
        · simp only [evaluate, evalCoord, honly, if_true]
          rfl
        · exact ⟨k6.trans r2.table, (congrArg _ k8).trans r2.units,
            fun p h => by rw [k4, k5]; exact r2.pos p h, k9.trans r2.level, fun _ => r7,
            fun q h => k10.trans (r2.quad q h), fun d h => k7.trans (r2.dcode d h)⟩
        · intro ap' h; rw [h]; rfl
        · have : Drawn [] e1 (setFunction e1 f') :=
            ⟨k1, fun _ => ⟨by simpa using k3, k2⟩, fun _ => ⟨k3, by simpa using k2⟩⟩
          rw [if_pos rfl]
          exact r3.trans this
    · rename_i hnone
      refine ⟨m1, ⟨hx.shapes, hx.macros⟩, m3, l, m7, ?_⟩
      intro T u e hs hr hc
      obtain ⟨e1, r1, r2, r3, r4, r5, r6, r7, r8⟩ := key T u e hs hr hc
      refine ⟨e1, (e.apertures e.aperture).getD noAperture, r1, ?_, ?_, by rw [if_pos rfl]; exact r3⟩
      · refine ⟨r2.table, r2.units, r2.pos, r2.level, fun _ => r8 ?_, r2.quad, r2.dcode⟩
        simpa using hnone
      · intro ap' h; rw [h]; rfl

theorem arcTail_spec (env : EvalEnv G) (s : RState G) (a b c : Pt) {dir : String} {func : Str}
    (hdir : funcOf dir = .ok func) :
    (arcTail s a b c func).pos = some b ∧ Ext s (arcTail s a b c func) ∧
    (arcTail s a b c func).level = s.level ∧
    ∃ l, (arcTail s a b c func).body = s.body ++ l ∧ ∀ T u e, Sim T u s e → Ready e →
      (e.regionMode = "on" → s.pos = some a ∨ e.currentRegion = none) →
      (e.quadrantMode = "multi-quadrant" ∨
        e.quadrantMode = "single-quadrant" ∧ env.center dir a b (c.1 - a.1, c.2 - a.2) = some c) →
      ∃ e' ap, Runs env e l e' ∧ Sim T u (arcTail s a b c func) e' ∧
        (∀ ap', e.apertures e.aperture = some ap' → ap = ap') ∧
        Drawn [.arc a b (some c) dir ap e.quadrantMode e.levelPolarity u] e e' := by
  have hfun : ∀ e : EvalState G, (setFunction e (some func)).interpolation = "arc" ∧
      (setFunction e (some func)).direction = dir ∧ func ≠ G01 := by
    intro e
    unfold funcOf at hdir
    split at hdir
    · rename_i h
      obtain rfl := Except.ok.inj hdir
      exact ⟨rfl, h.symm, by decide⟩
    · split at hdir
      · rename_i h
        obtain rfl := Except.ok.inj hdir
        exact ⟨rfl, h.symm, by decide⟩
      · cases hdir
  unfold arcTail
  simp only
  obtain ⟨m1, m2, m3, m4, m5, m6, l, m7, m8⟩ := moveTo_spec env { s with func := some func } (some G01) a
  simp only at m7 m8
  generalize moveTo { s with func := some func } (some G01) a = s' at *
  have hx : Ext s s' := ⟨fun k d h => m2.shapes k d h, fun k m h => m2.macros k m h⟩
  have hi : (if c.1 ≠ a.1 then c.1 - a.1 else 0) = c.1 - a.1 := by
    split
    · rfl
    · rename_i h; push Not at h; rw [h]; ring
  have hj : (if c.2 ≠ a.2 then c.2 - a.2 else 0) = c.2 - a.2 := by
    split
    · rfl
    · rename_i h; push Not at h; rw [h]; ring
  rw [m1, hi, hj]
  generalize hst : (⟨some func, (simplify (some a) b).1, (simplify (some a) b).2, some (c.1 - a.1),
    some (c.2 - a.2), some D01⟩ : Coord) = st
  refine ⟨trivial, ⟨hx.shapes, hx.macros⟩, m3, l ++ [.coord st], ?_, ?_⟩
  · simp only [RState.emit, m7, List.append_assoc]
  intro T u e hs hr hc hq
  obtain ⟨e1, r1, r2, r3, r4, hquad, r5⟩ := m8 T u e (hs.congr rfl rfl rfl rfl (by intro h; cases h)) hc
  have htab : e1.apertures = e.apertures := r2.table.trans hs.table.symm
  obtain ⟨ap, e2, q1, q2, q3, q4, q5, q6, q7, q8, q9, q10, q11⟩ :=
    evaluate_draw env r2 st b (by rw [← hst]) (by rw [← hst, m1]) (by rw [← hst, m1])
      (hr.of_drawn r3 htab r4)
  have hx1 : (e1.x, e1.y) = a := r2.pos a m1
  obtain ⟨k1, k2, k3, k4, k5, k6, k7, k8, k9, k10⟩ := setFunction_keeps e1 st.function
  have hsf : st.function = some func := by rw [← hst]
  have hedge : edgeTo env (setFunction e1 st.function) st b.1 b.2 ap =
      .arc a b (some c) dir ap e.quadrantMode e.levelPolarity u := by
    obtain ⟨f1, f2, -⟩ := hfun e1
    rw [hsf] at k4 k5 k8 k9 k10 ⊢
    unfold edgeTo
    rw [if_neg (by rw [f1]; decide), k4, k5, hx1, k9, k8, r2.units, k10, f2, hquad]
    have hlv : e1.levelPolarity = e.levelPolarity := by
      rw [r2.level, hs.level]
      simp only [m3]
    have hcen : findCenter env (setFunction e1 (some func)) a b (st.i.getD 0, st.j.getD 0) = some c := by
      have e1' : st.i.getD 0 = c.1 - a.1 := by rw [← hst]; rfl
      have e2' : st.j.getD 0 = c.2 - a.2 := by rw [← hst]; rfl
      unfold findCenter
      rw [e1', e2', k10, hquad, f2]
      rcases hq with hq | ⟨hq, hcc⟩
      · rw [if_neg (by rw [hq]; decide)]
        simp
      · rw [if_pos hq, hcc]
    rw [hlv]
    simp only [Prod.mk.eta]
    rw [hcen]
  refine ⟨e2, ap, r1.append q1, ?_, ?_, ?_⟩
  · refine ⟨q6.trans r2.table, (congrArg _ q8).trans r2.units, ?_, ?_, ?_, ?_, ?_⟩
    · intro p h
      rw [q4, q5]
      exact Option.some.inj h
    · exact q9.trans r2.level
    · intro h
      have h' : s'.func = some G01 := h
      rw [m6] at h'
      exact absurd (Option.some.inj h') (hfun e).2.2
    · intro q h
      exact q10.trans (r2.quad q h)
    · intro d h
      exact q7.trans (r2.dcode d h)
  · intro ap' h
    exact q2 ap' (by rw [htab, r4]; exact h)
  · rw [← hedge]
    exact r3.trans q3

theorem Tuned.region {e e' : EvalState G} (h : Tuned e e') :
    e'.regionMode = e.regionMode ∧ e'.currentRegion = e.currentRegion ∧ e'.primitives = e.primitives ∧
    e'.apertures = e.apertures ∧ e'.settings = e.settings :=
  ⟨(congrArg EvalState.regionMode h :), (congrArg EvalState.currentRegion h :),
    (congrArg EvalState.primitives h :), (congrArg EvalState.apertures h :),
    (congrArg EvalState.settings h :)⟩

theorem Tuned.drawn {e e' : EvalState G} (h : Tuned e e') : Drawn [] e e' := by
  obtain ⟨h1, h2, h3, -⟩ := h.region
  exact ⟨h1, fun _ => ⟨by simpa using h3, h2⟩, fun _ => ⟨h3, by simpa using h2⟩⟩

theorem setQuad_step (env : EvalEnv G) (s : RState G) (q : String) :
    Step env s (setQuad s q) Tuned ∧ (setQuad s q).pos = s.pos ∧ (setQuad s q).quad = some q := by
  unfold setQuad
  split
  · refine ⟨⟨⟨fun _ _ h => h, fun _ _ h => h⟩, _, rfl, ?_⟩, rfl, rfl⟩
    intro T u e hc hs
    refine ⟨{ e with quadrantMode := _ }, .one rfl, ?_, rfl⟩
    exact ⟨hs.table, hs.units, hs.pos, hs.level, hs.func, fun q' h => by
      obtain rfl := Option.some.inj h; rfl, hs.dcode⟩
  · rename_i h
    push Not at h
    exact ⟨Step.refl env s fun e => Tuned.refl e, rfl, h.symm⟩

theorem select_quad (s : RState G) (d : ℕ) : (select s d).quad = s.quad := by
  unfold select
  split <;> rfl

theorem selectAperture_quad {menv : MacroEnv G} {s s' : RState G} {ap : Option (RShape G)}
    (h : selectAperture menv s ap = .ok s') : s'.quad = s.quad := by
  match ap, h with
  | none, h => obtain rfl := Except.ok.inj h; rfl
  | some (.circle d hole), h =>
    obtain rfl := Except.ok.inj h
    exact (select_quad _ _).trans (getShape_spec s (.circle d hole)).2.2.2.2.2.2.1
  | some (.rect w v hole), h =>
    obtain rfl := Except.ok.inj h
    exact (select_quad _ _).trans (getShape_spec s (.rect w v {})).2.2.2.2.2.2.1
  | some (.obround w v hole), h =>
    obtain rfl := Except.ok.inj h
    exact (select_quad _ _).trans (getShape_spec s (.obround w v {})).2.2.2.2.2.2.1
  | some (.group g), h =>
    obtain ⟨⟨s1, c⟩, h1, h⟩ := evBind h
    obtain rfl := Except.ok.inj h
    rw [select_quad, (getMacro_spec h1).2.2.2.2.2.2.1]
  | some (.polygon _ _ _ _), h => cases h

theorem renderLevel_quad (s : RState G) (pol dflt : Option String) :
    (renderLevel s pol dflt).quad = s.quad := by
  unfold renderLevel
  simp only
  generalize (if pol.isSome = true then pol else dflt) = p
  split <;> rfl

/-- Selecting the aperture and the polarity. -/
theorem prepare_step (env : EvalEnv G) {menv : MacroEnv G}
    (hm : ∀ g g', menv.equiv g g' = true → g = g') {s s1 : RState G} {ap : Option (RShape G)}
    (h : selectAperture menv s ap = .ok s1) (pol dflt : Option String) :
    Step env s (renderLevel s1 pol dflt) (fun e e' => Tuned e e' ∧
      ∀ k, ap = some k → k.Drawable → DrawsWith e' k) ∧
    (renderLevel s1 pol dflt).pos = s.pos ∧ (renderLevel s1 pol dflt).quad = s.quad ∧
    (renderLevel s1 pol dflt).level = if pol.isSome then pol else dflt := by
  obtain ⟨a1, a2, -, -⟩ := selectAperture_step env hm h
  obtain ⟨b1, b2, -, b4⟩ := renderLevel_step env s1 pol dflt
  refine ⟨a1.trans b1 ?_, b2.trans a2, (renderLevel_quad _ _ _).trans (selectAperture_quad h), b4⟩
  rintro e e' e'' ⟨t1, -, d1⟩ ⟨t2, ha⟩
  refine ⟨t1.trans t2, fun k hk hd => ?_⟩
  have := d1 k hk hd
  obtain ⟨-, -, -, h4, h5⟩ := t2.region
  unfold DrawsWith at this ⊢
  rw [h4, ha, h5]
  exact this

theorem ready_of {e e' : EvalState G} {ap : Option (RShape G)} (ht : Tuned e e')
    (hd : ∀ k, ap = some k → k.Drawable → DrawsWith e' k) (hdr : ∀ k, ap = some k → k.Drawable)
    (hmode : e.regionMode = "on" ∨ e.regionMode = "off" ∧ ap ≠ none) : Ready e' := by
  unfold Ready
  rw [ht.region.1]
  rcases hmode with h | ⟨h, hne⟩
  · exact .inl h
  · obtain ⟨k, hk⟩ := Option.ne_none_iff_exists'.1 hne
    exact .inr ⟨h, _, hd k hk (hdr k hk)⟩

/-- What the statements written for an edge do. -/
def EdgeStep (env : EvalEnv G) (s s' : RState G) (r : REdge G) : Prop :=
  Ext s s' ∧ ∃ l, s'.body = s.body ++ l ∧ ∀ T u e, Covers T u s' → Sim T u s e →
    (e.regionMode = "on" ∨ e.regionMode = "off" ∧ r.aperture ≠ none) →
    (e.regionMode = "on" → s.pos = some r.start ∨ e.currentRegion = none) →
    ∃ e' es, Runs env e l e' ∧ Sim T u s' e' ∧ Drawn es e e' ∧
      List.Forall₂ (EdgeShown u (s'.level.getD "dark")) ([r].filter REdge.visible) es

theorem renderEdge_step (env : EvalEnv G) {menv : MacroEnv G}
    (hm : ∀ g g', menv.equiv g g' = true → g = g') {s s' : RState G} {dflt : Option String}
    {r : REdge G} (hok : r.OK env) (h : renderEdge menv s dflt r = .ok s') :
    s'.pos = some r.end_ ∧ s'.level = (if r.polarity.isSome then r.polarity else dflt) ∧
    EdgeStep env s s' r := by
  cases r with
  | line a b ap pol =>
    have h' : renderLine menv s a b ap pol dflt = .ok s' := h
    rw [renderLine_eq] at h'
    obtain ⟨s1, h1, h2⟩ := evBind h'
    obtain rfl := Except.ok.inj h2
    obtain ⟨⟨hx, l, hl, hst⟩, hpos, -, hlev⟩ := prepare_step env hm h1 pol dflt
    obtain ⟨t1, t2, t3, l', hl', ht⟩ := lineTail_spec env (renderLevel s1 pol dflt) a b
    generalize renderLevel s1 pol dflt = s2 at *
    refine ⟨t1, t3.trans hlev, hx.trans t2, l ++ l', by rw [hl', hl, List.append_assoc], ?_⟩
    intro T u e hc hs hmode hcur
    obtain ⟨e1, r1, sim1, tun, dw⟩ := hst T u e (hc.mono t2) hs
    obtain ⟨g1, g2, g3, g4, g5⟩ := tun.region
    obtain ⟨e2, ap2, r2, sim2, hap2, hdr⟩ := ht T u e1 sim1 (ready_of tun dw hok.1 hmode) (by
      rw [g1, g2, hpos]; exact hcur)
    refine ⟨e2, _, r1.append r2, sim2, tun.drawn.trans hdr, ?_⟩
    by_cases hab : a = b
    · simp [REdge.visible, hab]
    · simp only [REdge.visible, hab, ne_eq, not_false_eq_true, decide_true, List.filter_cons_of_pos,
        List.filter_nil, if_false, List.nil_append]
      refine .cons ⟨ap2, ?_, ?_⟩ .nil
      · intro k hk
        rw [hap2 _ (dw k hk (hok.1 k hk)), sim1.units]
      · rw [sim1.level, t3]
  | arc a b c dir ap quad pol =>
    have h' : renderArc menv s a b c dir ap quad pol dflt = .ok s' := h
    rw [renderArc_eq] at h'
    obtain ⟨s1, h1, h2⟩ := evBind h'
    obtain ⟨func, hfunc, h3⟩ := evBind h2
    obtain rfl := Except.ok.inj h3
    obtain ⟨hq1, hq2, hq3⟩ := setQuad_step env s quad
    obtain ⟨hst0, hpos, hquad, hlev⟩ := prepare_step env hm h1 pol dflt
    obtain ⟨hx, l, hl, hst⟩ := hq1.trans hst0 (R := fun e e' => Tuned e e' ∧
      ∀ k, ap = some k → k.Drawable → DrawsWith e' k) fun e e' e'' p q => ⟨p.trans q.1, q.2⟩
    obtain ⟨t1, t2, t3, l', hl', ht⟩ := arcTail_spec env (renderLevel s1 pol dflt) a b c hfunc
    generalize renderLevel s1 pol dflt = s2 at *
    refine ⟨t1, t3.trans hlev, hx.trans t2, l ++ l', by rw [hl', hl, List.append_assoc], ?_⟩
    intro T u e hc hs hmode hcur
    obtain ⟨e1, r1, sim1, tun, dw⟩ := hst T u e (hc.mono t2) hs
    obtain ⟨g1, g2, g3, g4, g5⟩ := tun.region
    have hmode1 : e1.quadrantMode = quad := by
      rw [sim1.quad quad (hquad.trans hq3)]
      rcases hok.2.2 with hq | ⟨hq, -⟩
      · rw [hq]; rfl
      · rw [hq]; rfl
    obtain ⟨e2, ap2, r2, sim2, hap2, hdr⟩ := ht T u e1 sim1 (ready_of tun dw hok.1 hmode) (by
      rw [g1, g2, hpos, hq2]; exact hcur) (by rw [hmode1]; exact hok.2.2)
    refine ⟨e2, _, r1.append r2, sim2, tun.drawn.trans hdr, ?_⟩
    refine .cons ⟨ap2, ?_, ?_⟩ .nil
    · intro k hk
      rw [hap2 _ (dw k hk (hok.1 k hk)), sim1.units]
    · rw [sim1.level, t3, hmode1]

/-! ## Regions -/

theorem renderEdges_step (env : EvalEnv G) {menv : MacroEnv G}
    (hm : ∀ g g', menv.equiv g g' = true → g = g') (pol : Option String) : ∀ (rs : List (REdge G))
    {s s' : RState G}, (∀ r ∈ rs, r.OK env) → Contiguous rs →
    (∀ r ∈ rs, r.polarity = none ∨ r.polarity = pol) → s.level.getD "dark" = pol.getD "dark" →
    renderEdges menv s pol rs = .ok s' →
    s'.level.getD "dark" = pol.getD "dark" ∧
    Ext s s' ∧ ∃ l, s'.body = s.body ++ l ∧ ∀ T u e, Covers T u s' → Sim T u s e →
      e.regionMode = "on" →
      (e.currentRegion = none ∨ ∀ r ∈ rs.head?, s.pos = some r.start) →
      ∃ e' es, Runs env e l e' ∧ Sim T u s' e' ∧ Drawn es e e' ∧
        List.Forall₂ (EdgeShown u (pol.getD "dark")) (rs.filter REdge.visible) es
  | [], s, s', _, _, _, hlev, h => by
    obtain rfl := Except.ok.inj h
    refine ⟨hlev, Ext.refl s, [], by simp, ?_⟩
    intro T u e _ hs hr _
    exact ⟨e, [], .nil _ _, hs, (Tuned.refl e).drawn, .nil⟩
  | r :: rs, s, s', hok, hcon, hpol, hlev, h => by
    obtain ⟨s1, h1, h2⟩ := evBind h
    obtain ⟨p1, p2, hx, l, hl, hst⟩ := renderEdge_step env hm (hok r (by simp)) h1
    have hlev1 : s1.level.getD "dark" = pol.getD "dark" := by
      rw [p2]
      rcases hpol r (by simp) with hp | hp <;> rw [hp]
      · rfl
      · split <;> rfl
    have hcon' : Contiguous rs := by
      unfold Contiguous at *
      exact hcon.tail
    obtain ⟨q1, qx, l', ql, qst⟩ := renderEdges_step env hm pol rs
      (fun r hr => hok r (by simp [hr])) hcon' (fun r hr => hpol r (by simp [hr])) hlev1 h2
    refine ⟨q1, hx.trans qx, l ++ l', by rw [ql, hl, List.append_assoc], ?_⟩
    intro T u e hc hs hr hcur
    obtain ⟨e1, es1, r1, sim1, d1, f1⟩ := hst T u e (hc.mono qx) hs (.inl hr) (fun _ => by
      rcases hcur with h | h
      · exact .inr h
      · exact .inl (h r (by simp)))
    obtain ⟨e2, es2, r2, sim2, d2, f2⟩ := qst T u e1 hc sim1 (d1.1.trans hr) (.inr (by
      intro r' hr'
      rw [p1]
      cases rs with
      | nil => simp at hr'
      | cons r2 rs =>
        simp only [List.head?_cons, Option.mem_def, Option.some.injEq] at hr'
        subst hr'
        unfold Contiguous at hcon
        rw [List.isChain_cons_cons] at hcon
        rw [hcon.1]))
    refine ⟨e2, es1 ++ es2, r1.append r2, sim2, d1.trans d2, ?_⟩
    rw [hlev1] at f1
    have : (r :: rs).filter REdge.visible = [r].filter REdge.visible ++ rs.filter REdge.visible := by
      rw [← List.filter_append]; rfl
    rw [this]
    exact List.rel_append f1 f2

/-- What the statements written for a primitive do. -/
def PrimStep (env : EvalEnv G) (s s' : RState G) (p : RPrim G) : Prop :=
  Ext s s' ∧ ∃ l, s'.body = s.body ++ l ∧ ∀ T u e, Covers T u s' → Sim T u s e →
    e.regionMode = "off" → e.currentRegion = none →
    ∃ e' qs, Runs env e l e' ∧ Sim T u s' e' ∧ e'.regionMode = "off" ∧ e'.currentRegion = none ∧
      e'.primitives = e.primitives ++ qs ∧ List.Forall₂ (Shown u) p.visible.toList qs

theorem regionOn (e : EvalState G) (h : e.regionMode = "off") (env : EvalEnv G) :
    Runs env e [.region "on"] { e with regionMode := "on" } := by
  refine .one (s' := .region "on") ?_
  simp only [evaluate, evalRegion, h]
  rfl

/-- The primitives after a region has been closed. -/
def closed (e : EvalState G) : List (Prim G) :=
  match e.currentRegion with
  | some (x :: es) => e.primitives ++ [.region (x :: es) e.levelPolarity e.settings.units]
  | _ => e.primitives

theorem regionOff (e : EvalState G) (h : e.regionMode = "on") (env : EvalEnv G) :
    Runs env e [.region "off"]
      { e with primitives := closed e, currentRegion := none, regionMode := "off" } := by
  refine .one (s' := .region "off") ?_
  simp only [evaluate, evalRegion, h, closed]
  rfl

theorem moveInRegion (e : EvalState G) (h : e.regionMode = "on") (env : EvalEnv G)
    (hn : ∀ l, e.currentRegion = some l → l.length ≠ 1) :
    Runs env e [.coord ⟨none, none, none, none, none, some D02⟩]
      { e with op := D02, primitives := closed e, currentRegion := none } := by
  refine .one (s' := .coord ⟨none, none, none, none, none, some D02⟩) ?_
  have n1 : isD1 D02 = false := rfl
  have n2 : isD2 D02 = true := rfl
  have hev := evaluate_coord env e ⟨none, none, none, none, none, some D02⟩ (ch := 'D') (o := ['0', '2']) rfl
  refine hev.trans ?_
  have hD : 'D' :: ['0', '2'] = D02 := rfl
  have hset : ∀ e : EvalState G, setFunction e none = e := fun _ => rfl
  simp only [hD, evalOp, n1, n2, Bool.false_eq_true, if_false, if_true, hset, h, Option.getD_none]
  have : (match e.currentRegion with
      | some l => if l.length > 1 then e.primitives ++ [.region l e.levelPolarity e.settings.units]
        else e.primitives
      | none => e.primitives) = closed e := by
    unfold closed
    cases hc : e.currentRegion with
    | none => rfl
    | some l =>
      match l, hn l hc with
      | [], _ => rfl
      | [x], hne => exact absurd rfl hne
      | x :: y :: l, _ => simp
  rw [← this]
  rfl

theorem renderRegion_step (env : EvalEnv G) {menv : MacroEnv G} {o : Options}
    (hm : ∀ g g', menv.equiv g g' = true → g = g') {s s' : RState G} {rs : List (REdge G)}
    {pol : Option String} (hok : (RPrim.region rs pol).OK env o)
    (h : renderRegion menv o s rs pol = .ok s') : PrimStep env s s' (.region rs pol) := by
  obtain ⟨hok1, hcon, hpol, hexp⟩ := hok
  unfold renderRegion at h
  obtain ⟨⟨lx, l1, hl1, hst1⟩, -, -, hlev⟩ := renderLevel_step env s pol (some "dark")
  simp only at h
  generalize renderLevel s pol (some "dark") = s1 at *
  obtain ⟨s2, h2, h3⟩ := evBind h
  have hlev1 : (s1.emit (.region "on")).level.getD "dark" = pol.getD "dark" := by
    show s1.level.getD "dark" = _
    rw [hlev]
    cases pol <;> rfl
  obtain ⟨hlev2, ex, l2, hl2, hst2⟩ := renderEdges_step env hm pol rs hok1 hcon hpol hlev1 h2
  have ex' : Ext s s2 := lx.trans ⟨fun k d hk => ex.shapes k d hk, fun k m hk => ex.macros k m hk⟩
  have hvis : ∀ u es, List.Forall₂ (EdgeShown u (pol.getD "dark")) (rs.filter REdge.visible) es →
      ∃ qs, List.Forall₂ (Shown u) (RPrim.region rs pol).visible.toList qs ∧
        qs = match es with
          | [] => []
          | x :: l => [.region (x :: l) (pol.getD "dark") u] := by
    intro u es hf
    have hv : (RPrim.region rs pol).visible = if rs.filter REdge.visible = [] then none
        else some (.region (rs.filter REdge.visible) pol) := rfl
    rw [hv]
    generalize rs.filter REdge.visible = fs at hf ⊢
    cases hf with
    | nil => exact ⟨[], by rw [if_pos rfl]; exact .nil, rfl⟩
    | cons ha hl =>
      refine ⟨_, ?_, rfl⟩
      rw [if_neg (by simp)]
      exact .cons ⟨_, rfl, .cons ha hl⟩ .nil
  -- the interpreter up to the end of the edges
  have key : ∀ T u e, Covers T u s2 → Sim T u s e → e.regionMode = "off" → e.currentRegion = none →
      ∃ e' qs, Runs env e (l1 ++ [.region "on"] ++ l2) e' ∧ Sim T u s2 e' ∧ e'.regionMode = "on" ∧
        closed e' = e.primitives ++ qs ∧
        (o.explicitRegionMoveEnd = true → ∀ l, e'.currentRegion = some l → l.length ≠ 1) ∧
        List.Forall₂ (Shown u) (RPrim.region rs pol).visible.toList qs := by
    intro T u e hc hs hoff hnone
    obtain ⟨e1, r1, sim1, tun, -⟩ := hst1 T u e ⟨fun k d hk => hc.1 k d (ex.shapes k d hk),
      fun k m hk => hc.2 k m (ex.macros k m hk)⟩ hs
    obtain ⟨g1, g2, g3, g4, g5⟩ := tun.region
    obtain ⟨e2, es, r2, sim2, dr, fa⟩ := hst2 T u { e1 with regionMode := "on" } hc
      ⟨sim1.table, sim1.units, sim1.pos, sim1.level, sim1.func, sim1.quad, sim1.dcode⟩ rfl
      (.inl (g2.trans hnone))
    obtain ⟨dr1, dr2⟩ := dr.2.2 rfl
    have dr1' : e2.primitives = e.primitives := dr1.trans g3
    have dr2' : e2.currentRegion = if es = [] then none else some es := by
      rw [dr2]
      simp only [g2, hnone, Option.getD_none, List.nil_append]
    obtain ⟨qs, hqs, hqe⟩ := hvis u es fa
    refine ⟨e2, qs, (r1.append (regionOn e1 (g1.trans hoff) env)).append r2, sim2, dr.1, ?_, ?_, hqs⟩
    · unfold closed
      rw [dr2', dr1', hqe, sim2.level, hlev2, sim2.units]
      cases es with
      | nil => simp
      | cons x l => simp
    · intro he l hl
      rw [dr2'] at hl
      split at hl
      · cases hl
      · obtain rfl := Option.some.inj hl
        rw [← fa.length_eq]
        exact hexp he
  by_cases ho : o.explicitRegionMoveEnd = true
  · simp only [ho, if_true] at h3
    obtain rfl := Except.ok.inj h3
    refine ⟨⟨ex'.shapes, ex'.macros⟩,
      l1 ++ [.region "on"] ++ l2 ++ [.coord ⟨none, none, none, none, none, some D02⟩] ++ [.region "off"],
      ?_, ?_⟩
    · simp only [RState.emit, hl2, hl1, List.append_assoc]
    · intro T u e hc hs hoff hnone
      obtain ⟨e', qs, r, sim, hon, hcl, hlen, hqs⟩ := key T u e ⟨hc.1, hc.2⟩ hs hoff hnone
      refine ⟨_, qs, (r.append (moveInRegion e' hon env (hlen ho))).append
        (regionOff { e' with op := D02, primitives := closed e', currentRegion := none } hon env), ?_, rfl,
        rfl, hcl, hqs⟩
      exact ⟨sim.table, sim.units, sim.pos, sim.level, sim.func, sim.quad, sim.dcode⟩
  · simp only [ho] at h3
    obtain rfl := Except.ok.inj h3
    refine ⟨⟨ex'.shapes, ex'.macros⟩, l1 ++ [.region "on"] ++ l2 ++ [.region "off"], ?_, ?_⟩
    · simp only [RState.emit, hl2, hl1, List.append_assoc, Bool.false_eq_true, if_false]
    · intro T u e hc hs hoff hnone
      obtain ⟨e', qs, r, sim, hon, hcl, hlen, hqs⟩ := key T u e ⟨hc.1, hc.2⟩ hs hoff hnone
      refine ⟨_, qs, r.append (regionOff _ hon env), ?_, rfl, rfl, hcl, hqs⟩
      exact ⟨sim.table, sim.units, sim.pos, sim.level, sim.func, sim.quad, sim.dcode⟩

/-! ## Flashes -/

theorem evaluate_flash (env : EvalEnv G) {T : ℕ → Option (Aperture G)} {u : String} {s : RState G}
    {e : EvalState G} (hs : Sim T u s e) (p : Pt) (ap : Aperture G)
    (hap : e.apertures e.aperture = some ap) :
    Runs env e [.coord (coordOf none (simplify s.pos p) D03)]
      { e with
        op := D03
        primitives := e.primitives ++ [.flash ap.shape p e.levelPolarity u]
        x := p.1
        y := p.2 } := by
  have hp := simplify_getD hs p
  have h1 : (coordOf none (simplify s.pos p) D03).x.getD e.x = p.1 := congrArg Prod.fst hp
  have h2 : (coordOf none (simplify s.pos p) D03).y.getD e.y = p.2 := congrArg Prod.snd hp
  have hev := evaluate_coord env e (coordOf none (simplify s.pos p) D03) rfl
  rw [h1, h2] at hev
  have hset : setFunction e none = e := rfl
  have hf : (coordOf none (simplify s.pos p) D03).function = none := rfl
  rw [hf, hset] at hev
  have n1 : isD1 D03 = false := rfl
  have n2 : isD2 D03 = false := rfl
  have n3 : isD3 D03 = true := rfl
  have hD : 'D' :: ['0', '3'] = D03 := rfl
  refine .one (s' := .coord (coordOf none (simplify s.pos p) D03)) (hev.trans ?_)
  simp only [hD, evalOp, n1, n2, n3, Bool.false_eq_true, if_false, if_true, hap, hs.units]
  rfl

theorem renderFlash_step (env : EvalEnv G) (o : Options) {s s1 : RState G} {k : RShape G} {d : ℕ}
    (p : Pt) (pol : Option String) (hx : Ext s s1)
    (hf : s1.body = s.body ∧ s1.level = s.level ∧ s1.pos = s.pos ∧ s1.func = s.func ∧
      s1.quad = s.quad ∧ s1.dcode = s.dcode)
    (hd : ∀ (T : ℕ → Option (Aperture G)) u, Covers T u s1 → T d = some ⟨k.toShape, some u⟩) :
    PrimStep env s (renderFlash o s1 p pol d) (.flash k p pol) := by
  obtain ⟨f1, f2, f3, f4, f5, f6⟩ := hf
  unfold renderFlash
  simp only
  obtain ⟨lstep, -, -, hlev⟩ := renderLevel_step env s1 pol (some "dark")
  generalize renderLevel s1 pol (some "dark") = s2 at *
  obtain ⟨sstep, -, -, slev⟩ := select_step env s2 d
  obtain ⟨x3, l3, hl3, hst⟩ := lstep.trans sstep (R := fun e e' => Tuned e e' ∧ e'.aperture = d)
    fun e e' e'' p q => ⟨p.1.trans q.1, q.2.1⟩
  generalize select s2 d = s3 at *
  have hlev3 : s3.level.getD "dark" = pol.getD "dark" := by
    rw [slev, hlev]
    cases pol <;> rfl
  have key : ∀ T u e, Covers T u s3 → Sim T u s e →
      ∃ e', Runs env e l3 e' ∧ Sim T u s3 e' ∧ Tuned e e' ∧
        e'.apertures e'.aperture = some ⟨k.toShape, some u⟩ ∧ e'.levelPolarity = pol.getD "dark" := by
    intro T u e hc hs
    obtain ⟨e', r, sim, tun, ha⟩ := hst T u e hc (hs.congr f3 f2 f5 f6 (by rw [f4]; exact hs.func))
    refine ⟨e', r, sim, tun, ?_, ?_⟩
    · rw [sim.table, ha]
      exact hd T u (hc.mono x3)
    · rw [sim.level, hlev3]
  have hqs : ∀ u, List.Forall₂ (Shown u) (RPrim.flash k p pol).visible.toList
      [.flash k.toShape p (pol.getD "dark") u] := fun u => .cons rfl .nil
  have hx' := hx.trans x3
  split
  · refine ⟨⟨hx'.shapes, hx'.macros⟩, l3 ++ [.coord (coordOf none (simplify s3.pos p) D03)], ?_, ?_⟩
    · simp only [RState.emit, hl3, f1, List.append_assoc]
      rfl
    · intro T u e hc hs hoff hnone
      obtain ⟨e', r, sim, tun, ha, hl⟩ := key T u e ⟨hc.1, hc.2⟩ hs
      obtain ⟨g1, g2, g3, g4, g5⟩ := tun.region
      refine ⟨_, _, r.append (evaluate_flash env sim p _ ha), ?_, g1.trans hoff, g2.trans hnone, ?_, hqs u⟩
      · exact ⟨sim.table, sim.units, fun q h => Option.some.inj h, sim.level, sim.func, sim.quad, sim.dcode⟩
      · simp only [g3, hl]
  · refine ⟨⟨hx'.shapes, hx'.macros⟩, l3 ++ [.coord (coordOf none (simplify s3.pos p) D02)] ++
      [.coord (coordOf none (simplify (some p) p) D03)], ?_, ?_⟩
    · have : coordOf none (simplify (some p) p) D03 = ⟨none, none, none, none, none, some D03⟩ := by
        simp [coordOf, simplify]
      rw [this]
      simp only [RState.emit, hl3, f1, List.append_assoc]
      rfl
    · intro T u e hc hs hoff hnone
      obtain ⟨e', r, sim, tun, ha, hl⟩ := key T u e ⟨hc.1, hc.2⟩ hs
      obtain ⟨g1, g2, g3, g4, g5⟩ := tun.region
      have hmove := evaluate_move env sim none p (by rw [g1, hoff]; intro h; exact absurd h (by decide))
      have hset : setFunction e' none = e' := rfl
      rw [hset] at hmove
      have sim' : Sim T u { s3 with pos := some p } { e' with op := D02, x := p.1, y := p.2 } :=
        ⟨sim.table, sim.units, fun q h => Option.some.inj h, sim.level, sim.func, sim.quad, sim.dcode⟩
      refine ⟨_, _, (r.append hmove).append (evaluate_flash env sim' p _ ha), ?_, g1.trans hoff,
        g2.trans hnone, ?_, hqs u⟩
      · exact ⟨sim.table, sim.units, fun q h => Option.some.inj h, sim.level, sim.func, sim.quad, sim.dcode⟩
      · simp only [g3, hl]

/-! ## Primitives -/

theorem edge_primStep {env : EvalEnv G} {s s' : RState G} {r : REdge G} (hap : r.aperture ≠ none)
    (hlev : s'.level = if r.polarity.isSome then r.polarity else some "dark")
    (h : EdgeStep env s s' r) : PrimStep env s s' (.edge r) := by
  obtain ⟨hx, l, hl, hst⟩ := h
  refine ⟨hx, l, hl, ?_⟩
  intro T u e hc hs hoff hnone
  obtain ⟨e', es, hr, sim, dr, hf⟩ := hst T u e hc hs (.inr ⟨hoff, hap⟩)
    (fun h => absurd (hoff.symm.trans h) (by decide))
  obtain ⟨d1, d2⟩ := dr.2.1 hoff
  have hp : s'.level.getD "dark" = r.polarity.getD "dark" := by
    rw [hlev]
    cases r.polarity <;> rfl
  rw [hp] at hf
  refine ⟨e', _, hr, sim, dr.1.trans hoff, d2.trans hnone, d1, ?_⟩
  unfold RPrim.visible
  by_cases hv : r.visible = true
  · simp only [hv, if_true, List.filter_cons_of_pos, List.filter_nil] at hf ⊢
    cases hf with
    | cons ha hl =>
      cases hl
      exact .cons ⟨_, rfl, ha⟩ .nil
  · have he : [r].filter REdge.visible = [] := by simp [hv]
    rw [he] at hf
    cases hf
    simp only [hv]
    exact .nil

theorem render_step (env : EvalEnv G) {menv : MacroEnv G} {o : Options}
    (hm : ∀ g g', menv.equiv g g' = true → g = g') {s s' : RState G} {c : Option Str} {p : RPrim G}
    (hok : p.OK env o) (h : render menv o s c p = .ok s') : PrimStep env s s' p := by
  -- comments
  have main : ∀ s0 : RState G, render menv o s0 none p = .ok s' → PrimStep env s0 s' p := by
    intro s0 h
    cases p with
    | edge r =>
      obtain ⟨-, h2, h3⟩ := renderEdge_step env hm hok.1 h
      exact edge_primStep hok.2 h2 h3
    | region rs pol => exact renderRegion_step env hm hok h
    | flash k q pol =>
      have reg : ∀ k : RShape G, k.Flashable →
          PrimStep env s0 (renderFlash o (getShape s0 k).1 q pol (getShape s0 k).2) (.flash k q pol) := by
        intro k hk
        obtain ⟨hx, hs, hf⟩ := getShape_spec s0 k
        exact renderFlash_step env o q pol hx hf fun T u hc => hc.1 _ _ hs hk
      cases k with
      | group g =>
        obtain ⟨⟨s1, d⟩, h1, h2⟩ := evBind (show (getMacro menv s0 g >>= fun r =>
          .ok (renderFlash o r.1 q pol r.2)) = .ok s' from h)
        obtain rfl := Except.ok.inj h2
        obtain ⟨hx, ⟨g', hg', he⟩, hf⟩ := getMacro_spec h1
        have hgg : g' = g := by
          rcases he with he | he
          · exact he
          · exact (hm g g' he).symm
        subst hgg
        exact renderFlash_step env o q pol hx hf fun T u hc => hc.2 _ _ hg'
      | circle a b => obtain rfl := Except.ok.inj h; exact reg _ hok
      | rect a b d => obtain rfl := Except.ok.inj h; exact reg _ hok
      | obround a b d => obtain rfl := Except.ok.inj h; exact reg _ hok
      | polygon a b d e => obtain rfl := Except.ok.inj h; exact reg _ hok
  cases c with
  | none => exact main s h
  | some t =>
    obtain ⟨hx, l, hl, hst⟩ := main (s.emit (.comment t)) h
    refine ⟨⟨hx.shapes, hx.macros⟩, .comment t :: l, by rw [hl]; simp [RState.emit], ?_⟩
    intro T u e hc hs hoff hnone
    obtain ⟨e', qs, r, rest⟩ := hst T u e hc ⟨hs.table, hs.units, hs.pos, hs.level, hs.func, hs.quad, hs.dcode⟩
      hoff hnone
    exact ⟨e', qs, .cons (s' := .comment t) rfl r, rest⟩

theorem renderAll_step (env : EvalEnv G) {menv : MacroEnv G} {o : Options}
    (hm : ∀ g g', menv.equiv g g' = true → g = g') : ∀ (ps : List (Option Str × RPrim G))
    {s s' : RState G}, (∀ p ∈ ps, p.2.OK env o) → renderAll menv o s ps = .ok s' →
    Ext s s' ∧ ∃ l, s'.body = s.body ++ l ∧ ∀ T u e, Covers T u s' → Sim T u s e →
      e.regionMode = "off" → e.currentRegion = none →
      ∃ e' qs, Runs env e l e' ∧ Sim T u s' e' ∧ e'.primitives = e.primitives ++ qs ∧
        List.Forall₂ (Shown u) (ps.filterMap fun p => p.2.visible) qs
  | [], s, s', _, h => by
    obtain rfl := Except.ok.inj h
    exact ⟨Ext.refl s, [], by simp, fun T u e _ hs _ _ => ⟨e, [], .nil _ _, hs, by simp, .nil⟩⟩
  | (c, p) :: ps, s, s', hok, h => by
    obtain ⟨s1, h1, h2⟩ := evBind h
    obtain ⟨x1, l1, hl1, st1⟩ := render_step env hm (hok (c, p) (by simp)) h1
    obtain ⟨x2, l2, hl2, st2⟩ := renderAll_step env hm ps (fun p hp => hok p (by simp [hp])) h2
    refine ⟨x1.trans x2, l1 ++ l2, by rw [hl2, hl1, List.append_assoc], ?_⟩
    intro T u e hc hs hoff hnone
    obtain ⟨e1, q1, r1, sim1, o1, n1, p1, f1⟩ := st1 T u e (hc.mono x2) hs hoff hnone
    obtain ⟨e2, q2, r2, sim2, p2, f2⟩ := st2 T u e1 hc sim1 o1 n1
    refine ⟨e2, q1 ++ q2, r1.append r2, sim2, by rw [p2, p1, List.append_assoc], ?_⟩
    have : ((c, p) :: ps).filterMap (fun p => p.2.visible) =
        p.visible.toList ++ ps.filterMap (fun p => p.2.visible) := by
      rw [List.filterMap_cons]
      cases p.visible <;> rfl
    rw [this]
    exact List.rel_append f1 f2

/-! ## Invariants of the definitions -/

/-- Nothing is defined between `s` and `s'`. -/
structure SameDefs (s s' : RState G) : Prop where
  header : s'.header = s.header
  next : s'.next = s.next
  shapes : s'.shapes = s.shapes
  macros : s'.macros = s.macros

theorem SameDefs.refl (s : RState G) : SameDefs s s := ⟨rfl, rfl, rfl, rfl⟩

theorem SameDefs.trans {s s' s'' : RState G} (h : SameDefs s s') (h' : SameDefs s' s'') : SameDefs s s'' :=
  ⟨h'.header.trans h.header, h'.next.trans h.next, h'.shapes.trans h.shapes, h'.macros.trans h.macros⟩

/-- Neither a definition nor a selection. -/
def Plain (x : Stmt) : Prop := selectedCode x = none ∧ definedCode x = none

/-- `s'` results from `s` by statements which neither define nor select apertures. -/
def Quiet (s s' : RState G) : Prop :=
  SameDefs s s' ∧ ∃ l, s'.body = s.body ++ l ∧ ∀ x ∈ l, Plain x

theorem Quiet.refl (s : RState G) : Quiet s s := ⟨.refl s, [], by simp, by simp⟩

theorem Quiet.trans {s s' s'' : RState G} (h : Quiet s s') (h' : Quiet s' s'') : Quiet s s'' := by
  obtain ⟨a, l, b, c⟩ := h
  obtain ⟨a', l', b', c'⟩ := h'
  refine ⟨a.trans a', l ++ l', by rw [b', b, List.append_assoc], ?_⟩
  intro x hx
  rcases List.mem_append.1 hx with h | h
  · exact c x h
  · exact c' x h

theorem Quiet.emit {s s' : RState G} (x : Stmt) (hp : Plain x) (h : SameDefs s s')
    (hb : s'.body = s.body ++ [x]) : Quiet s s' :=
  ⟨h, [x], hb, by simpa using hp⟩

/-- What an invariant of the definitions has to satisfy; `K` holds for the keys of the shapes that are
defined. -/
structure Closed (menv : MacroEnv G) (K : RShape G → Prop) (P : RState G → Prop) : Prop where
  quiet : ∀ s s', Quiet s s' → P s → P s'
  select : ∀ s d, ((∃ k, s.shapes k = some d) ∨ ∃ h g, (d, g) ∈ s.macros h) → P s → P (select s d)
  shape : ∀ s k, K k → (∀ g, k ≠ .group g) → P s → P (getShape s k).1
  group : ∀ s g s' d, getMacro menv s g = .ok (s', d) → P s → P s'

/-- The key under which a shape to draw with is looked up. -/
def drawKey : RShape G → RShape G
  | .rect w v _ => .rect w v {}
  | .obround w v _ => .obround w v {}
  | k => k

/-- The keys of the shapes used by a primitive. -/
def keys : RPrim G → List (RShape G)
  | .edge r => r.aperture.toList.map drawKey
  | .flash k _ _ => [k]
  | .region rs _ => rs.flatMap fun r => r.aperture.toList.map drawKey

theorem plain_coord (c : Coord) : Plain (.coord c) := ⟨rfl, rfl⟩

theorem renderLevel_quiet (s : RState G) (pol dflt : Option String) : Quiet s (renderLevel s pol dflt) := by
  unfold renderLevel
  simp only
  generalize (if pol.isSome = true then pol else dflt) = p
  split
  · exact .emit (.lp (p.getD "dark")) ⟨rfl, rfl⟩ ⟨rfl, rfl, rfl, rfl⟩ rfl
  · exact .refl s

theorem setQuad_quiet (s : RState G) (q : String) : Quiet s (setQuad s q) := by
  unfold setQuad
  split
  · exact .emit _ ⟨rfl, rfl⟩ ⟨rfl, rfl, rfl, rfl⟩ rfl
  · exact .refl s

theorem moveTo_quiet (s : RState G) (f : Option Str) (a : Pt) : Quiet s (moveTo s f a) := by
  unfold moveTo
  split
  · exact .emit _ (plain_coord _) ⟨rfl, rfl, rfl, rfl⟩ rfl
  · exact .refl s

theorem lineTail_quiet (s : RState G) (a b : Pt) : Quiet s (lineTail s a b) := by
  unfold lineTail
  simp only
  generalize (if s.func ≠ some G01 then some G01 else none) = f
  have h0 : Quiet s { s with func := some G01 } := ⟨⟨rfl, rfl, rfl, rfl⟩, [], by simp, by simp⟩
  have h1 := h0.trans (moveTo_quiet { s with func := some G01 } f a)
  generalize moveTo { s with func := some G01 } f a = s' at *
  generalize (if s.pos ≠ some a then none else f) = f'
  split
  · exact h1.trans (.emit _ (plain_coord _) ⟨rfl, rfl, rfl, rfl⟩ rfl)
  · split
    · exact h1.trans (.emit _ (plain_coord _) ⟨rfl, rfl, rfl, rfl⟩ rfl)
    · exact h1

theorem arcTail_quiet (s : RState G) (a b c : Pt) (func : Str) : Quiet s (arcTail s a b c func) := by
  unfold arcTail
  simp only
  have h0 : Quiet s { s with func := some func } := ⟨⟨rfl, rfl, rfl, rfl⟩, [], by simp, by simp⟩
  have h1 := h0.trans (moveTo_quiet { s with func := some func } (some G01) a)
  generalize moveTo { s with func := some func } (some G01) a = s' at *
  exact h1.trans (.emit _ (plain_coord _) ⟨rfl, rfl, rfl, rfl⟩ rfl)

section
variable {menv : MacroEnv G} {K : RShape G → Prop} {P : RState G → Prop} (hP : Closed menv K P)
include hP

theorem Closed.selectAperture {s s' : RState G} {ap : Option (RShape G)}
    (hK : ∀ k, ap = some k → K (drawKey k)) (h : selectAperture menv s ap = .ok s') (hs : P s) : P s' := by
  have go : ∀ k : RShape G, K k → (∀ g, k ≠ .group g) →
      P (Rs274x.select (getShape s k).1 (getShape s k).2) := fun k hk hg =>
    hP.select _ _ (.inl ⟨k, (getShape_spec s k).2.1⟩) (hP.shape s k hk hg hs)
  match ap, h with
  | none, h => obtain rfl := Except.ok.inj h; exact hs
  | some (.circle d hole), h =>
    obtain rfl := Except.ok.inj h
    exact go (.circle d hole) (hK _ rfl) (by intro g h; cases h)
  | some (.rect w v hole), h =>
    obtain rfl := Except.ok.inj h
    exact go (.rect w v {}) (hK _ rfl) (by intro g h; cases h)
  | some (.obround w v hole), h =>
    obtain rfl := Except.ok.inj h
    exact go (.obround w v {}) (hK _ rfl) (by intro g h; cases h)
  | some (.group g), h =>
    obtain ⟨⟨s1, c⟩, h1, h⟩ := evBind h
    obtain rfl := Except.ok.inj h
    obtain ⟨-, ⟨g', hg', -⟩, -⟩ := getMacro_spec h1
    exact hP.select _ _ (.inr ⟨_, _, hg'⟩) (hP.group s g s1 c h1 hs)
  | some (.polygon _ _ _ _), h => cases h

theorem Closed.edge {s s' : RState G} {dflt : Option String} {r : REdge G}
    (hK : ∀ k, r.aperture = some k → K (drawKey k)) (h : renderEdge menv s dflt r = .ok s') (hs : P s) :
    P s' := by
  cases r with
  | line a b ap pol =>
    have h' : renderLine menv s a b ap pol dflt = .ok s' := h
    rw [renderLine_eq] at h'
    obtain ⟨s1, h1, h2⟩ := evBind h'
    obtain rfl := Except.ok.inj h2
    exact hP.quiet _ _ ((renderLevel_quiet _ _ _).trans (lineTail_quiet _ _ _))
      (hP.selectAperture hK h1 hs)
  | arc a b c dir ap quad pol =>
    have h' : renderArc menv s a b c dir ap quad pol dflt = .ok s' := h
    rw [renderArc_eq] at h'
    obtain ⟨s1, h1, h2⟩ := evBind h'
    obtain ⟨func, hfunc, h3⟩ := evBind h2
    obtain rfl := Except.ok.inj h3
    exact hP.quiet _ _ ((renderLevel_quiet _ _ _).trans (arcTail_quiet _ _ _ _ _))
      (hP.selectAperture hK h1 (hP.quiet _ _ (setQuad_quiet _ _) hs))

theorem Closed.edges {pol : Option String} : ∀ {rs : List (REdge G)} {s s' : RState G},
    (∀ r ∈ rs, ∀ k, r.aperture = some k → K (drawKey k)) → renderEdges menv s pol rs = .ok s' → P s → P s'
  | [], s, s', _, h, hs => by obtain rfl := Except.ok.inj h; exact hs
  | r :: rs, s, s', hK, h, hs => by
    obtain ⟨s1, h1, h2⟩ := evBind h
    exact Closed.edges (fun r hr => hK r (by simp [hr])) h2 (hP.edge (hK r (by simp)) h1 hs)

theorem Closed.flash {s : RState G} {o : Options} {p : Pt} {pol : Option String} {d : ℕ}
    (hd : (∃ k, s.shapes k = some d) ∨ ∃ h g, (d, g) ∈ s.macros h) (hs : P s) :
    P (renderFlash o s p pol d) := by
  unfold renderFlash
  simp only
  have hq := renderLevel_quiet s pol (some "dark")
  have h1 := hP.quiet _ _ hq hs
  have h2 := hP.select (renderLevel s pol (some "dark")) d (by
    rw [hq.1.shapes, hq.1.macros]; exact hd) h1
  generalize Rs274x.select (renderLevel s pol (some "dark")) d = s2 at *
  refine hP.quiet s2 _ ?_ h2
  split
  · exact .emit _ (plain_coord _) ⟨rfl, rfl, rfl, rfl⟩ rfl
  · refine ⟨⟨rfl, rfl, rfl, rfl⟩, [_, _], by simp [RState.emit]; exact ⟨rfl, rfl⟩, ?_⟩
    intro x hx
    simp only [List.mem_cons, List.not_mem_nil, or_false] at hx
    rcases hx with rfl | rfl <;> exact plain_coord _

theorem Closed.render {s s' : RState G} {o : Options} {c : Option Str} {p : RPrim G}
    (hK : ∀ k ∈ keys p, K k) (h : render menv o s c p = .ok s') (hs : P s) : P s' := by
  have main : ∀ s0 : RState G, Rs274x.render menv o s0 none p = .ok s' → P s0 → P s' := by
    intro s0 h hs
    cases p with
    | edge r =>
      refine hP.edge (fun k hk => hK _ ?_) h hs
      simp [keys, hk]
    | region rs pol =>
      have h' : renderRegion menv o s0 rs pol = .ok s' := h
      unfold renderRegion at h'
      obtain ⟨s2, h2, h3⟩ := evBind h'
      obtain rfl := Except.ok.inj h3
      have hP2 : P s2 := by
        refine hP.edges (fun r hr k hk => hK _ ?_) h2 (hP.quiet _ _ ((renderLevel_quiet s0 pol (some "dark")).trans
          (.emit (.region "on") ⟨rfl, rfl⟩ ⟨rfl, rfl, rfl, rfl⟩ rfl)) hs)
        simp only [keys, List.mem_flatMap]
        exact ⟨r, hr, by simp [hk]⟩
      refine hP.quiet _ _ ?_ hP2
      split
      · exact .trans (s' := s2.emit (.coord { op := some D02 })) (.emit (.coord { op := some D02 }) (plain_coord _) ⟨rfl, rfl, rfl, rfl⟩ rfl)
          (.emit (.region "off") ⟨rfl, rfl⟩ ⟨rfl, rfl, rfl, rfl⟩ rfl)
      · exact .emit (.region "off") ⟨rfl, rfl⟩ ⟨rfl, rfl, rfl, rfl⟩ rfl
    | flash k q pol =>
      have reg : ∀ k : RShape G, K k → (∀ g, k ≠ .group g) →
          P (renderFlash o (getShape s0 k).1 q pol (getShape s0 k).2) := fun k hk hg =>
        hP.flash (.inl ⟨k, (getShape_spec s0 k).2.1⟩) (hP.shape s0 k hk hg hs)
      cases k with
      | group g =>
        obtain ⟨⟨s1, d⟩, h1, h2⟩ := evBind (show (getMacro menv s0 g >>= fun r =>
          .ok (renderFlash o r.1 q pol r.2)) = .ok s' from h)
        obtain rfl := Except.ok.inj h2
        obtain ⟨-, ⟨g', hg', -⟩, -⟩ := getMacro_spec h1
        exact hP.flash (.inr ⟨_, _, hg'⟩) (hP.group s0 g s1 d h1 hs)
      | circle a b =>
        obtain rfl := Except.ok.inj h; exact reg _ (hK _ (by simp [keys])) (by intro g h; cases h)
      | rect a b d =>
        obtain rfl := Except.ok.inj h; exact reg _ (hK _ (by simp [keys])) (by intro g h; cases h)
      | obround a b d =>
        obtain rfl := Except.ok.inj h; exact reg _ (hK _ (by simp [keys])) (by intro g h; cases h)
      | polygon a b d e =>
        obtain rfl := Except.ok.inj h; exact reg _ (hK _ (by simp [keys])) (by intro g h; cases h)
  cases c with
  | none => exact main s h hs
  | some t =>
    exact main (s.emit (.comment t)) h (hP.quiet s _ (.emit (.comment t) ⟨rfl, rfl⟩ ⟨rfl, rfl, rfl, rfl⟩ rfl) hs)

theorem Closed.renderAll {o : Options} : ∀ {ps : List (Option Str × RPrim G)} {s s' : RState G},
    (∀ p ∈ ps, ∀ k ∈ keys p.2, K k) → renderAll menv o s ps = .ok s' → P s → P s'
  | [], s, s', _, h, hs => by obtain rfl := Except.ok.inj h; exact hs
  | (c, p) :: ps, s, s', hK, h, hs => by
    obtain ⟨s1, h1, h2⟩ := evBind h
    exact Closed.renderAll (fun p hp => hK p (by simp [hp])) h2 (hP.render (hK (c, p) (by simp)) h1 hs)

end

/-! ## The header -/

theorem mods_hole (h : HoleAttr) (hr : h.Regular) :
    (h.toHole = {} ∧ holeMods h = []) ∨ (∃ d, h.toHole = { diameter := d } ∧ holeMods h = [d]) ∨
      ∃ w v, h.toHole = { width := w, height := v } ∧ holeMods h = [w, v] := by
  obtain ⟨dia, wid, hei⟩ := h
  unfold HoleAttr.Regular at hr
  rcases hr with h0 | ⟨d, hd, h1⟩ | ⟨w, hw, v, hv, h1⟩
  · refine .inl ⟨h0, ?_⟩
    simp only [HoleAttr.toHole, Hole.mk.injEq] at h0
    obtain ⟨a, b, c⟩ := h0
    cases dia <;> cases wid <;> cases hei <;> simp_all [holeMods, holeMods.rectMods]
  · refine .inr (.inl ⟨d, h1, ?_⟩)
    simp only [HoleAttr.toHole, Hole.mk.injEq] at h1
    obtain ⟨a, b, c⟩ := h1
    cases dia <;> cases wid <;> cases hei <;> simp_all [holeMods, holeMods.rectMods]
  · refine .inr (.inr ⟨w, v, h1, ?_⟩)
    simp only [HoleAttr.toHole, Hole.mk.injEq] at h1
    obtain ⟨a, b, c⟩ := h1
    cases dia <;> cases wid <;> cases hei <;> simp_all [holeMods, holeMods.rectMods]

theorem holeOf_mods (pre : List ℚ) (h : HoleAttr) (hr : h.Regular) :
    holeOf (pre ++ holeMods h) pre.length = h.toHole := by
  unfold holeOf
  rcases mods_hole h hr with ⟨h1, h2⟩ | ⟨d, h1, h2⟩ | ⟨w, v, h1, h2⟩ <;> rw [h1, h2]
  · simp
  · simp [List.getD_eq_getElem?_getD]
  · simp [List.getD_eq_getElem?_getD]

theorem polyHole_mods (a b c : ℚ) (h : HoleAttr) (hr : h.Regular) :
    polyHole (a :: b :: c :: holeMods h) = h.toHole := by
  unfold polyHole
  rcases mods_hole h hr with ⟨h1, h2⟩ | ⟨d, h1, h2⟩ | ⟨w, v, h1, h2⟩ <;> rw [h1, h2] <;> rfl

theorem truncate_intCast (n : ℤ) : truncate (n : ℚ) = n := by
  unfold truncate
  split <;> simp

theorem evaluate_adOf (env : EvalEnv G) (e : EvalState G) (d : ℕ) (k : RShape G)
    (hg : ∀ g, k ≠ .group g) :
    ∃ sh, evaluate env e (adOf d k) = .ok ({ e with
      apertures := fun k => if k = d then some ⟨sh, some e.settings.units⟩ else e.apertures k }, adOf d k) ∧
      (k.Flashable → sh = k.toShape) := by
  cases k with
  | circle dia h =>
    refine ⟨.circle dia (holeOf (dia :: holeMods h) 1), rfl, fun hf => ?_⟩
    have := holeOf_mods [dia] h hf
    exact congrArg _ this
  | rect w v h =>
    refine ⟨.rect w v (holeOf (w :: v :: holeMods h) 2), rfl, fun hf => ?_⟩
    have := holeOf_mods [w, v] h hf
    exact congrArg _ this
  | obround w v h =>
    refine ⟨.obround w v (holeOf (w :: v :: holeMods h) 2), rfl, fun hf => ?_⟩
    have := holeOf_mods [w, v] h hf
    exact congrArg _ this
  | polygon n r rot h =>
    refine ⟨.polygon (truncate n) (r * 2 / 2) rot (polyHole (r * 2 :: n :: rot :: holeMods h)), rfl, fun hf => ?_⟩
    rw [polyHole_mods _ _ _ h hf, truncate_intCast]
    simp [RShape.toShape]
  | group g => exact absurd rfl (hg g)

/-- What reading the header gives. -/
def HInv (env : EvalEnv G) (u : String) (s : RState G) : Prop :=
  ∃ e, Runs env initState s.header e ∧ Covers e.apertures u s ∧ e.settings.units = u ∧
    e.levelPolarity = "dark" ∧ e.regionMode = "off" ∧ e.currentRegion = none ∧ e.primitives = [] ∧
    (∀ k d, s.shapes k = some d → d < s.next) ∧ ∀ h, ∀ m ∈ s.macros h, m.1 < s.next

theorem HInv.start (env : EvalEnv G) (st : FileSettings) : HInv env st.units (start st : RState G) := by
  refine ⟨_, .cons (s' := .fs st.zeroSuppression st.notation_ st.format) rfl
    (.one (s' := .mo st.units) rfl), ⟨?_, ?_⟩, rfl, rfl, rfl, rfl, rfl, ?_, ?_⟩
  · intro k d h; cases h
  · intro h m hm; cases hm
  · intro k d h; cases h
  · intro h m hm; cases hm

theorem hinv_closed {env : EvalEnv G} {menv : MacroEnv G} {u : String} (hM : MacrosOK env menv u) :
    Closed menv (fun _ => True) (HInv env u) := by
  refine ⟨?_, ?_, ?_, ?_⟩
  · rintro s s' ⟨hd, -⟩ ⟨e, h1, h2, h3⟩
    refine ⟨e, by rw [hd.header]; exact h1, ?_, ?_⟩
    · unfold Covers; rw [hd.shapes, hd.macros]; exact h2
    · rw [hd.shapes, hd.macros, hd.next]; exact h3
  · rintro s d - ⟨e, h1, h2, h3⟩
    have hd : SameDefs s (select s d) := by
      unfold select
      split
      · exact ⟨rfl, rfl, rfl, rfl⟩
      · exact .refl s
    refine ⟨e, by rw [hd.header]; exact h1, ?_, ?_⟩
    · unfold Covers; rw [hd.shapes, hd.macros]; exact h2
    · rw [hd.shapes, hd.macros, hd.next]; exact h3
  · rintro s k - hg ⟨e, h1, ⟨c1, c2⟩, h3, h4, h5, h6, h7, h8, h9⟩
    unfold getShape
    cases hk : s.shapes k with
    | some d => exact ⟨e, h1, ⟨c1, c2⟩, h3, h4, h5, h6, h7, h8, h9⟩
    | none =>
      obtain ⟨sh, hev, hsh⟩ := evaluate_adOf env e s.next k hg
      refine ⟨_, h1.append (.one hev), ⟨?_, ?_⟩, h3, h4, h5, h6, h7, ?_, ?_⟩
      · intro k' d hk' hf
        simp only at hk' ⊢
        split at hk'
        · rename_i hkk
          subst hkk
          obtain rfl := Option.some.inj hk'
          rw [if_pos rfl, hsh hf, h3]
        · rw [if_neg (h8 k' d hk').ne]
          exact c1 k' d hk' hf
      · intro h m hm
        simp only at hm ⊢
        rw [if_neg (h9 h m hm).ne]
        exact c2 h m hm
      · intro k' d hk'
        simp only at hk' ⊢
        split at hk'
        · obtain rfl := Option.some.inj hk'
          omega
        · have := h8 k' d hk'
          omega
      · intro h m hm
        have := h9 h m hm
        simp only
        omega
  · rintro s g s' d h ⟨e, h1, ⟨c1, c2⟩, h3, h4, h5, h6, h7, h8, h9⟩
    unfold getMacro at h
    simp only at h
    split at h
    · obtain ⟨rfl, rfl⟩ := Prod.mk.inj (Except.ok.inj h)
      exact ⟨e, h1, ⟨c1, c2⟩, h3, h4, h5, h6, h7, h8, h9⟩
    · obtain ⟨⟨text, built⟩, hmac, h⟩ := evBind h
      simp only at h
      obtain ⟨rfl, rfl⟩ := Prod.mk.inj (Except.ok.inj h)
      have hb := hM.build g text built hmac
      have hn := hM.name g _ hmac
      simp only [List.mem_cons, List.not_mem_nil, or_false, not_or] at hn
      obtain ⟨n1, n2, n3, n4⟩ := hn
      have hev1 : evaluate env e (.am (menv.hash g) text built) = .ok ({ e with
          macros := fun k => if k = menv.hash g then some (text, e.settings.units) else e.macros k },
          .am (menv.hash g) text built) := rfl
      have hev2 : evaluate env { e with
          macros := fun k => if k = menv.hash g then some (text, e.settings.units) else e.macros k }
          (.ad s.next (menv.hash g) [[]]) = .ok ({ e with
          macros := fun k => if k = menv.hash g then some (text, e.settings.units) else e.macros k
          apertures := fun k => if k = s.next then some ⟨.group g, some e.settings.units⟩
            else e.apertures k }, .ad s.next (menv.hash g) [[]]) := by
        simp only [evaluate, shapeOf, n1, n2, n3, n4, if_false, if_true, firstMods, h3, hb, bind, Except.bind]
      refine ⟨_, h1.append (.cons hev1 (.one hev2)), ⟨?_, ?_⟩, h3, h4, h5, h6, h7, ?_, ?_⟩
      · intro k' d hk' hf
        simp only at hk' ⊢
        rw [if_neg (h8 k' d hk').ne]
        exact c1 k' d hk' hf
      · intro h m hm
        simp only at hm ⊢
        have old : m ∈ s.macros h → (if m.1 = s.next then some ⟨.group g, some e.settings.units⟩
            else e.apertures m.1) = some (⟨.group m.2, some u⟩ : Aperture G) := by
          intro hm
          rw [if_neg (h9 h m hm).ne]
          exact c2 h m hm
        split at hm
        · rename_i hh
          subst hh
          rcases List.mem_append.1 hm with hm | hm
          · exact old hm
          · simp only [List.mem_cons, List.not_mem_nil, or_false] at hm
            subst hm
            rw [if_pos rfl, h3]
        · exact old hm
      · intro k' d hk'
        have := h8 k' d hk'
        simp only
        omega
      · intro h m hm
        simp only at hm ⊢
        split at hm
        · rename_i hh
          subst hh
          rcases List.mem_append.1 hm with hm | hm
          · have := h9 _ m hm; omega
          · simp only [List.mem_cons, List.not_mem_nil, or_false] at hm
            subst hm
            simp
        · have := h9 _ m hm; omega

/-! ## C22 -/

/-- **C22, for primitives which the backend can represent**: interpreting the statements of a rendered
list of primitives gives the primitives again, in the same order and without lines of length zero. -/
theorem C22_roundtrip_partial (env : EvalEnv G) (menv : MacroEnv G) (o : Options) (st : FileSettings)
    (hM : MacrosOK env menv st.units) (ps : List (Option Str × RPrim G)) (hok : ∀ p ∈ ps, p.2.OK env o)
    (s : RState G) (h : renderAll menv o (start st) ps = .ok s) :
    ∃ e stmts, evalAll env initState s.statements = .ok (e, stmts) ∧
      List.Forall₂ (Shown st.units) (ps.filterMap fun p => p.2.visible) e.primitives := by
  obtain ⟨e, h1, h2, h3, h4, h5, h6, h7, -, -⟩ :=
    (hinv_closed hM).renderAll (fun _ _ _ _ => trivial) h (HInv.start env st)
  obtain ⟨-, l, hl, hst⟩ := renderAll_step env hM.equiv ps hok h
  have hs : Sim e.apertures st.units (start st : RState G) e :=
    ⟨rfl, h3, fun p h => (by cases h), h4, fun h => (by cases h), fun q h => (by cases h),
      fun d h => (by cases h)⟩
  obtain ⟨e', qs, r, -, hp, hf⟩ := hst e.apertures st.units e h2 hs h5 h6
  have hbody : s.body = l := by rw [hl]; rfl
  have hrun : Runs env initState s.statements e' := by
    unfold RState.statements
    rw [hbody]
    exact (h1.append r).append (.one (s' := .eof) rfl)
  obtain ⟨stmts, hrun⟩ := hrun
  refine ⟨e', stmts, hrun, ?_⟩
  rw [hp, h7]
  exact hf

end Verif.Rs274x
