import Verif.Props.Rs274xOnly
import Verif.Props.Equiv
import Mathlib.Tactic.DeriveEncodable
import Mathlib.Data.Rat.Encodable

/-! # C69: what becomes of macro groups when files are written -/

set_option linter.unusedSectionVars false

namespace Verif.Rs274x
open Verif.Py Verif.Cam Verif.Gerber

variable {G : Type} [DecidableEq G]

/-! ## Spec -/

/-- The shape `k'` stands for `k`: the same, or a group that the backend takes for the same. -/
def StandsFor (menv : MacroEnv G) (k k' : RShape G) : Prop :=
  k = k' ∨ ∃ g h, k = .group g ∧ k' = .group h ∧ menv.equiv g h = true ∧ menv.hash g = menv.hash h

def StandsForOpt (menv : MacroEnv G) (a a' : Option (RShape G)) : Prop := Option.Rel (StandsFor menv) a a'

/-- An edge with another aperture. -/
def REdge.withAperture (k : Option (RShape G)) : REdge G → REdge G
  | .line a b _ p => .line a b k p
  | .arc a b c d _ q p => .arc a b c d k q p

/-- The same edge, drawn with a shape that stands for its own. -/
def EdgeStands (menv : MacroEnv G) (r r' : REdge G) : Prop :=
  ∃ k, StandsForOpt menv r.aperture k ∧ r' = r.withAperture k

/-- The same primitive, with shapes that stand for its own. -/
def PrimStands (menv : MacroEnv G) : RPrim G → RPrim G → Prop
  | .edge r, p' => ∃ r', EdgeStands menv r r' ∧ p' = .edge r'
  | .flash k q pol, p' => ∃ k', StandsFor menv k k' ∧ p' = .flash k' q pol
  | .region rs pol, p' => ∃ rs', List.Forall₂ (EdgeStands menv) rs rs' ∧ p' = .region rs' pol

/-! ## The backend with exact comparison -/

/-- The same backend, taking only equal groups for the same. -/
def exactEnv (menv : MacroEnv G) : MacroEnv G := { menv with equiv := fun g h => decide (g = h) }

theorem getMacro_stands {menv : MacroEnv G} (hrefl : ∀ g, menv.equiv g g = true) {s s' : RState G} {g : G} {d : ℕ}
    (h : getMacro menv s g = .ok (s', d)) (hs : MInv menv s) :
    ∃ g', StandsFor menv (.group g) (.group g') ∧ getMacro (exactEnv menv) s g' = .ok (s', d) := by
  unfold getMacro at h
  simp only at h
  split at h
  · rename_i m hm
    obtain ⟨rfl, rfl⟩ := Prod.mk.inj (Except.ok.inj h)
    have hmem := List.mem_of_find?_eq_some hm
    have heq : menv.equiv g m.2 = true := by simpa using List.find?_some hm
    have hhash := (hs _).2 m hmem
    refine ⟨m.2, .inr ⟨g, m.2, rfl, rfl, heq, hhash.symm⟩, ?_⟩
    have hfind : ((s.macros (menv.hash g)).find? fun x => decide (m.2 = x.2)) = some m := by
      have key : ∀ l : List (ℕ × G), l.Pairwise (fun a b => menv.equiv b.2 a.2 = false) → m ∈ l →
          (l.find? fun x => decide (m.2 = x.2)) = some m := by
        intro l hl
        induction hl with
        | nil => intro h; cases h
        | @cons a l ha _ ih =>
          intro h
          rcases List.mem_cons.1 h with rfl | h
          · simp
          · have hne : m.2 ≠ a.2 := by
              intro he
              have := ha m h
              rw [he, hrefl] at this
              cases this
            rw [List.find?_cons_of_neg (by simpa using hne)]
            exact ih h
      exact key _ (hs _).1 hmem
    unfold getMacro
    simp only [exactEnv, hhash, hfind]
  · rename_i hnone
    refine ⟨g, .inl rfl, ?_⟩
    have hfind : ((s.macros (menv.hash g)).find? fun x => decide (g = x.2)) = none := by
      rw [List.find?_eq_none] at hnone ⊢
      intro x hx he
      have hgx : g = x.2 := by simpa using he
      have := hnone x hx
      rw [← hgx, hrefl] at this
      exact this rfl
    unfold getMacro
    simp only [exactEnv, hfind]
    exact h

theorem selectAperture_stands {menv : MacroEnv G} (hrefl : ∀ g, menv.equiv g g = true) {s s' : RState G}
    {ap : Option (RShape G)} (h : selectAperture menv s ap = .ok s') (hs : MInv menv s) :
    ∃ ap', StandsForOpt menv ap ap' ∧ selectAperture (exactEnv menv) s ap' = .ok s' := by
  have same : ∀ k : RShape G, StandsForOpt menv (some k) (some k) := fun k => .some (.inl rfl)
  match ap, h with
  | none, h => exact ⟨none, .none, h⟩
  | some (.circle d hole), h => exact ⟨_, same _, h⟩
  | some (.rect w v hole), h => exact ⟨_, same _, h⟩
  | some (.obround w v hole), h => exact ⟨_, same _, h⟩
  | some (.polygon _ _ _ _), h => cases h
  | some (.group g), h =>
    obtain ⟨⟨s1, c⟩, h1, h2⟩ := evBind h
    obtain ⟨g', hg, hm⟩ := getMacro_stands hrefl h1 hs
    refine ⟨some (.group g'), .some hg, ?_⟩
    simp only [selectAperture, hm, bind, Except.bind]
    exact h2

theorem MInv.congr {menv : MacroEnv G} {s s' : RState G} (h : MInv menv s) (hm : s'.macros = s.macros) : MInv menv s' := by
  unfold MInv
  rw [hm]
  exact h

theorem renderEdge_stands {menv : MacroEnv G} (hrefl : ∀ g, menv.equiv g g = true) {s s' : RState G}
    {dflt : Option String} {r : REdge G} (h : renderEdge menv s dflt r = .ok s') (hs : MInv menv s) :
    ∃ r', EdgeStands menv r r' ∧ renderEdge (exactEnv menv) s dflt r' = .ok s' := by
  cases r with
  | line a b ap pol =>
    have h' : renderLine menv s a b ap pol dflt = .ok s' := h
    rw [renderLine_eq] at h'
    obtain ⟨s1, h1, h2⟩ := evBind h'
    obtain ⟨ap', hap, hsel⟩ := selectAperture_stands hrefl h1 hs
    refine ⟨.line a b ap' pol, ⟨ap', hap, rfl⟩, ?_⟩
    show renderLine _ _ _ _ _ _ _ = _
    rw [renderLine_eq, hsel]
    exact h2
  | arc a b c dir ap quad pol =>
    have h' : renderArc menv s a b c dir ap quad pol dflt = .ok s' := h
    rw [renderArc_eq] at h'
    obtain ⟨s1, h1, h2⟩ := evBind h'
    obtain ⟨ap', hap, hsel⟩ := selectAperture_stands hrefl h1
      ((minv_closed menv).quiet _ _ (setQuad_quiet _ _) hs)
    refine ⟨.arc a b c dir ap' quad pol, ⟨ap', hap, rfl⟩, ?_⟩
    show renderArc _ _ _ _ _ _ _ _ _ _ = _
    rw [renderArc_eq, hsel]
    exact h2

theorem renderEdges_stands {menv : MacroEnv G} (hrefl : ∀ g, menv.equiv g g = true) {dflt : Option String} :
    ∀ {rs : List (REdge G)} {s s' : RState G}, renderEdges menv s dflt rs = .ok s' → MInv menv s →
    ∃ rs', List.Forall₂ (EdgeStands menv) rs rs' ∧ renderEdges (exactEnv menv) s dflt rs' = .ok s'
  | [], s, s', h, _ => ⟨[], .nil, h⟩
  | r :: rs, s, s', h, hs => by
    obtain ⟨s1, h1, h2⟩ := evBind h
    obtain ⟨r', hr, e1⟩ := renderEdge_stands hrefl h1 hs
    obtain ⟨rs', hrs, e2⟩ := renderEdges_stands hrefl h2 ((minv_closed menv).edge (fun _ _ => trivial) h1 hs)
    exact ⟨r' :: rs', .cons hr hrs, by simp only [renderEdges, e1, bind, Except.bind, e2]⟩

theorem render_stands {menv : MacroEnv G} (hrefl : ∀ g, menv.equiv g g = true) {o : Options} {s s' : RState G}
    {c : Option Str} {p : RPrim G} (h : render menv o s c p = .ok s') (hs : MInv menv s) :
    ∃ p', PrimStands menv p p' ∧ render (exactEnv menv) o s c p' = .ok s' := by
  have main : ∀ s0 : RState G, render menv o s0 none p = .ok s' → MInv menv s0 →
      ∃ p', PrimStands menv p p' ∧ render (exactEnv menv) o s0 none p' = .ok s' := by
    intro s0 h hs
    cases p with
    | edge r =>
      obtain ⟨r', hr, e⟩ := renderEdge_stands hrefl (show renderEdge menv s0 (some "dark") r = .ok s' from h) hs
      exact ⟨.edge r', ⟨r', hr, rfl⟩, e⟩
    | region rs pol =>
      have h' : renderRegion menv o s0 rs pol = .ok s' := h
      unfold renderRegion at h'
      obtain ⟨s2, h2, h3⟩ := evBind h'
      obtain ⟨rs', hrs, e⟩ := renderEdges_stands hrefl h2 ((minv_closed menv).quiet _ _
        ((renderLevel_quiet s0 pol (some "dark")).trans
          (.emit (.region "on") ⟨rfl, rfl⟩ ⟨rfl, rfl, rfl, rfl⟩ rfl)) hs)
      refine ⟨.region rs' pol, ⟨rs', hrs, rfl⟩, ?_⟩
      show renderRegion _ _ _ _ _ = _
      unfold renderRegion
      simp only [e, bind, Except.bind]
      exact h3
    | flash k q pol =>
      cases k with
      | group g =>
        obtain ⟨⟨s1, d⟩, h1, h2⟩ := evBind (show (getMacro menv s0 g >>= fun r =>
          .ok (renderFlash o r.1 q pol r.2)) = .ok s' from h)
        obtain ⟨g', hg, hm⟩ := getMacro_stands hrefl h1 hs
        refine ⟨.flash (.group g') q pol, ⟨_, hg, rfl⟩, ?_⟩
        simp only [render, hm, bind, Except.bind]
        exact h2
      | circle a b => exact ⟨_, ⟨_, .inl rfl, rfl⟩, h⟩
      | rect a b d => exact ⟨_, ⟨_, .inl rfl, rfl⟩, h⟩
      | obround a b d => exact ⟨_, ⟨_, .inl rfl, rfl⟩, h⟩
      | polygon a b d e => exact ⟨_, ⟨_, .inl rfl, rfl⟩, h⟩
  cases c with
  | none => exact main s h hs
  | some t => exact main (s.emit (.comment t)) h (hs.congr rfl)

/-- **C69**: what the backend writes for a list of primitives is what it writes, comparing exactly, for the list with
groups in place of others that it takes for the same. -/
theorem renderAll_stands {menv : MacroEnv G} (hrefl : ∀ g, menv.equiv g g = true) {o : Options} :
    ∀ {ps : List (Option Str × RPrim G)} {s s' : RState G}, renderAll menv o s ps = .ok s' → MInv menv s →
    ∃ ps', List.Forall₂ (fun p p' => p.1 = p'.1 ∧ PrimStands menv p.2 p'.2) ps ps' ∧
      renderAll (exactEnv menv) o s ps' = .ok s'
  | [], s, s', h, _ => ⟨[], .nil, h⟩
  | (c, p) :: ps, s, s', h, hs => by
    obtain ⟨s1, h1, h2⟩ := evBind h
    obtain ⟨p', hp, e1⟩ := render_stands hrefl h1 hs
    obtain ⟨ps', hps, e2⟩ := renderAll_stands hrefl h2 ((minv_closed menv).render (fun _ _ => trivial) h1 hs)
    exact ⟨(c, p') :: ps', .cons ⟨rfl, hp⟩ hps, by simp only [renderAll, e1, bind, Except.bind, e2]⟩

theorem StandsFor.drawable {menv : MacroEnv G} {k k' : RShape G} (h : StandsFor menv k k') (hk : k.Drawable) :
    k'.Drawable := by
  rcases h with rfl | ⟨g, g', rfl, rfl, -⟩
  · exact hk
  · trivial

theorem StandsFor.flashable {menv : MacroEnv G} {k k' : RShape G} (h : StandsFor menv k k') (hk : k.Flashable) :
    k'.Flashable := by
  rcases h with rfl | ⟨g, g', rfl, rfl, -⟩
  · exact hk
  · trivial

theorem EdgeStands.keeps {menv : MacroEnv G} {r r' : REdge G} (h : EdgeStands menv r r') :
    r'.start = r.start ∧ r'.end_ = r.end_ ∧ r'.polarity = r.polarity ∧ r'.visible = r.visible ∧
      StandsForOpt menv r.aperture r'.aperture := by
  obtain ⟨k, hk, rfl⟩ := h
  cases r <;> exact ⟨rfl, rfl, rfl, rfl, hk⟩

theorem EdgeStands.ok {menv : MacroEnv G} {env : EvalEnv G} {r r' : REdge G} (h : EdgeStands menv r r')
    (hr : r.OK env) : r'.OK env := by
  obtain ⟨k, hk, rfl⟩ := h
  obtain ⟨h1, h2⟩ := hr
  have hd : ∀ x, k = some x → x.Drawable := by
    rintro x rfl
    generalize ha : r.aperture = a at hk
    cases hk with
    | some hk => exact hk.drawable (h1 _ ha)
  cases r <;> exact ⟨hd, h2⟩

theorem PrimStands.ok {menv : MacroEnv G} {env : EvalEnv G} {o : Options} {p p' : RPrim G} (h : PrimStands menv p p')
    (hp : p.OK env o) : p'.OK env o := by
  cases p with
  | edge r =>
    obtain ⟨r', hr, rfl⟩ := h
    refine ⟨hr.ok hp.1, fun hn => hp.2 ?_⟩
    have := hr.keeps.2.2.2.2
    rw [hn] at this
    generalize r.aperture = a at this
    cases this
    rfl
  | flash k q pol =>
    obtain ⟨k', hk, rfl⟩ := h
    exact hk.flashable hp
  | region rs pol =>
    obtain ⟨rs', hrs, rfl⟩ := h
    obtain ⟨h1, h2, h3, h4⟩ := hp
    have hmem : ∀ r' ∈ rs', ∃ r ∈ rs, EdgeStands menv r r' := by
      intro r' hr'
      clear h1 h2 h3 h4
      induction hrs with
      | nil => cases hr'
      | cons hab _ ih =>
        rcases List.mem_cons.1 hr' with rfl | hr'
        · exact ⟨_, by simp, hab⟩
        · obtain ⟨r, hr, hh⟩ := ih hr'
          exact ⟨r, by simp [hr], hh⟩
    refine ⟨fun r' hr' => ?_, ?_, fun r' hr' => ?_, fun ho => ?_⟩
    · obtain ⟨r, hr, hh⟩ := hmem r' hr'
      exact hh.ok (h1 r hr)
    · clear h1 h3 h4 hmem
      unfold Contiguous at *
      induction hrs with
      | nil => exact .nil
      | cons hab hrest ih =>
        cases hrest with
        | nil => exact .singleton _
        | cons hcd hr2 =>
          rw [List.isChain_cons_cons] at h2 ⊢
          exact ⟨by rw [hab.keeps.2.1, hcd.keeps.1]; exact h2.1, ih h2.2⟩
    · obtain ⟨r, hr, hh⟩ := hmem r' hr'
      rw [hh.keeps.2.2.1]
      exact h3 r hr
    · have : (rs'.filter REdge.visible).length = (rs.filter REdge.visible).length := by
        clear h1 h2 h3 h4 hmem
        induction hrs with
        | nil => rfl
        | cons hab _ ih =>
          simp only [List.filter_cons, hab.keeps.2.2.2.1]
          split <;> simp [ih]
      rw [this]
      exact h4 ho

/-- **C69, without assuming that the backend compares groups exactly**: what is read back from a written list of
primitives are these primitives, with groups in place of others that the backend takes for the same.  `P` are the
groups whose macros can be written and read. -/
theorem C69_written (env : EvalEnv G) (menv : MacroEnv G) (o : Options) (st : FileSettings)
    (hrefl : ∀ g, menv.equiv g g = true) (P : G → Prop)
    (hbuild : ∀ g, P g → ∃ t, menv.macroOf g = .ok t ∧ env.build t.1 st.units [] = .ok g)
    (hname : ∀ g, P g → menv.hash g ∉ [['C'], ['R'], ['O'], ['P']])
    (ps : List (Option Str × RPrim G)) (hok : ∀ p ∈ ps, p.2.OK env o) (hps : ∀ p ∈ ps, ∀ g ∈ p.2.groups, P g) :
    ∃ ps' : List (Option Str × RPrim G), List.Forall₂ (fun p p' => p.1 = p'.1 ∧ PrimStands menv p.2 p'.2) ps ps' ∧
      ∃ qs, readBack env menv o st ps = .ok qs ∧
        List.Forall₂ (Shown st.units) (ps'.filterMap fun p => p.2.visible) qs := by
  obtain ⟨s, hs0⟩ := C22_total_used env menv o P (fun g hg => (hbuild g hg).imp fun _ h => h.1) ps (start st) hok hps
  have hs : renderAll (onlyEnv P menv) o (start st) ps = .ok s := by
    rw [← renderAll_agree (onlyEnv_agree P menv) o ps (start st) hps]; exact hs0
  obtain ⟨ps', hps', hr⟩ := renderAll_stands (menv := onlyEnv P menv) hrefl hs (fun h => ⟨.nil, by intro m hm; cases hm⟩)
  have hps : List.Forall₂ (fun p p' => p.1 = p'.1 ∧ PrimStands menv p.2 p'.2) ps ps' := hps'
  have hM : MacrosOK env (exactEnv (onlyEnv P menv)) st.units := by
    refine ⟨fun g text built h => ?_, fun g g' h => by simpa [exactEnv] using h,
      fun g t h => hname g (onlyEnv_ok h).1⟩
    obtain ⟨hg, h⟩ := onlyEnv_ok h
    obtain ⟨t, ht, hb⟩ := hbuild g hg
    obtain rfl : t = (text, built) := Except.ok.inj (ht.symm.trans h)
    exact hb
  have hok' : ∀ p ∈ ps', p.2.OK env o := by
    clear hr hs hs0 hps'
    rename_i hgr
    clear hgr
    induction hps with
    | nil => intro p hp; cases hp
    | cons hab _ ih =>
      intro p hp
      rcases List.mem_cons.1 hp with rfl | hp
      · exact hab.2.ok (hok _ (by simp))
      · exact ih (fun p hp => hok p (by simp [hp])) p hp
  obtain ⟨e, stmts, he, hf⟩ := C22_roundtrip_partial env (exactEnv (onlyEnv P menv)) o st hM ps' hok' s hr
  exact ⟨ps', hps, e.primitives, by simp only [readBack, hs0, he, bind, Except.bind], hf⟩

/-- Flashes of two groups. -/
def twoFlashes (h g : G) (p q : Pt) : List (Option Str × RPrim G) :=
  [(none, .flash (.group h) p none), (none, .flash (.group g) q none)]

theorem renderAll_two {menv : MacroEnv G} {o : Options} {st : FileSettings} {h g : G} {p q : Pt}
    (hgh : menv.equiv g h = true) (hhash : menv.hash g = menv.hash h) {t : Str × List Str} (ht : menv.macroOf h = .ok t) :
    renderAll menv o (start st) (twoFlashes h g p q) =
      renderAll (exactEnv menv) o (start st) (twoFlashes h h p q) := by
  have hm : ∀ (o : Options) (s : RState G) (d : ℕ), (renderFlash o s p none d).macros = s.macros := by
    intro o s d
    unfold renderFlash
    have h1 := (renderLevel_quiet s none (some "dark")).1.macros
    have h2 : (select (renderLevel s none (some "dark")) d).macros = s.macros := by
      unfold select
      split <;> exact h1
    cases o.condensedFlash <;> exact h2
  simp only [twoFlashes, renderAll, render, getMacro, exactEnv, start, List.find?_nil, ht, bind, Except.bind, hm,
    hhash, if_true, List.nil_append, List.find?_cons, hgh, decide_true]

/-- **C69 violated**: of two different groups that are taken for the same, the second one is written, and read back,
as the first. -/
theorem C69_merged_violated (env : EvalEnv G) (menv : MacroEnv G) (o : Options) (st : FileSettings)
    {g h : G} (hbuild : ∃ t, menv.macroOf h = .ok t ∧ env.build t.1 st.units [] = .ok h)
    (hname : menv.hash h ∉ [['C'], ['R'], ['O'], ['P']]) (hgh : menv.equiv g h = true)
    (hhash : menv.hash g = menv.hash h) (p q : Pt) :
    (∃ a, readBack env menv o st (twoFlashes h g p q) =
      .ok [a, .flash ((.group h : RShape G).toShape) q "dark" st.units]) ∧
    (g ≠ h → ¬ Reproduced env menv o st (twoFlashes h g p q)) := by
  obtain ⟨t, ht, hb⟩ := hbuild
  obtain ⟨P, hP⟩ : ∃ P : G → Prop, ∀ x, P x ↔ x = h := ⟨(· = h), fun _ => Iff.rfl⟩
  have hM : MacrosOK env (exactEnv (onlyEnv P menv)) st.units := by
    refine ⟨fun g' text built h' => ?_, fun g g' h => by simpa [exactEnv] using h, fun g t h => ?_⟩
    · obtain ⟨hg, h'⟩ := onlyEnv_ok h'
      obtain rfl := (hP _).1 hg
      obtain rfl : t = (text, built) := Except.ok.inj (ht.symm.trans h')
      exact hb
    · obtain rfl := (hP _).1 (onlyEnv_ok h).1
      exact hname
  have hgr : ∀ x ∈ twoFlashes h h p q, ∀ g ∈ x.2.groups, P g := by
    intro x hx
    simp only [twoFlashes, List.mem_cons, List.not_mem_nil, or_false] at hx
    rcases hx with rfl | rfl <;> simp [RPrim.groups, RShape.groups, hP]
  have hag : AgreeOn P (exactEnv menv) (exactEnv (onlyEnv P menv)) :=
    ⟨rfl, rfl, (onlyEnv_agree P menv).macroOf⟩
  have hok : ∀ x ∈ twoFlashes h h p q, x.2.OK env o := by
    intro x hx
    simp only [twoFlashes, List.mem_cons, List.not_mem_nil, or_false] at hx
    rcases hx with rfl | rfl <;> trivial
  obtain ⟨s, hs⟩ := C22_total_used env (exactEnv menv) o P (fun x hx => by
    rw [(hP x).1 hx]; exact ⟨t, ht⟩) (twoFlashes h h p q)
    (start st) hok hgr
  obtain ⟨e, stmts, he, h2⟩ := C22_roundtrip_partial env (exactEnv (onlyEnv P menv)) o st hM (twoFlashes h h p q) hok s
    (by rw [← renderAll_agree hag o _ _ hgr]; exact hs)
  obtain ⟨qs, hqs⟩ : ∃ qs, qs = e.primitives := ⟨_, rfl⟩
  rw [← hqs] at h2
  have hb : readBack env menv o st (twoFlashes h g p q) = .ok qs := by
    unfold readBack
    rw [renderAll_two hgh hhash ht, hs]
    simp only [he, hqs, bind, Except.bind]
  simp only [twoFlashes, RPrim.visible, List.filterMap_cons, List.filterMap_nil] at h2
  obtain ⟨a, qs', ha, h3, rfl⟩ := List.forall₂_cons_left_iff.1 h2
  obtain ⟨b, qs'', hb', h4, rfl⟩ := List.forall₂_cons_left_iff.1 h3
  obtain rfl := List.forall₂_nil_left_iff.1 h4
  obtain rfl : b = .flash (.group h : RShape G).toShape q "dark" st.units := hb'
  refine ⟨⟨a, hb⟩, fun hne => ?_⟩
  rintro ⟨rs, hr, hf⟩
  obtain rfl := Except.ok.inj (hb.symm.trans hr)
  simp only [twoFlashes, RPrim.visible, List.filterMap_cons, List.filterMap_nil] at hf
  obtain ⟨_, _, -, h3, he⟩ := List.forall₂_cons_left_iff.1 hf
  obtain ⟨_, _, hb', -, he2⟩ := List.forall₂_cons_left_iff.1 h3
  simp only [List.cons.injEq] at he
  rw [← he.2] at he2
  simp only [List.cons.injEq] at he2
  rw [← he2.1] at hb'
  have : (Prim.flash (RShape.group h : RShape G).toShape q "dark" st.units) =
      .flash (RShape.group g : RShape G).toShape q "dark" st.units := hb'
  simp only [RShape.toShape, Prim.flash.injEq, Shape.group.injEq] at this
  exact hne this.1.symm

/-! ## The comparison of the library -/

open Verif.Am (AmPrim) in
/-- The parts of the group made of a macro; nothing if making them raises. -/
noncomputable def partsOf (g : List AmPrim) : List Verif.Equiv.Drawn :=
  match Verif.Am.groupShapes g with
  | .ok ds => ds.map Verif.Equiv.ofAm
  | .error _ => []

open Verif.Am (AmPrim) in
/-- The backend with the hash and the comparison of the library, for groups made of macros; `two x` is `str(x)[0:2]`.
How macros are written is left open. -/
noncomputable def amEnv (two : ℝ → Str) (macroOf : List AmPrim → PyR (Str × List Str)) : MacroEnv (List AmPrim) where
  hash g := match Verif.Equiv.hashOf two (partsOf g) with
    | .ok r => r
    | .error _ => ['X']
  equiv g h := open Classical in decide (Verif.Equiv.equivalent (partsOf g) (partsOf h) (0, 0) = .ok true)
  macroOf := macroOf

theorem amEnv_refl (two : ℝ → Str) (macroOf : List Verif.Am.AmPrim → PyR (Str × List Str)) (g : List Verif.Am.AmPrim) :
    (amEnv two macroOf).equiv g g = true := by
  have h := Verif.Equiv.C69_again (partsOf g) (by
    intro a ha
    unfold partsOf at ha
    split at ha
    · obtain ⟨b, -, rfl⟩ := List.mem_map.1 ha
      exact Verif.Equiv.ofAm_comparable b
    · cases ha) (0, 0) (0, 0)
  rw [Verif.Equiv.C69_place] at h
  simpa [amEnv] using h

theorem amEnv_name (two : ℝ → Str) (macroOf : List Verif.Am.AmPrim → PyR (Str × List Str)) (g : List Verif.Am.AmPrim) :
    (amEnv two macroOf).hash g ∉ [['C'], ['R'], ['O'], ['P']] := by
  have : ((amEnv two macroOf).hash g).head? = some 'X' := by
    simp only [amEnv]
    cases h : Verif.Equiv.hashOf two (partsOf g) with
    | error e => rfl
    | ok r => exact Verif.Equiv.C69_name two _ r h
  intro hm
  simp only [List.mem_cons, List.not_mem_nil, or_false] at hm
  rcases hm with hm | hm | hm | hm <;> rw [hm] at this <;> revert this <;> decide

/-- **C69 for files**: if macros are written so that they can be read, what is read back from a written list of
primitives are these primitives, with groups in place of others that look the same - as far as parts agree in what is
not compared (polarity, rotation of polygons). -/
theorem C69_file_partial (two : ℝ → Str) (macroOf : List Verif.Am.AmPrim → PyR (Str × List Str))
    (env : EvalEnv (List Verif.Am.AmPrim)) (o : Options) (st : FileSettings)
    (P : List Verif.Am.AmPrim → Prop)
    (hbuild : ∀ g, P g → ∃ t, macroOf g = .ok t ∧ env.build t.1 st.units [] = .ok g)
    (ps : List (Option Str × RPrim (List Verif.Am.AmPrim))) (hok : ∀ p ∈ ps, p.2.OK env o)
    (hps : ∀ p ∈ ps, ∀ g ∈ p.2.groups, P g) :
    (∃ ps' : List (Option Str × RPrim (List Verif.Am.AmPrim)),
      List.Forall₂ (fun p p' => p.1 = p'.1 ∧ PrimStands (amEnv two macroOf) p.2 p'.2) ps ps' ∧
      ∃ qs, readBack env (amEnv two macroOf) o st ps = .ok qs ∧
        List.Forall₂ (Shown st.units) (ps'.filterMap fun p => p.2.visible) qs) ∧
    ∀ g h, StandsFor (amEnv two macroOf) (.group g) (.group h) →
      (∀ x ∈ (partsOf g).zip (partsOf h), Verif.Equiv.Agree x.1 x.2) → Verif.Equiv.Alike (0, 0) (partsOf g) (partsOf h) := by
  refine ⟨C69_written env _ o st (amEnv_refl two macroOf) P hbuild
    (fun g _ => amEnv_name two macroOf g) ps hok hps, fun g h hs hag => ?_⟩
  refine Verif.Equiv.C69_alike_partial ?_ hag
  rcases hs with he | ⟨g', h', hg, hh, he, -⟩
  · obtain rfl := RShape.group.inj he
    simpa [amEnv] using amEnv_refl two macroOf g
  · obtain rfl := RShape.group.inj hg
    obtain rfl := RShape.group.inj hh
    simpa [amEnv] using he

/-- **C69 violated**: of two macros with a square each, turned by different angles, the second is written, and read back,
as the first. -/
theorem C69_turned_violated (two : ℝ → Str) (macroOf : List Verif.Am.AmPrim → PyR (Str × List Str))
    (env : EvalEnv (List Verif.Am.AmPrim)) (o : Options) (st : FileSettings)
    (hbuild : ∃ t, macroOf [.polygon true 4 (0, 0) 2 0] = .ok t ∧
      env.build t.1 st.units [] = .ok [.polygon true 4 (0, 0) 2 0]) (p q : Pt) :
    ¬ Reproduced env (amEnv two macroOf) o st
      (twoFlashes [.polygon true 4 (0, 0) 2 0] [.polygon true 4 (0, 0) 2 45] p q) := by
  have hp : ∀ rot : ℚ, partsOf [.polygon true 4 (0, 0) 2 rot] =
      [⟨true, .polygon (Verif.Geom.toR (0, 0)) 4 (((2 : ℚ) : ℝ) / 2) rot {}⟩] := fun rot => rfl
  have hm := Verif.Equiv.C69_rotation_violated two true (Verif.Geom.toR (0, 0)) 4 (((2 : ℚ) : ℝ) / 2)
    ((45 : ℚ) : ℝ) ((0 : ℚ) : ℝ) {}
  refine (C69_merged_violated env (amEnv two macroOf) o st (g := [.polygon true 4 (0, 0) 2 45])
    (h := [.polygon true 4 (0, 0) 2 0]) hbuild (amEnv_name two macroOf _) ?_ ?_ p q).2 (by decide)
  · simp only [amEnv, hp, hm.2, decide_true]
  · simp only [amEnv, hp, hm.1]

/-- **C69 violated**: the same for a part that is drawn and one that is cleared. -/
theorem C69_cleared_violated (two : ℝ → Str) (macroOf : List Verif.Am.AmPrim → PyR (Str × List Str))
    (env : EvalEnv (List Verif.Am.AmPrim)) (o : Options) (st : FileSettings)
    (d : ℚ) (hbuild : ∃ t, macroOf [.circle false d (0, 0)] = .ok t ∧
      env.build t.1 st.units [] = .ok [.circle false d (0, 0)]) (p q : Pt) :
    ¬ Reproduced env (amEnv two macroOf) o st
      (twoFlashes [.circle false d (0, 0)] [.circle true d (0, 0)] p q) := by
  have hp : ∀ on : Bool, partsOf [.circle on d (0, 0)] = [⟨on, .circle (Verif.Geom.toR (0, 0)) d {}⟩] := fun on => rfl
  have hm := (Verif.Equiv.C69_polarity_violated two (.circle (Verif.Geom.toR (0, 0)) d {}) trivial).1
  refine (C69_merged_violated env (amEnv two macroOf) o st (g := [.circle true d (0, 0)])
    (h := [.circle false d (0, 0)]) hbuild (amEnv_name two macroOf _) ?_ ?_ p q).2 (by simp)
  · simp only [amEnv, hp, hm.2, decide_true]
  · simp only [amEnv, hp, hm.1]

/-! ## Examples: the hypotheses can be met -/

instance : Encodable Char := Encodable.ofLeftInverse Char.toNat Char.ofNat fun c => by simp

instance : Encodable Str := inferInstanceAs (Encodable (List Char))

deriving instance Encodable for Verif.Am.AmPrim

/-- Some way of writing macros, and the interpreter that reads it. -/
def unaryOf (g : List Verif.Am.AmPrim) : PyR (Str × List Str) := .ok (List.replicate (Encodable.encode g) 'x', [])

def unaryEnv : EvalEnv (List Verif.Am.AmPrim) where
  build t _ _ := match (Encodable.decode t.length : Option (List Verif.Am.AmPrim)) with
    | some g => .ok g
    | none => .error .valueError
  center _ _ _ _ := none

theorem unary_build (u : String) (g : List Verif.Am.AmPrim) :
    ∃ t, unaryOf g = .ok t ∧ unaryEnv.build t.1 u [] = .ok g := ⟨_, rfl, by simp [unaryEnv]⟩

example (two : ℝ → Str) (p q : Pt) : ¬ Reproduced unaryEnv (amEnv two unaryOf) {} trySettings
    (twoFlashes [.polygon true 4 (0, 0) 2 0] [.polygon true 4 (0, 0) 2 45] p q) :=
  C69_turned_violated two unaryOf unaryEnv {} trySettings (unary_build _ _) p q

example : ∀ x ∈ twoFlashes (G := List Verif.Am.AmPrim) [.circle true 1 (0, 0), .polygon false 6 (0, 0) (1/2) 30]
    [.thermal (0, 0) 2 1 (1/2) 0] (0, 0) (1, 1), x.2.OK unaryEnv {} := by
  intro x hx
  simp only [twoFlashes, List.mem_cons, List.not_mem_nil, or_false] at hx
  rcases hx with rfl | rfl <;> trivial

/-- Numbers as groups, where each even one is taken for the next odd one. -/
def pairMacros : MacroEnv ℕ := { tryMacros with equiv := fun g h => g / 2 = h / 2 }

example : ¬ Reproduced tryEnv pairMacros {} trySettings (twoFlashes 2 3 (0, 0) (1, 0)) :=
  (C69_merged_violated tryEnv pairMacros {} trySettings ⟨_, rfl, by simp [tryEnv]⟩
    (by decide) (by decide) (by decide) _ _).2 (by decide)

end Verif.Rs274x
