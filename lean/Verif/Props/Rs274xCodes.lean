import Verif.Props.Rs274x

/-! # C22: what can and cannot be rendered faithfully; C23: aperture codes -/

set_option linter.unusedSectionVars false

namespace Verif.Rs274x
open Verif.Py Verif.Cam Verif.Gerber

variable {G : Type} [DecidableEq G]

/-! ## C22 -/

/-- Rendering with a fresh backend and interpreting the statements. -/
def readBack (env : EvalEnv G) (menv : MacroEnv G) (o : Options) (st : FileSettings)
    (ps : List (Option Str × RPrim G)) : PyR (List (Prim G)) := do
  let s ← renderAll menv o (start st) ps
  let (e, _) ← evalAll env initState s.statements
  .ok e.primitives

/-- The full claim for one list of primitives. -/
def Reproduced (env : EvalEnv G) (menv : MacroEnv G) (o : Options) (st : FileSettings)
    (ps : List (Option Str × RPrim G)) : Prop :=
  ∃ qs, readBack env menv o st ps = .ok qs ∧
    List.Forall₂ (Shown st.units) (ps.filterMap fun p => p.2.visible) qs

theorem selectAperture_total {menv : MacroEnv G} (hmac : ∀ g, ∃ t, menv.macroOf g = .ok t) (s : RState G)
    {ap : Option (RShape G)} (h : ∀ k, ap = some k → k.Drawable) : ∃ s', selectAperture menv s ap = .ok s' := by
  match ap, h with
  | none, _ => exact ⟨_, rfl⟩
  | some (.circle d hole), _ => exact ⟨_, rfl⟩
  | some (.rect w v hole), _ => exact ⟨_, rfl⟩
  | some (.obround w v hole), _ => exact ⟨_, rfl⟩
  | some (.group g), _ =>
    simp only [selectAperture, getMacro]
    cases (s.macros (menv.hash g)).find? fun m => menv.equiv g m.2 with
    | some m => exact ⟨_, rfl⟩
    | none =>
      obtain ⟨t, ht⟩ := hmac g
      simp only [ht, bind, Except.bind]
      exact ⟨_, rfl⟩
  | some (.polygon _ _ _ _), h => exact (h _ rfl).elim

theorem getMacro_total {menv : MacroEnv G} (hmac : ∀ g, ∃ t, menv.macroOf g = .ok t) (s : RState G) (g : G) :
    ∃ r, getMacro menv s g = .ok r := by
  simp only [getMacro]
  cases (s.macros (menv.hash g)).find? fun m => menv.equiv g m.2 with
  | some m => exact ⟨_, rfl⟩
  | none =>
    obtain ⟨t, ht⟩ := hmac g
    simp only [ht, bind, Except.bind]
    exact ⟨_, rfl⟩

theorem renderEdge_total {env : EvalEnv G} {menv : MacroEnv G} (hmac : ∀ g, ∃ t, menv.macroOf g = .ok t)
    (s : RState G) (dflt : Option String) {r : REdge G} (h : r.OK env) :
    ∃ s', renderEdge menv s dflt r = .ok s' := by
  cases r with
  | line a b ap pol =>
    show ∃ s', renderLine menv s a b ap pol dflt = .ok s'
    rw [renderLine_eq]
    obtain ⟨s1, h1⟩ := selectAperture_total hmac s h.1
    have h1' : selectAperture menv s ap = .ok s1 := h1
    rw [h1']
    exact ⟨_, rfl⟩
  | arc a b c dir ap quad pol =>
    show ∃ s', renderArc menv s a b c dir ap quad pol dflt = .ok s'
    rw [renderArc_eq]
    obtain ⟨s1, h1⟩ := selectAperture_total hmac (setQuad s quad) h.1
    have h1' : selectAperture menv (setQuad s quad) ap = .ok s1 := h1
    rw [h1']
    rcases h.2.1 with hd | hd <;> rw [hd] <;> exact ⟨_, rfl⟩

theorem renderEdges_total {env : EvalEnv G} {menv : MacroEnv G} (hmac : ∀ g, ∃ t, menv.macroOf g = .ok t)
    (dflt : Option String) : ∀ (rs : List (REdge G)) (s : RState G), (∀ r ∈ rs, r.OK env) →
    ∃ s', renderEdges menv s dflt rs = .ok s'
  | [], s, _ => ⟨s, rfl⟩
  | r :: rs, s, h => by
    obtain ⟨s1, h1⟩ := renderEdge_total hmac s dflt (h r (by simp))
    obtain ⟨s2, h2⟩ := renderEdges_total hmac dflt rs s1 (fun r hr => h r (by simp [hr]))
    exact ⟨s2, by simp only [renderEdges, h1, bind, Except.bind, h2]⟩

theorem render_total {env : EvalEnv G} {menv : MacroEnv G} (hmac : ∀ g, ∃ t, menv.macroOf g = .ok t)
    (o : Options) (s : RState G) (c : Option Str) {p : RPrim G} (h : p.OK env o) :
    ∃ s', render menv o s c p = .ok s' := by
  have main : ∀ s0 : RState G, ∃ s', render menv o s0 none p = .ok s' := by
    intro s0
    cases p with
    | edge r => exact renderEdge_total hmac s0 _ h.1
    | region rs pol =>
      simp only [render, renderRegion]
      obtain ⟨s1, h1⟩ := renderEdges_total hmac pol rs
        ((renderLevel s0 pol (some "dark")).emit (.region "on")) h.1
      rw [h1]
      exact ⟨_, rfl⟩
    | flash k q pol =>
      cases k with
      | group g =>
        obtain ⟨r, hr⟩ := getMacro_total hmac s0 g
        simp only [render, hr, bind, Except.bind]
        exact ⟨_, rfl⟩
      | circle a b => exact ⟨_, rfl⟩
      | rect a b d => exact ⟨_, rfl⟩
      | obround a b d => exact ⟨_, rfl⟩
      | polygon a b d e => exact ⟨_, rfl⟩
  cases c with
  | none => exact main s
  | some t => exact main (s.emit (.comment t))

/-- **C22**: such primitives are never refused. -/
theorem C22_total (env : EvalEnv G) (menv : MacroEnv G) (o : Options)
    (hmac : ∀ g, ∃ t, menv.macroOf g = .ok t) : ∀ (ps : List (Option Str × RPrim G)) (s : RState G),
    (∀ p ∈ ps, p.2.OK env o) → ∃ s', renderAll menv o s ps = .ok s'
  | [], s, _ => ⟨s, rfl⟩
  | (c, p) :: ps, s, h => by
    obtain ⟨s1, h1⟩ := render_total hmac o s c (h (c, p) (by simp))
    obtain ⟨s2, h2⟩ := C22_total env menv o hmac ps s1 (fun p hp => h p (by simp [hp]))
    exact ⟨s2, by simp only [renderAll, h1, bind, Except.bind, h2]⟩

/-- **C22 for primitives that can be represented**, in one statement. -/
theorem C22_reproduced_partial (env : EvalEnv G) (menv : MacroEnv G) (o : Options) (st : FileSettings)
    (hM : MacrosOK env menv st.units) (hmac : ∀ g, ∃ t, menv.macroOf g = .ok t)
    (ps : List (Option Str × RPrim G)) (hok : ∀ p ∈ ps, p.2.OK env o) :
    Reproduced env menv o st ps := by
  obtain ⟨s, hs⟩ := C22_total env menv o hmac ps (start st) hok
  obtain ⟨e, stmts, he, hf⟩ := C22_roundtrip_partial env menv o st hM ps hok s hs
  exact ⟨e.primitives, by simp only [readBack, hs, he, bind, Except.bind], hf⟩

/-! ### An environment to try things in: a macro group is a number, written in unary. -/

def tryEnv : EvalEnv ℕ where
  build t _ _ := .ok t.length
  center _ _ _ _ := none

def tryMacros : MacroEnv ℕ where
  hash g := if g < 5 then ['M', '0'] else ['M', '1']
  equiv g g' := g = g'
  macroOf g := .ok (List.replicate g 'x', [])

theorem tryOK (u : String) : MacrosOK tryEnv tryMacros u := by
  refine ⟨?_, ?_, ?_⟩
  · intro g text built h
    obtain ⟨rfl, rfl⟩ := Prod.mk.inj (Except.ok.inj h)
    simp [tryEnv]
  · intro g g' h
    simpa [tryMacros] using h
  · intro g t _
    simp only [tryMacros]
    split <;> decide

def trySettings : FileSettings := { defaultSettings with units := "metric" }

/-- A list with every kind of primitive. -/
def tryList : List (Option Str × RPrim ℕ) :=
  [(none, .edge (.line (0, 0) (1, 0) (some (.circle (1/2) {})) none)),
   (some ['n'], .flash (.rect 1 2 { diameter := some (1/4) }) (1, 0) (some "clear")),
   (none, .edge (.arc (1, 0) (0, 1) (0, 0) "counterclockwise" (some (.group 7)) "multi-quadrant" (some "dark"))),
   (none, .region [.line (0, 0) (1, 0) none none, .arc (1, 0) (0, 0) (1/2, 0) "clockwise" none "multi-quadrant" none,
      .line (0, 0) (0, 0) none none] (some "clear")),
   (none, .edge (.line (3, 3) (3, 3) (some (.circle 1 {})) none)),
   (none, .flash (.polygon 6 1 30 { width := some 1, height := some 2 }) (3, 3) none),
   (none, .flash (.group 3) (3, 3) none)]

theorem tryList_ok : ∀ p ∈ tryList, p.2.OK tryEnv {} := by
  intro p hp
  simp only [tryList, List.mem_cons, List.not_mem_nil, or_false] at hp
  rcases hp with rfl | rfl | rfl | rfl | rfl | rfl | rfl
  · exact ⟨⟨fun k hk => by obtain rfl := Option.some.inj hk; exact .inl rfl, trivial⟩, by simp [REdge.aperture]⟩
  · exact .inr (.inl ⟨1/4, by norm_num, rfl⟩)
  · exact ⟨⟨fun k hk => by obtain rfl := Option.some.inj hk; trivial, .inr rfl, .inl rfl⟩,
      by simp [REdge.aperture]⟩
  · refine ⟨?_, ?_, ?_, by intro h; cases h⟩
    · intro r hr
      simp only [List.mem_cons, List.not_mem_nil, or_false] at hr
      rcases hr with rfl | rfl | rfl
      · exact ⟨fun k hk => (by cases hk), trivial⟩
      · exact ⟨fun k hk => (by cases hk), .inl rfl, .inl rfl⟩
      · exact ⟨fun k hk => (by cases hk), trivial⟩
    · simp [Contiguous, REdge.start, REdge.end_]
    · intro r hr
      simp only [List.mem_cons, List.not_mem_nil, or_false] at hr
      rcases hr with rfl | rfl | rfl <;> exact .inl rfl
  · exact ⟨⟨fun k hk => by obtain rfl := Option.some.inj hk; exact .inl rfl, trivial⟩, by simp [REdge.aperture]⟩
  · exact .inr (.inr ⟨1, by norm_num, 2, by norm_num, rfl⟩)
  · trivial

example : Reproduced tryEnv tryMacros {} trySettings tryList :=
  C22_reproduced_partial _ _ _ _ (tryOK _) (fun _ => ⟨_, rfl⟩) _ tryList_ok

example : ∃ s, renderAll tryMacros {} (start trySettings) tryList = .ok s ∧
    ∃ e stmts, evalAll tryEnv initState s.statements = .ok (e, stmts) ∧
      List.Forall₂ (Shown trySettings.units) (tryList.filterMap fun p => p.2.visible) e.primitives := by
  obtain ⟨s, h⟩ := C22_total tryEnv tryMacros {} (fun _ => ⟨_, rfl⟩) _ (start trySettings) tryList_ok
  exact ⟨s, h, C22_roundtrip_partial _ _ _ _ (tryOK _) _ tryList_ok s h⟩

/-- The fourth primitive loses its line of length zero, the fifth goes. -/
example : (tryList.filterMap fun p => p.2.visible).length = 6 := by decide +kernel

/-! ### Violations -/

/-- **C22 violated**: if the edges of a region are not contiguous, the move between them ends the contour,
and a contour of one edge is dropped. -/
theorem C22_contour_violated : ¬ Reproduced tryEnv tryMacros {} trySettings
    [(none, .region [.line (0, 0) (1, 0) none none, .line (5, 5) (6, 5) none none] none)] := by
  rintro ⟨qs, h, hf⟩
  have e : readBack tryEnv tryMacros {} trySettings
      [(none, .region [.line (0, 0) (1, 0) none none, .line (5, 5) (6, 5) none none] none)] =
      .ok [.region [.line (5, 5) (6, 5) noAperture "dark" "metric"] "dark" "metric"] := by decide +kernel
  rw [e] at h
  obtain rfl := Except.ok.inj h
  cases hf with
  | cons ha hl =>
    obtain ⟨es, he, hes⟩ := ha
    injection he with he1
    subst he1
    have := hes.length_eq
    revert this
    decide

/-- **C22 violated**: a rectangle with a hole loses the hole when drawn with. -/
theorem C22_hole_violated : ¬ Reproduced tryEnv tryMacros {} trySettings
    [(none, .edge (.line (0, 0) (1, 0) (some (.rect 1 1 { diameter := some (1/2) })) none))] := by
  rintro ⟨qs, h, hf⟩
  have e : readBack tryEnv tryMacros {} trySettings
      [(none, .edge (.line (0, 0) (1, 0) (some (.rect 1 1 { diameter := some (1/2) })) none))] =
      .ok [.edge (.line (0, 0) (1, 0) ⟨.rect 1 1 {}, some "metric"⟩ "dark" "metric")] := by decide +kernel
  rw [e] at h
  obtain rfl := Except.ok.inj h
  cases hf with
  | cons ha hl =>
    obtain ⟨ed, he, ap, hap, hed⟩ := ha
    injection he with he1
    subst he1
    injection hed with _ _ h3
    rw [hap _ rfl] at h3
    revert h3
    decide +kernel

/-- **C22 violated**: drawing with a polygon is refused. -/
theorem C22_polygon_violated (r : ℚ) (a b : Pt) : ¬ Reproduced tryEnv tryMacros {} trySettings
    [(none, .edge (.line a b (some (.polygon 6 r 0 {})) none))] := by
  rintro ⟨qs, h, -⟩
  cases h

/-- **C22 violated**: a region whose edges have another polarity takes on theirs. -/
theorem C22_polarity_violated : ¬ Reproduced tryEnv tryMacros {} trySettings
    [(none, .region [.line (0, 0) (1, 0) none (some "clear"), .line (1, 0) (0, 0) none (some "clear")]
      (some "dark"))] := by
  rintro ⟨qs, h, hf⟩
  have e : readBack tryEnv tryMacros {} trySettings
      [(none, .region [.line (0, 0) (1, 0) none (some "clear"), .line (1, 0) (0, 0) none (some "clear")]
        (some "dark"))] =
      .ok [.region [.line (0, 0) (1, 0) noAperture "clear" "metric",
        .line (1, 0) (0, 0) noAperture "clear" "metric"] "clear" "metric"] := by decide +kernel
  rw [e] at h
  obtain rfl := Except.ok.inj h
  cases hf with
  | cons ha hl =>
    obtain ⟨es, he, hes⟩ := ha
    injection he with _ he2
    revert he2
    decide

/-- **C22 violated**: with `explicit_region_move_end`, a region bounded by one full circle disappears. -/
theorem C22_circle_violated : ¬ Reproduced tryEnv tryMacros { explicitRegionMoveEnd := true } trySettings
    [(none, .region [.arc (1, 0) (1, 0) (0, 0) "clockwise" none "multi-quadrant" none] none)] := by
  rintro ⟨qs, h, hf⟩
  have e : readBack tryEnv tryMacros { explicitRegionMoveEnd := true } trySettings
      [(none, .region [.arc (1, 0) (1, 0) (0, 0) "clockwise" none "multi-quadrant" none] none)] = .ok [] := by
    decide +kernel
  rw [e] at h
  obtain rfl := Except.ok.inj h
  have := hf.length_eq
  revert this
  decide +kernel

/-! ## C23 -/

/-- What holds of the codes at any time. -/
structure CInv (s : RState G) : Prop where
  ten : 10 ≤ s.next
  codes : s.header.filterMap definedCode = List.range' 10 (s.next - 10)
  header : ∀ x ∈ s.header, selectedCode x = none
  body : ∀ x ∈ s.body, definedCode x = none
  selected : ∀ x ∈ s.body, ∀ d, selectedCode x = some d → 10 ≤ d ∧ d < s.next
  shapes : ∀ k d, s.shapes k = some d → 10 ≤ d ∧ d < s.next
  macros : ∀ h, ∀ m ∈ s.macros h, 10 ≤ m.1 ∧ m.1 < s.next
  inj : ∀ k k' d, s.shapes k = some d → s.shapes k' = some d → k = k'
  apart : ∀ k d h g, s.shapes k = some d → (d, g) ∉ s.macros h
  minj : ∀ h h' d g g', (d, g) ∈ s.macros h → (d, g') ∈ s.macros h' → h = h' ∧ g = g'

theorem definedCode_adOf (d : ℕ) (k : RShape G) : definedCode (adOf d k) = some d := by
  cases k <;> rfl

theorem selectedCode_adOf (d : ℕ) (k : RShape G) : selectedCode (adOf d k) = none := by
  cases k <;> rfl

theorem range'_succ_ten (n : ℕ) (h : 10 ≤ n) : List.range' 10 (n + 1 - 10) = List.range' 10 (n - 10) ++ [n] := by
  have : n + 1 - 10 = (n - 10) + 1 := by omega
  rw [this, List.range'_concat]
  congr 2
  omega

theorem cinv_start (st : FileSettings) : CInv (start st : RState G) := by
  refine ⟨le_refl _, rfl, ?_, ?_, ?_, ?_, ?_, ?_, ?_, ?_⟩
  · intro x hx
    simp only [start, List.mem_cons, List.not_mem_nil, or_false] at hx
    rcases hx with rfl | rfl <;> rfl
  · intro x hx; cases hx
  · intro x hx; cases hx
  · intro k d h; cases h
  · intro k m h; cases h
  · intro k k' d h; cases h
  · intro k d h g hk; cases hk
  · intro h h' d g g' hk; cases hk

theorem cinv_closed (menv : MacroEnv G) : Closed menv (fun _ => True) CInv := by
  refine ⟨?_, ?_, ?_, ?_⟩
  · rintro s s' ⟨hd, l, hl, hp⟩ hs
    refine ⟨by rw [hd.next]; exact hs.ten, by rw [hd.header, hd.next]; exact hs.codes,
      by rw [hd.header]; exact hs.header, ?_, ?_, by rw [hd.shapes, hd.next]; exact hs.shapes,
      by rw [hd.macros, hd.next]; exact hs.macros, by rw [hd.shapes]; exact hs.inj,
      by rw [hd.shapes, hd.macros]; exact hs.apart, by rw [hd.macros]; exact hs.minj⟩
    · intro x hx
      rw [hl] at hx
      rcases List.mem_append.1 hx with h | h
      · exact hs.body x h
      · exact (hp x h).2
    · intro x hx d hd'
      rw [hl] at hx
      rw [hd.next]
      rcases List.mem_append.1 hx with h | h
      · exact hs.selected x h d hd'
      · rw [(hp x h).1] at hd'; cases hd'
  · intro s d hd hs
    unfold select
    split
    · refine ⟨hs.ten, hs.codes, hs.header, ?_, ?_, hs.shapes, hs.macros, hs.inj, hs.apart, hs.minj⟩
      · intro x hx
        rcases List.mem_append.1 hx with h | h
        · exact hs.body x h
        · simp only [List.mem_cons, List.not_mem_nil, or_false] at h
          subst h
          rfl
      · intro x hx d' hd'
        rcases List.mem_append.1 hx with h | h
        · exact hs.selected x h d' hd'
        · simp only [List.mem_cons, List.not_mem_nil, or_false] at h
          subst h
          obtain rfl := Option.some.inj hd'
          rcases hd with ⟨k, hk⟩ | ⟨h, g, hg⟩
          · exact hs.shapes k _ hk
          · exact hs.macros h _ hg
    · exact hs
  · intro s k _ _ hs
    unfold getShape
    cases hk : s.shapes k with
    | some d => exact hs
    | none =>
      have h10 := hs.ten
      refine ⟨by simp only; omega, ?_, ?_, hs.body, ?_, ?_, ?_, ?_, ?_, hs.minj⟩
      · simp only [List.filterMap_append, hs.codes, List.filterMap_cons, definedCode_adOf, List.filterMap_nil]
        exact (range'_succ_ten _ h10).symm
      · intro x hx
        rcases List.mem_append.1 hx with h | h
        · exact hs.header x h
        · simp only [List.mem_cons, List.not_mem_nil, or_false] at h
          subst h
          exact selectedCode_adOf _ _
      · intro x hx d hd
        have := hs.selected x hx d hd
        simp only
        omega
      · intro k' d hk'
        simp only at hk' ⊢
        split at hk'
        · obtain rfl := Option.some.inj hk'
          omega
        · have := hs.shapes k' d hk'
          omega
      · intro h m hm
        have := hs.macros h m hm
        simp only
        omega
      · intro k1 k2 d h1 h2
        simp only at h1 h2
        split at h1 <;> split at h2
        · rename_i e1 e2; rw [e1, e2]
        · obtain rfl := Option.some.inj h1
          have := hs.shapes k2 _ h2
          omega
        · obtain rfl := Option.some.inj h2
          have := hs.shapes k1 _ h1
          omega
        · exact hs.inj k1 k2 d h1 h2
      · intro k' d h g hk' hm
        simp only at hk' hm
        split at hk'
        · obtain rfl := Option.some.inj hk'
          have := (hs.macros h _ hm).2
          simp at this
        · exact hs.apart k' d h g hk' hm
  · intro s g s' d h hs
    unfold getMacro at h
    simp only at h
    split at h
    · obtain ⟨rfl, rfl⟩ := Prod.mk.inj (Except.ok.inj h)
      exact hs
    · obtain ⟨⟨text, built⟩, hmac, h⟩ := evBind h
      simp only at h
      obtain ⟨rfl, rfl⟩ := Prod.mk.inj (Except.ok.inj h)
      have h10 := hs.ten
      have mem : ∀ h m, m ∈ (if h = menv.hash g then s.macros (menv.hash g) ++ [(s.next, g)] else s.macros h) →
          m ∈ s.macros h ∨ h = menv.hash g ∧ m = (s.next, g) := by
        intro h m hm
        split at hm
        · rename_i hh
          subst hh
          rcases List.mem_append.1 hm with hm | hm
          · exact .inl hm
          · exact .inr ⟨rfl, by simpa using hm⟩
        · exact .inl hm
      refine ⟨by simp only; omega, ?_, ?_, hs.body, ?_, ?_, ?_, hs.inj, ?_, ?_⟩
      · simp only [List.filterMap_append, hs.codes, List.filterMap_cons, definedCode, List.filterMap_nil]
        exact (range'_succ_ten _ h10).symm
      · intro x hx
        rcases List.mem_append.1 hx with h | h
        · exact hs.header x h
        · simp only [List.mem_cons, List.not_mem_nil, or_false] at h
          rcases h with rfl | rfl <;> rfl
      · intro x hx d hd
        have := hs.selected x hx d hd
        simp only
        omega
      · intro k' d hk'
        have := hs.shapes k' d hk'
        simp only
        omega
      · intro h m hm
        rcases mem h m hm with hm | ⟨rfl, rfl⟩
        · have := hs.macros h m hm
          simp only
          omega
        · simp only
          omega
      · intro k' d h g' hk' hm
        rcases mem h _ hm with hm | ⟨rfl, he⟩
        · exact hs.apart k' d h g' hk' hm
        · obtain ⟨rfl, rfl⟩ := Prod.mk.inj he
          have := (hs.shapes k' _ hk').2
          omega
      · intro x x' d g1 g2 hm hm'
        rcases mem x _ hm with hq | ⟨rfl, he⟩ <;> rcases mem x' _ hm' with hq' | ⟨rfl, he'⟩
        · exact hs.minj x x' d g1 g2 hq hq'
        · have := (hs.macros x _ hq).2
          rw [(Prod.mk.inj he').1] at this
          exact absurd this (lt_irrefl _)
        · have := (hs.macros x' _ hq').2
          rw [(Prod.mk.inj he).1] at this
          exact absurd this (lt_irrefl _)
        · exact ⟨rfl, (Prod.mk.inj he).2.trans (Prod.mk.inj he').2.symm⟩

theorem CInv.of_render {menv : MacroEnv G} {o : Options} {st : FileSettings}
    {ps : List (Option Str × RPrim G)} {s : RState G} (h : renderAll menv o (start st) ps = .ok s) : CInv s :=
  (cinv_closed menv).renderAll (fun _ _ _ _ => trivial) h (cinv_start st)

/-- **C23**: the codes defined by a generated file are 10, 11, 12, ... without gap or repetition. -/
theorem C23_defined_once (menv : MacroEnv G) (o : Options) (st : FileSettings)
    (ps : List (Option Str × RPrim G)) (s : RState G) (h : renderAll menv o (start st) ps = .ok s) :
    ∃ n, s.statements.filterMap definedCode = List.range' 10 n := by
  have hs := CInv.of_render h
  refine ⟨s.next - 10, ?_⟩
  have hb : s.body.filterMap definedCode = [] := by
    rw [List.filterMap_eq_nil_iff]
    exact hs.body
  unfold RState.statements
  rw [List.filterMap_append, List.filterMap_append, hs.codes, hb]
  simp [definedCode]

/-- **C23**: every code selected anywhere has been defined before, in the header. -/
theorem C23_selected_defined (menv : MacroEnv G) (o : Options) (st : FileSettings)
    (ps : List (Option Str × RPrim G)) (s : RState G) (h : renderAll menv o (start st) ps = .ok s)
    (pre post : List Stmt) (x : Stmt) (d : ℕ) (hx : s.statements = pre ++ x :: post)
    (hd : selectedCode x = some d) :
    d ∈ s.header.filterMap definedCode ∧ d ∈ pre.filterMap definedCode := by
  have hs := CInv.of_render h
  have hbody : ∀ y ∈ s.body ++ [.eof], selectedCode y = some d → d ∈ s.header.filterMap definedCode := by
    intro y hy hyd
    rcases List.mem_append.1 hy with hy | hy
    · have := hs.selected y hy d hyd
      rw [hs.codes, List.mem_range'_1]
      omega
    · simp only [List.mem_cons, List.not_mem_nil, or_false] at hy
      subst hy
      cases hyd
  unfold RState.statements at hx
  rw [List.append_assoc] at hx
  -- `x` is not in the header
  rcases List.append_eq_append_iff.1 hx with ⟨a, h1, h2⟩ | ⟨a, h1, h2⟩
  · have hmem : d ∈ s.header.filterMap definedCode := hbody x (by rw [h2]; simp) hd
    refine ⟨hmem, ?_⟩
    rw [h1, List.filterMap_append]
    exact List.mem_append_left _ hmem
  · cases a with
    | nil =>
      simp only [List.nil_append, List.append_nil] at h1 h2
      have hmem : d ∈ s.header.filterMap definedCode := hbody x (by rw [← h2]; simp) hd
      exact ⟨hmem, by rw [← h1]; exact hmem⟩
    | cons y a =>
      obtain ⟨rfl, -⟩ := List.cons.inj h2
      have := hs.header x (by rw [h1]; simp)
      rw [hd] at this
      cases this

/-- **C23**: no two apertures share a code: neither two shapes, nor two macro groups, nor a shape and a
macro group. -/
theorem C23_distinct (menv : MacroEnv G) (o : Options) (st : FileSettings)
    (ps : List (Option Str × RPrim G)) (s : RState G) (h : renderAll menv o (start st) ps = .ok s) (d : ℕ) :
    (∀ k k', s.shapes k = some d → s.shapes k' = some d → k = k') ∧
    (∀ h h' g g', (d, g) ∈ s.macros h → (d, g') ∈ s.macros h' → g = g') ∧
    ∀ k h g, s.shapes k = some d → (d, g) ∉ s.macros h := by
  have hs := CInv.of_render h
  exact ⟨fun k k' => hs.inj k k' d, fun h h' g g' a b => (hs.minj h h' d g g' a b).2,
    fun k h g => hs.apart k d h g⟩

/-! ### Equal shapes -/

/-- Shape and modifiers of a definition of a standard aperture. -/
def adContent : Stmt → Option (Str × List (List ℚ))
  | .ad _ n m => if n ∈ [['C'], ['R'], ['O'], ['P']] then some (n, m) else none
  | _ => none

/-- All hole attributes are numbers. -/
def HoleAttr.Full (h : HoleAttr) : Prop := h.diameter.isSome ∧ h.width.isSome ∧ h.height.isSome

/-- A standard shape all of whose hole attributes are numbers, as the interpreter makes them. -/
def Canon : RShape G → Prop
  | .circle _ h => h.Regular ∧ h.Full
  | .rect _ _ h => h.Regular ∧ h.Full
  | .obround _ _ h => h.Regular ∧ h.Full
  | .polygon _ _ _ h => h.Regular ∧ h.Full
  | .group _ => True

theorem hole_inj {h h' : HoleAttr} (hr : h.Regular ∧ h.Full) (hr' : h'.Regular ∧ h'.Full)
    (he : holeMods h = holeMods h') : h = h' := by
  have ht : h.toHole = h'.toHole := by
    rcases mods_hole h hr.1 with ⟨a, b⟩ | ⟨d, a, b⟩ | ⟨w, v, a, b⟩ <;>
      rcases mods_hole h' hr'.1 with ⟨a', b'⟩ | ⟨d', a', b'⟩ | ⟨w', v', a', b'⟩ <;>
      rw [b, b'] at he <;> simp at he <;> rw [a, a'] <;> simp [he]
  obtain ⟨d, w, v⟩ := h
  obtain ⟨d', w', v'⟩ := h'
  obtain ⟨-, f1, f2, f3⟩ := hr
  obtain ⟨-, f1', f2', f3'⟩ := hr'
  simp only [Option.isSome_iff_exists] at f1 f2 f3 f1' f2' f3'
  obtain ⟨d, rfl⟩ := f1
  obtain ⟨w, rfl⟩ := f2
  obtain ⟨v, rfl⟩ := f3
  obtain ⟨d', rfl⟩ := f1'
  obtain ⟨w', rfl⟩ := f2'
  obtain ⟨v', rfl⟩ := f3'
  simp only [HoleAttr.toHole, Option.getD_some, Hole.mk.injEq] at ht
  obtain ⟨rfl, rfl, rfl⟩ := ht
  rfl

theorem adContent_inj {k k' : RShape G} (d d' : ℕ) (hk : Canon k) (hk' : Canon k') (hg : ∀ g, k ≠ .group g)
    (hg' : ∀ g, k' ≠ .group g) (h : adContent (adOf d k) = adContent (adOf d' k')) : k = k' := by
  cases k <;> cases k' <;> simp [adOf, adContent] at h <;> try (first | exact absurd rfl (hg _) | exact absurd rfl (hg' _))
  · obtain ⟨rfl, h2⟩ := h
    rw [hole_inj hk hk' h2]
  · obtain ⟨rfl, rfl, h2⟩ := h
    rw [hole_inj hk hk' h2]
  · obtain ⟨rfl, rfl, h2⟩ := h
    rw [hole_inj hk hk' h2]
  · obtain ⟨rfl, rfl, rfl, h2⟩ := h
    rw [hole_inj hk hk' h2]

theorem adContent_adOf (d d' : ℕ) (k : RShape G) (hg : ∀ g, k ≠ .group g) :
    adContent (adOf d k) = adContent (adOf d' k) ∧ (adContent (adOf d k)).isSome := by
  cases k <;> simp [adOf, adContent]
  exact absurd rfl (hg _)

/-- No standard aperture is defined twice so far. -/
def SInv (s : RState G) : Prop :=
  (s.header.filterMap adContent).Nodup ∧
  (∀ c ∈ s.header.filterMap adContent, ∃ k, (∃ d, s.shapes k = some d) ∧ Canon k ∧ (∀ g, k ≠ .group g) ∧
    adContent (adOf 0 k) = some c) ∧ ∀ x ∈ s.body, definedCode x = none

theorem sinv_closed {menv : MacroEnv G} (hname : ∀ g, menv.hash g ∉ [['C'], ['R'], ['O'], ['P']]) :
    Closed menv Canon SInv := by
  refine ⟨?_, ?_, ?_, ?_⟩
  · rintro s s' ⟨hd, l, hl, hp⟩ ⟨h1, h2, h3⟩
    refine ⟨by rw [hd.header]; exact h1, by rw [hd.header, hd.shapes]; exact h2, ?_⟩
    intro x hx
    rw [hl] at hx
    rcases List.mem_append.1 hx with h | h
    · exact h3 x h
    · exact (hp x h).2
  · rintro s d - ⟨h1, h2, h3⟩
    unfold select
    split
    · refine ⟨h1, h2, ?_⟩
      intro x hx
      rcases List.mem_append.1 hx with h | h
      · exact h3 x h
      · simp only [List.mem_cons, List.not_mem_nil, or_false] at h
        subst h
        rfl
    · exact ⟨h1, h2, h3⟩
  · rintro s k hk hg ⟨h1, h2, h3⟩
    unfold getShape
    cases hsk : s.shapes k with
    | some d => exact ⟨h1, h2, h3⟩
    | none =>
      obtain ⟨a1, a2⟩ := adContent_adOf s.next 0 k hg
      obtain ⟨c, hc⟩ := Option.isSome_iff_exists.1 a2
      have hl : (s.header ++ [adOf s.next k]).filterMap adContent = s.header.filterMap adContent ++ [c] := by
        rw [List.filterMap_append]
        simp [hc]
      refine ⟨?_, ?_, h3⟩
      · simp only [hl]
        rw [List.nodup_append]
        refine ⟨h1, by simp, ?_⟩
        intro a ha b hb hab
        simp only [List.mem_cons, List.not_mem_nil, or_false] at hb
        subst hb
        subst hab
        obtain ⟨k', ⟨d', hd'⟩, hk', hg', hc'⟩ := h2 a ha
        have := adContent_inj s.next 0 hk hk' hg hg' (hc.trans hc'.symm)
        subst this
        rw [hsk] at hd'
        cases hd'
      · simp only [hl]
        intro c' hc'
        rcases List.mem_append.1 hc' with h | h
        · obtain ⟨k', ⟨d', hd'⟩, rest⟩ := h2 c' h
          refine ⟨k', ⟨d', ?_⟩, rest⟩
          rw [if_neg]
          · exact hd'
          · rintro rfl
            rw [hsk] at hd'
            cases hd'
        · simp only [List.mem_cons, List.not_mem_nil, or_false] at h
          subst h
          exact ⟨k, ⟨s.next, if_pos rfl⟩, hk, hg, a1.symm.trans hc⟩
  · rintro s g s' d h ⟨h1, h2, h3⟩
    unfold getMacro at h
    simp only at h
    split at h
    · obtain ⟨rfl, rfl⟩ := Prod.mk.inj (Except.ok.inj h)
      exact ⟨h1, h2, h3⟩
    · obtain ⟨⟨text, built⟩, hmac, h⟩ := evBind h
      simp only at h
      obtain ⟨rfl, rfl⟩ := Prod.mk.inj (Except.ok.inj h)
      have hl : (s.header ++ [Stmt.am (menv.hash g) text built, Stmt.ad s.next (menv.hash g) [[]]]).filterMap adContent =
          s.header.filterMap adContent := by
        rw [List.filterMap_append]
        have e1 : adContent (.am (menv.hash g) text built) = none := rfl
        have e2 : adContent (.ad s.next (menv.hash g) [[]]) = none := if_neg (hname g)
        simp [e1, e2]
      exact ⟨by simp only [hl]; exact h1, by simp only [hl]; exact h2, h3⟩

/-- **C23, equal shapes share a code**, for standard shapes whose hole attributes are numbers, without
rectangles and obrounds to draw with (whose keys have `None` for the hole): no two definitions of
standard apertures are equal up to the code. -/
theorem C23_shared_partial (menv : MacroEnv G) (o : Options) (st : FileSettings)
    (hname : ∀ g, menv.hash g ∉ [['C'], ['R'], ['O'], ['P']])
    (ps : List (Option Str × RPrim G)) (hK : ∀ p ∈ ps, ∀ k ∈ keys p.2, Canon k)
    (s : RState G) (h : renderAll menv o (start st) ps = .ok s) :
    (s.statements.filterMap adContent).Nodup := by
  have h0 : SInv (start st : RState G) := by
    refine ⟨?_, ?_, by intro x hx; cases hx⟩
    · exact List.nodup_nil
    · intro c hc
      have : c ∈ ([] : List (Str × List (List ℚ))) := hc
      cases this
  obtain ⟨h1, -, h3⟩ := (sinv_closed hname).renderAll hK h h0
  have hb : s.body.filterMap adContent = [] := by
    rw [List.filterMap_eq_nil_iff]
    intro x hx
    have := h3 x hx
    cases x <;> first | rfl | cases this
  unfold RState.statements
  have he : [Stmt.eof].filterMap adContent = [] := rfl
  rw [List.filterMap_append, List.filterMap_append, hb, he, List.append_nil, List.append_nil]
  exact h1

/-- Macro groups stored under one name are pairwise different, and stored under their own name. -/
def MInv (menv : MacroEnv G) (s : RState G) : Prop :=
  ∀ h, (s.macros h).Pairwise (fun m m' => menv.equiv m'.2 m.2 = false) ∧ ∀ m ∈ s.macros h, menv.hash m.2 = h

theorem minv_closed (menv : MacroEnv G) : Closed menv (fun _ => True) (MInv menv) := by
  refine ⟨?_, ?_, ?_, ?_⟩
  · rintro s s' ⟨hd, -⟩ hs
    unfold MInv
    rw [hd.macros]
    exact hs
  · intro s d _ hs
    unfold select
    split <;> exact hs
  · intro s k _ _ hs
    unfold getShape
    cases s.shapes k <;> exact hs
  · intro s g s' d h hs
    unfold getMacro at h
    simp only at h
    split at h
    · obtain ⟨rfl, rfl⟩ := Prod.mk.inj (Except.ok.inj h)
      exact hs
    · rename_i hnone
      obtain ⟨⟨text, built⟩, hmac, h⟩ := evBind h
      simp only at h
      obtain ⟨rfl, rfl⟩ := Prod.mk.inj (Except.ok.inj h)
      intro x
      simp only
      split
      · rename_i hx
        subst hx
        refine ⟨?_, ?_⟩
        · rw [List.pairwise_append]
          refine ⟨(hs _).1, by simp, ?_⟩
          intro a ha b hb
          simp only [List.mem_cons, List.not_mem_nil, or_false] at hb
          subst hb
          simpa using List.find?_eq_none.1 hnone a ha
        · intro m hm
          rcases List.mem_append.1 hm with hm | hm
          · exact (hs _).2 m hm
          · simp only [List.mem_cons, List.not_mem_nil, or_false] at hm
            subst hm
            rfl
      · exact hs x

/-- **C23, equal shapes share a code**, for macro groups: groups that compare equal have one code. -/
theorem C23_macros_shared (menv : MacroEnv G) (o : Options) (st : FileSettings)
    (hrefl : ∀ g, menv.equiv g g = true)
    (ps : List (Option Str × RPrim G)) (s : RState G) (h : renderAll menv o (start st) ps = .ok s)
    (g : G) (n n' : Str) (d d' : ℕ) (hd : (d, g) ∈ s.macros n) (hd' : (d', g) ∈ s.macros n') : d = d' := by
  have hs : MInv menv s := (minv_closed menv).renderAll (fun _ _ _ _ => trivial) h (by
    intro h
    exact ⟨.nil, by intro m hm; cases hm⟩)
  obtain rfl : n = n' := (show menv.hash g = n from (hs n).2 _ hd).symm.trans ((hs n').2 (d', g) hd')
  by_contra hne
  have hpw := (hs n).1
  have key : ∀ (l : List (ℕ × G)), l.Pairwise (fun m m' => menv.equiv m'.2 m.2 = false) →
      (d, g) ∈ l → (d', g) ∈ l → False := by
    intro l hl
    induction hl with
    | nil => intro h; cases h
    | cons ha _ ih =>
      intro h1 h2
      rcases List.mem_cons.1 h1 with h1 | h1 <;> rcases List.mem_cons.1 h2 with h2 | h2
      · rw [← h1] at h2
        exact hne (Prod.mk.inj h2).1.symm
      · have := ha _ h2
        rw [← h1] at this
        simp only [hrefl] at this
        cases this
      · have := ha _ h1
        rw [← h2] at this
        simp only [hrefl] at this
        cases this
      · exact ih h1 h2
  exact key _ hpw hd hd'

/-- **C23 violated**: a rectangle that is flashed and drawn with is defined twice, since the hole
attributes are zero in one key and `None` in the other. -/
theorem C23_shared_violated : ∃ (s : RState ℕ), renderAll tryMacros {} (start trySettings)
      [(none, .flash (.rect 1 2 { diameter := some 0, width := some 0, height := some 0 }) (0, 0) none),
       (none, .edge (.line (0, 0) (1, 0)
        (some (.rect 1 2 { diameter := some 0, width := some 0, height := some 0 })) none))] = .ok s ∧
    ¬ (s.statements.filterMap adContent).Nodup := by
  refine ⟨_, rfl, ?_⟩
  decide +kernel

/-! ### A concrete file -/

/-- The list above gives a file with five apertures. -/
theorem try_renders : ∃ s, renderAll tryMacros {} (start trySettings) tryList = .ok s :=
  C22_total tryEnv tryMacros {} (fun _ => ⟨_, rfl⟩) _ (start trySettings) tryList_ok

example : (renderAll tryMacros {} (start trySettings) tryList).map
    (fun s => (s.statements.filterMap definedCode, s.statements.filterMap selectedCode)) =
    .ok ([10, 11, 12, 13, 14, 15], [10, 11, 12, 13, 14, 15]) := by decide +kernel

example : ∃ s n, renderAll tryMacros {} (start trySettings) tryList = .ok s ∧
    s.statements.filterMap definedCode = List.range' 10 n := by
  obtain ⟨s, h⟩ := try_renders
  obtain ⟨n, hn⟩ := C23_defined_once _ _ _ _ s h
  exact ⟨s, n, h, hn⟩

example : ∃ s, renderAll tryMacros {} (start trySettings) tryList = .ok s ∧
    ∀ d k k', s.shapes k = some d → s.shapes k' = some d → k = k' := by
  obtain ⟨s, h⟩ := try_renders
  exact ⟨s, h, fun d => (C23_distinct _ _ _ _ s h d).1⟩

example : ∃ s, renderAll tryMacros {} (start trySettings) tryList = .ok s ∧
    ∀ pre post d, s.statements = pre ++ .aperture d false :: post → d ∈ pre.filterMap definedCode := by
  obtain ⟨s, h⟩ := try_renders
  exact ⟨s, h, fun pre post d hs => (C23_selected_defined _ _ _ _ s h pre post _ d hs rfl).2⟩

example : ∃ s, renderAll tryMacros {} (start trySettings)
    [(none, .flash (.group 3) (0, 0) none), (none, .flash (.group 4) (0, 0) none),
     (none, .flash (.group 3) (1, 0) none)] = .ok s ∧
    ∀ d d' n n', (d, 3) ∈ s.macros n → (d', 3) ∈ s.macros n' → d = d' := by
  have hok : ∀ p ∈ ([(none, .flash (.group 3) (0, 0) none), (none, .flash (.group 4) (0, 0) none),
     (none, .flash (.group 3) (1, 0) none)] : List (Option Str × RPrim ℕ)), p.2.OK tryEnv {} := by
    intro p hp
    simp only [List.mem_cons, List.not_mem_nil, or_false] at hp
    rcases hp with rfl | rfl | rfl <;> trivial
  obtain ⟨s, h⟩ := C22_total tryEnv tryMacros {} (fun _ => ⟨_, rfl⟩) _ (start trySettings) hok
  exact ⟨s, h, fun d d' n n' => C23_macros_shared _ _ _ (by intro g; simp [tryMacros]) _ s h 3 n n' d d'⟩

def tryCircles : List (Option Str × RPrim ℕ) :=
  [(none, .flash (.circle 1 { diameter := some 0, width := some 0, height := some 0 }) (0, 0) none),
   (none, .edge (.line (0, 0) (1, 0)
     (some (.circle 1 { diameter := some 0, width := some 0, height := some 0 })) none))]

example : ∃ s, renderAll tryMacros {} (start trySettings) tryCircles = .ok s ∧
    (s.statements.filterMap adContent).Nodup := by
  obtain ⟨s, h⟩ : ∃ s, renderAll tryMacros {} (start trySettings) tryCircles = .ok s := ⟨_, rfl⟩
  refine ⟨s, h, C23_shared_partial tryMacros {} trySettings (fun g => (tryOK "inch").name g _ rfl) _ ?_ _ h⟩
  intro p hp k hk
  simp only [tryCircles, List.mem_cons, List.not_mem_nil, or_false] at hp
  rcases hp with rfl | rfl
  · simp only [keys, List.mem_cons, List.not_mem_nil, or_false] at hk
    subst hk
    exact ⟨.inl rfl, rfl, rfl, rfl⟩
  · simp only [keys, REdge.aperture, Option.toList, List.map_cons, List.map_nil, List.mem_cons,
      List.not_mem_nil, or_false] at hk
    subst hk
    exact ⟨.inl rfl, rfl, rfl, rfl⟩

end Verif.Rs274x
