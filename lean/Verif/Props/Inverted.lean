import Verif.Spec.Inverted
import Verif.Props.MacroPaint
import Verif.Props.DrillPicture

/-! # Inverted pictures (C79) -/

namespace Verif.Cairo
open Verif.Py Verif.Geom Verif.Render

/-- Shapes that are drawn the same on inverted layers. -/
def Shape.Steady : Cairo.Shape → Prop
  | .circle _ _ _ h => ¬ (0 < h.width ∧ 0 < h.height)
  | .rectangle _ _ _ _ h | .obround _ _ _ _ h | .polygon _ _ _ _ h =>
    ¬ 0 < h.diameter ∧ ¬ (0 < h.width ∧ 0 < h.height)
  | _ => True

theorem mask_steady (K : Engine) (s : ℝ) {x : Cairo.Shape} (h : x.Steady) : K.mask s true false x = K.mask s true true x := by
  cases x with
  | line a e ap => cases ap <;> rfl
  | region l => cases l <;> rfl
  | circle =>
    simp only [Shape.Steady] at h
    simp only [Engine.mask, Engine.holes, if_neg h]
  | rectangle | obround | polygon =>
    simp only [Shape.Steady] at h
    simp only [Engine.mask, holes_none K s _ _ _ _ _ h]
  | _ => rfl

/-- Inverted, everything added is removed instead. -/
theorem layer_inverted (K : Engine) (f : Frame) (mirror : Bool) {prims : List Prim}
    (hd : ∀ x ∈ prims.flatMap f.shapes, x.1 = true ∧ x.2.Steady) :
    K.layer f true mirror prims = (K.layer f false mirror prims).map compl := by
  unfold Engine.layer
  have key : ∀ (xs : List (Bool × Cairo.Shape)), (∀ x ∈ xs, x.1 = true ∧ x.2.Steady) → ∀ P : Set RPt,
      xs.foldlM (K.draw f true mirror) Pᶜ = (xs.foldlM (K.draw f false mirror) P).map compl := by
    intro xs
    induction xs with
    | nil => exact fun _ _ => rfl
    | cons x xs ih =>
      intro h P
      obtain ⟨h1, h2⟩ := h x (by simp)
      have hc : K.covered f true mirror x.1 x.2 = K.covered f false mirror x.1 x.2 := by
        simp only [Engine.covered, h1, mask_steady K f.scale h2]
      rw [List.foldlM_cons, List.foldlM_cons]
      simp only [Engine.draw, hc]
      cases K.covered f false mirror x.1 x.2 with
      | error e => rfl
      | ok D =>
        simp only [bind, Except.bind, h1, Bool.not_true, Bool.false_and, Bool.not_false, Bool.and_self, if_true,
          Bool.false_eq_true, if_false]
        have e : Pᶜ \ D = (P ∪ D)ᶜ := by
          rw [Set.compl_union]; rfl
        rw [e]
        exact ih (fun y hy => h y (by simp [hy])) _
  have := key (prims.flatMap f.shapes) hd ∅
  rw [Set.compl_empty] at this
  simpa using this

theorem paintLayer_inverted (K : Engine) (c : Cairo.Ctx) (l : Layer) (s : Settings) (hi : s.invert = false)
    (hd : ∀ f : Frame, ∀ x ∈ l.prims.flatMap f.shapes, x.1 = true ∧ x.2.Steady) :
    NegativeOf (c.paintLayer K l s) (c.paintLayer K l { s with invert := true }) := by
  unfold Ctx.paintLayer
  cases c.frame with
  | none => exact rfl
  | some f =>
    simp only [hi]
    rw [layer_inverted K f s.mirror (hd f)]
    cases K.layer f false s.mirror l.prims with
    | error e => exact rfl
    | ok P => exact ⟨rfl, rfl, rfl, rfl, c.paints, s.color, s.alpha, P, rfl, rfl⟩

/-- **C79 for layers**: drawn inverted, a layer of dark primitives without holes appears as the negative. -/
theorem C79_layer_partial (K : Engine) (c : Cairo.Ctx) (l : Layer) (s bg : Settings) (bounds : Option Box)
    (hi : s.invert = false) (hd : ∀ f : Frame, ∀ x ∈ l.prims.flatMap f.shapes, x.1 = true ∧ x.2.Steady) :
    NegativeOf (c.renderLayer K l s bg bounds) (c.renderLayer K l { s with invert := true } bg bounds) := by
  unfold Ctx.renderLayer
  split
  · split
    · exact rfl
    · exact paintLayer_inverted K { (c.clear.setBounds _).paintBackground bg with count := _ } l s hi hd
  · exact paintLayer_inverted K _ l s hi hd

-- a layer with a round pad with a round hole, and a slot
example : ∀ f : Frame, ∀ x ∈ [Prim.shape true (.circle (5, 5) 2 0 { diameter := 1 }),
    .shape true (.slot (0, 0) (1, 0) 1)].flatMap f.shapes, x.1 = true ∧ x.2.Steady := by
  simp [Frame.shapes, Shape.Steady]

theorem renderFile_inverted (K : Engine) (c : Cairo.Ctx) (box : PyR Box) (prims : PyR (List Prim))
    (hd : ∀ l, prims = .ok l → ∀ f : Frame, ∀ x ∈ l.flatMap f.shapes, x.1 = true ∧ x.2.Steady) :
    NegativeOf (c.renderFile K box prims false) (c.renderFile K box prims true) := by
  unfold Ctx.renderFile
  cases box with
  | error e => exact rfl
  | ok b =>
    cases prims with
    | error e => exact rfl
    | ok l =>
      exact paintLayer_inverted K _ ⟨"", none, l⟩
        { color := [7215 / 10000, 451 / 1000, 200 / 1000], alpha := 1, invert := false, mirror := false } rfl (hd l rfl)

end Verif.Cairo

namespace Verif.Excellon
open Verif.Py Verif.Cairo

theorem mapM_mem {α β : Type} {F : α → PyR β} : ∀ {l : List α} {r : List β}, l.mapM F = .ok r → ∀ y ∈ r, ∃ x ∈ l, F x = .ok y
  | [], r, h, y, hy => by cases h; simp at hy
  | a :: l, r, h, y, hy => by
    rw [List.mapM_cons] at h
    obtain ⟨b, h1, h⟩ := bindOk h
    obtain ⟨bs, h2, h⟩ := bindOk h
    cases h
    rcases List.mem_cons.mp hy with rfl | hy
    · exact ⟨a, by simp, h1⟩
    · obtain ⟨x, hx, h3⟩ := mapM_mem h2 y hy
      exact ⟨x, by simp [hx], h3⟩

/-- **C79 for drill files**: the inverted picture is the negative, for every file and every context. -/
theorem C79_drill (K : Engine) (f : XFile) (c : Cairo.Ctx) : NegativeOf (f.render K c false) (f.render K c true) := by
  apply renderFile_inverted
  intro l hl fr x hx
  obtain ⟨P, hP, hx⟩ := List.mem_flatMap.mp hx
  have key : ∀ h : Hit, ∀ P, hitPrim f.heap h = .ok P → ∃ sh, P = .shape true sh ∧ sh.Steady := by
    intro h P hP
    unfold hitPrim at hP
    split at hP
    · cases hP
    · obtain ⟨t, -, hP⟩ := bindOk hP
      split at hP
      · cases hP
      · split at hP
        · cases hP; exact ⟨_, rfl, trivial⟩
        · cases hP; exact ⟨_, rfl, trivial⟩
        · cases hP
  obtain ⟨h, -, hh⟩ := mapM_mem hl P hP
  obtain ⟨sh, rfl, hs⟩ := key h P hh
  obtain rfl := List.mem_singleton.mp hx
  exact ⟨rfl, hs⟩

-- two pictures that are made
example (K : Engine) : ∃ f c d, parseRaw none [] (prog ["M48", "INCH,LZ", "T01C0.020", "T02C0.030", "%", "T01", "X01Y01",
      "X02Y01G85X02Y03", "T02", "X01Y02", "M30"]) = .ok f ∧ f.render K = .ok c ∧ f.render K {} true = .ok d ∧
    Negative c d := by
  obtain ⟨f, h1, h2, h3, h4⟩ : ∃ f, parseRaw none [] (prog ["M48", "INCH,LZ", "T01C0.020", "T02C0.030", "%", "T01", "X01Y01",
      "X02Y01G85X02Y03", "T02", "X01Y02", "M30"]) = .ok f ∧
      f.boundingBox = .ok ((985 / 1000, 201 / 100), (99 / 100, 301 / 100)) ∧ f.hits ≠ [] ∧
      f.hits.map (Hit.diameter f.heap) = [some (2 / 100), some (2 / 100), some (3 / 100)] := by
    refine ⟨_, rfl, ?_, ?_, ?_⟩ <;> decide +kernel
  have hd : ∀ x ∈ f.hits, ∀ d, x.diameter f.heap = some d → 0 < d := by
    intro x hx d he
    have : some d ∈ f.hits.map (Hit.diameter f.heap) := he ▸ List.mem_map_of_mem hx
    rw [h4] at this
    simp only [List.mem_cons, Option.some.injEq, List.not_mem_nil, or_false] at this
    rcases this with rfl | rfl | rfl <;> norm_num
  obtain ⟨A, h, -⟩ := C74_picture_partial K h2 h3 hd (s := 300) (by norm_num)
  have h : f.render K = .ok _ := h
  have := C79_drill K f {}
  rw [h] at this
  cases hr : f.render K {} true with
  | error e => rw [hr] at this; exact this.elim
  | ok d => rw [hr] at this; exact ⟨f, _, d, h1, h, hr, this⟩

end Verif.Excellon

namespace Verif.Am
open Verif.Py Verif.Geom Verif.Gerber Verif.Excellon

/-- The polarity of the parts of macro primitives. -/
theorem toPrimitive_dark {a : AmPrim} (h : Gerber.Shape.Solid (.group [a])) {l : List Drawn} (hl : toPrimitive a = .ok l) :
    ∀ x ∈ l, x.dark = true := by
  have h := h a (List.mem_singleton_self a)
  cases a with
  | comment | moire | lowerLeft | unsupported => cases hl; simp
  | circle | polygon => cases hl; simpa using h
  | outline on s ps r =>
    simp only [toPrimitive, outlineShape] at hl
    obtain ⟨o, -, hl⟩ := Excellon.bindOk hl
    cases hl; simpa using h
  | centerLine on w g c r =>
    simp only [toPrimitive, centerLineShape] at hl
    obtain ⟨o, -, hl⟩ := Excellon.bindOk hl
    cases hl; simpa using h
  | vectorLine code on w s e r =>
    simp only [toPrimitive, vectorLineShape] at hl
    split at hl
    · cases hl
    · cases hl
    · split at hl
      · cases hl
      · obtain ⟨o, -, hl⟩ := Excellon.bindOk hl
        cases hl; simpa using h
  | thermal p o i g r =>
    simp only [toPrimitive, thermalShape] at hl
    obtain ⟨_, -, hl⟩ := Excellon.bindOk hl
    obtain ⟨_, -, hl⟩ := Excellon.bindOk hl
    intro x hx
    obtain ⟨r, -, hr⟩ := mapM_mem hl x hx
    obtain ⟨o, -, hr⟩ := Excellon.bindOk hr
    cases hr
    rfl

theorem groupParts_dark {g : List AmPrim} (h : Gerber.Shape.Solid (.group g)) {p : Pt} {l : List (Bool × Cairo.Shape)}
    (hl : groupParts g p = .ok l) : ∀ x ∈ l, x.1 = true ∧ x.2.Steady := by
  intro x hx
  obtain ⟨ds, h1, h2⟩ := Excellon.bindOk hl
  obtain ⟨d, hd, h3⟩ := mapM_mem h2 x hx
  obtain ⟨sh, h4, h3⟩ := Excellon.bindOk h3
  cases h3
  obtain ⟨parts, k1, k2⟩ := Excellon.bindOk h1
  cases k2
  obtain ⟨ys, hy, hd⟩ := List.mem_flatten.mp hd
  obtain ⟨a, ha, k3⟩ := mapM_mem k1 ys hy
  refine ⟨toPrimitive_dark (fun b hb => h b (List.mem_singleton.mp hb ▸ ha)) k3 d hd, ?_⟩
  cases hs : d.shape with
  | circle pos dia =>
    rw [hs] at h4; cases h4; simp [Cairo.Shape.Steady]
  | outline => rw [hs] at h4; cases h4; trivial
  | polygon pos n r rot =>
    rw [hs] at h4
    obtain ⟨k, -, h4⟩ := Excellon.bindOk h4
    cases h4; simp [Cairo.Shape.Steady]

end Verif.Am

namespace Verif.Gerber
open Verif.Py Verif.Cairo Verif.Geom Verif.Render Verif.Am

theorem noRect {h : Hole} (hh : h.width ≤ 0 ∨ h.height ≤ 0) : ¬ ((0 : ℝ) < h.real.width ∧ (0 : ℝ) < h.real.height) := by
  rintro ⟨h1, h2⟩
  simp only [Hole.real] at h1 h2
  rcases hh with hh | hh
  · exact absurd (by exact_mod_cast h1 : 0 < h.width) (not_lt.mpr hh)
  · exact absurd (by exact_mod_cast h2 : 0 < h.height) (not_lt.mpr hh)

theorem noRound {h : Hole} (hh : h.diameter ≤ 0) : ¬ (0 : ℝ) < h.real.diameter := by
  simp only [Hole.real]
  exact_mod_cast not_lt.mpr hh

theorem drawn_adds {P : Prim (List AmPrim)} (h : P.Adds) {cp : Cairo.Prim} (hc : P.drawn groupParts = .ok cp) (f : Frame) :
    ∀ x ∈ f.shapes cp, x.1 = true ∧ x.2.Steady := by
  intro x hx
  cases P with
  | edge e =>
    cases e with
    | line s e ap pol u =>
      obtain ⟨pen, -, hc⟩ := Excellon.bindOk hc
      cases hc
      obtain rfl := List.mem_singleton.mp hx
      exact ⟨by simpa [Prim.Adds] using h, trivial⟩
    | arc s e ce d ap q pol u =>
      cases ce with
      | none => cases hc
      | some ce =>
        obtain ⟨pen, -, hc⟩ := Excellon.bindOk hc
        cases hc
        obtain rfl := List.mem_singleton.mp hx
        exact ⟨by simpa [Prim.Adds] using h, trivial⟩
  | region es pol u =>
    obtain ⟨l, -, hc⟩ := Excellon.bindOk hc
    cases hc
    obtain rfl := List.mem_singleton.mp hx
    exact ⟨by simpa [Prim.Adds] using h, trivial⟩
  | flash sh p pol u =>
    cases sh with
    | group g =>
      obtain ⟨l, h1, hc⟩ := Excellon.bindOk hc
      cases hc
      exact groupParts_dark h h1 x hx
    | circle d hole =>
      cases hc
      obtain rfl := List.mem_singleton.mp hx
      exact ⟨by simpa using h.1, noRect h.2⟩
    | rect w g hole =>
      cases hc
      obtain rfl := List.mem_singleton.mp hx
      exact ⟨by simpa using h.1, noRound h.2.1, noRect h.2.2⟩
    | obround w g hole =>
      cases hc
      obtain rfl := List.mem_singleton.mp hx
      exact ⟨by simpa using h.1, noRound h.2.1, noRect h.2.2⟩
    | polygon n r rot hole =>
      obtain ⟨k, -, hc⟩ := Excellon.bindOk hc
      cases hc
      obtain rfl := List.mem_singleton.mp hx
      exact ⟨by simpa using h.1, noRound h.2.1, noRect h.2.2⟩

/-- **C79 for Gerber files** whose primitives only add something: the inverted picture is the negative. -/
theorem C79_gerber_partial (K : Engine) (f : GerberFile (List AmPrim)) (h : ∀ P ∈ f.primitives, P.Adds) (c : Cairo.Ctx) :
    NegativeOf (Am.render K f c false) (Am.render K f c true) := by
  unfold Am.render GerberFile.render
  cases hp : f.primitives.mapM (Prim.drawn groupParts) with
  | error e => exact rfl
  | ok prims =>
    refine renderFile_inverted K c (boxAround prims) (.ok prims) fun l hl fr x hx => ?_
    cases hl
    obtain ⟨cp, hcp, hx⟩ := List.mem_flatMap.mp hx
    obtain ⟨P, hP, hd⟩ := Excellon.mapM_mem hp cp hcp
    exact drawn_adds (h P hP) hd fr x hx

/-! ## From the text -/

/-- What holds while a file of such statements is read. -/
def AddsOnly (st : EvalState (List AmPrim)) : Prop :=
  st.levelPolarity = "dark" ∧ (∀ n a, st.apertures n = some a → a.shape.Solid) ∧
    (∀ n b u, st.macros n = some (b, u) → ∀ m g, build b m = .ok g → Shape.Solid (.group g)) ∧
    ∀ P ∈ st.primitives, P.Adds

theorem noHole_solid {m : List ℚ} {k : ℕ} (h : m.length ≤ k) : holeOf m k = {} := by
  unfold holeOf
  rw [if_neg (by omega), if_neg (by omega)]

theorem shape_solid {center : String → Pt → Pt → Pt → Option Pt} {st : EvalState (List AmPrim)} (h : AddsOnly st)
    {d : ℕ} {shape : Str} {mods : List (List ℚ)} (hs : (Stmt.ad d shape mods).Plain) {s : Shape (List AmPrim)}
    (he : shapeOf (macroEnv center) st.macros shape mods = .ok s) : s.Solid := by
  have first : ∀ m, firstMods mods = .ok m → m ∈ mods := by
    intro m hm
    cases mods with
    | nil => cases hm
    | cons a l => cases hm; simp
  unfold shapeOf at he
  split at he
  · obtain ⟨m, h1, he⟩ := Excellon.bindOk he
    obtain ⟨_, -, he⟩ := Excellon.bindOk he
    cases he
    have := (hs m (first m h1)).1 (by simp [*])
    refine .inl ?_
    unfold holeOf
    split
    · exact le_refl _
    · rw [if_neg (by omega)]
  split at he
  · obtain ⟨m, h1, he⟩ := Excellon.bindOk he
    obtain ⟨_, -, he⟩ := Excellon.bindOk he
    obtain ⟨_, -, he⟩ := Excellon.bindOk he
    cases he
    rw [noHole_solid ((hs m (first m h1)).1 (by simp [*]))]
    exact ⟨le_refl _, .inl (le_refl _)⟩
  split at he
  · obtain ⟨m, h1, he⟩ := Excellon.bindOk he
    obtain ⟨_, -, he⟩ := Excellon.bindOk he
    obtain ⟨_, -, he⟩ := Excellon.bindOk he
    cases he
    rw [noHole_solid ((hs m (first m h1)).1 (by simp [*]))]
    exact ⟨le_refl _, .inl (le_refl _)⟩
  split at he
  · obtain ⟨m, h1, he⟩ := Excellon.bindOk he
    obtain ⟨_, -, he⟩ := Excellon.bindOk he
    obtain ⟨_, -, he⟩ := Excellon.bindOk he
    cases he
    have := (hs m (first m h1)).2 ‹_›
    have e : polyHole m = {} := by
      unfold polyHole
      rw [if_neg (by omega), if_neg (by omega)]
    rw [e]
    exact ⟨le_refl _, .inl (le_refl _)⟩
  split at he
  · cases he
  · rename_i hb
    obtain ⟨m, -, he⟩ := Excellon.bindOk he
    obtain ⟨g, h2, he⟩ := Excellon.bindOk he
    cases he
    obtain ⟨g', h3, h4⟩ := Excellon.bindOk h2
    obtain ⟨_, -, h4⟩ := Excellon.bindOk h4
    cases h4
    exact h.2.2.1 _ _ _ hb m g h3

theorem edge_adds {env : EvalEnv (List AmPrim)} {st : EvalState (List AmPrim)} (h : st.levelPolarity = "dark") (c : Coord)
    (x y : ℚ) (ap : Aperture (List AmPrim)) : (Prim.edge (edgeTo env st c x y ap)).Adds := by
  unfold edgeTo
  split <;> exact h

theorem flash_adds {sh : Shape (List AmPrim)} (h : sh.Solid) (p : Pt) {pol : String} (hp : pol = "dark") (u : String) :
    (Prim.flash sh p pol u).Adds := by
  cases sh with
  | group => exact h
  | _ => exact ⟨hp, h⟩

theorem op_adds {env : EvalEnv (List AmPrim)} {st st' : EvalState (List AmPrim)} (h : AddsOnly st) {c : Coord} {x y : ℚ}
    (he : evalOp env st c x y = .ok st') : AddsOnly st' := by
  obtain ⟨h1, h2, h3, h4⟩ := h
  have snoc : ∀ {Q : Prim (List AmPrim)}, Q.Adds → ∀ P ∈ st.primitives ++ [Q], P.Adds := by
    intro Q hQ P hP
    rcases List.mem_append.mp hP with hP | hP
    · exact h4 P hP
    · exact List.mem_singleton.mp hP ▸ hQ
  unfold evalOp at he
  split at he
  · split at he
    · split at he
      · cases he
      · cases he
        exact ⟨h1, h2, h3, snoc (edge_adds h1 ..)⟩
    · cases he
      exact ⟨h1, h2, h3, h4⟩
  split at he
  · split at he
    · cases he
      refine ⟨h1, h2, h3, ?_⟩
      split
      · split
        · exact snoc h1
        · exact h4
      · exact h4
    · cases he
      exact ⟨h1, h2, h3, h4⟩
  split at he
  · split at he
    · cases he
    · cases he
      exact ⟨h1, h2, h3, snoc (flash_adds (h2 _ _ ‹_›) _ h1 _)⟩
  · cases he
    exact ⟨h1, h2, h3, h4⟩

theorem function_adds {st : EvalState (List AmPrim)} (h : AddsOnly st) (f : Option Str) : AddsOnly (setFunction st f) := by
  unfold setFunction
  split
  · exact h
  split
  · exact h
  split
  · exact h
  · exact h

theorem stmt_adds {center : String → Pt → Pt → Pt → Option Pt} {st st' : EvalState (List AmPrim)} (h : AddsOnly st)
    {s s' : Stmt} (he : evaluate (macroEnv center) st s = .ok (st', s')) (hs : s'.Plain) : AddsOnly st' := by
  cases s with
  | coord c =>
    obtain ⟨⟨st1, c1⟩, h1, he⟩ := Excellon.bindOk he
    cases he
    unfold evalCoord at h1
    simp only at h1
    split at h1
    · cases h1; exact function_adds h _
    · obtain ⟨st2, h2, h1⟩ := Excellon.bindOk h1
      cases h1
      have := op_adds (by split <;> exact function_adds h _) h2
      exact this
  | lp p => cases he; exact ⟨hs, h.2⟩
  | am n b l =>
    cases he
    refine ⟨h.1, h.2.1, fun k b' u hk => ?_, h.2.2.2⟩
    dsimp only at hk
    split at hk
    · cases hk; exact hs
    · exact h.2.2.1 k b' u hk
  | ad d shape mods =>
    obtain ⟨sh, h1, he⟩ := Excellon.bindOk he
    cases he
    refine ⟨h.1, fun k a hk => ?_, h.2.2⟩
    dsimp only at hk
    split at hk
    · cases hk; exact shape_solid h hs h1
    · exact h.2.1 k a hk
  | region m =>
    cases he
    unfold evalRegion
    split
    · refine ⟨h.1, h.2.1, h.2.2.1, fun P hP => ?_⟩
      dsimp only at hP
      split at hP
      · rcases List.mem_append.mp hP with hP | hP
        · exact h.2.2.2 P hP
        · exact List.mem_singleton.mp hP ▸ h.1
      · exact h.2.2.2 P hP
    · exact h
  | _ => cases he; exact h

theorem all_adds {center : String → Pt → Pt → Pt → Option Pt} : ∀ {l : List Stmt} {st st' : EvalState (List AmPrim)}
    {l' : List Stmt}, AddsOnly st → evalAll (macroEnv center) st l = .ok (st', l') → (∀ s ∈ l', s.Plain) → AddsOnly st'
  | [], _, _, _, h, he, _ => by cases he; exact h
  | s :: l, st, st', l', h, he, hp => by
    obtain ⟨⟨st1, s1⟩, h1, he⟩ := Excellon.bindOk he
    obtain ⟨⟨st2, l2⟩, h2, he⟩ := Excellon.bindOk he
    cases he
    exact all_adds (stmt_adds h h1 (hp s1 (by simp))) h2 fun s hs => hp s (by simp [hs])

/-- **C79 from the text of Gerber files** in which nothing removes anything: the inverted picture is the negative. -/
theorem C79_text_partial (K : Engine) {center : String → Pt → Pt → Pt → Option Pt} {fs : Str → Option Str} {data : Str}
    {f : GerberFile (List AmPrim)} (h : loads (macroEnv center) fs data = .ok f) (hp : ∀ s ∈ f.statements, s.Plain)
    (c : Cairo.Ctx) : NegativeOf (Am.render K f c false) (Am.render K f c true) := by
  apply C79_gerber_partial
  obtain ⟨⟨stmts, settings⟩, -, h⟩ := Excellon.bindOk h
  obtain ⟨⟨st, out⟩, h1, h⟩ := Excellon.bindOk h
  cases h
  have h0 : AddsOnly initState := ⟨rfl, (fun _ _ h => by cases h), (fun _ _ _ h => by cases h), (fun _ h => by cases h)⟩
  exact (all_adds h0 h1 hp).2.2.2

/-! ## Examples and violations -/

theorem render_inverted_of {G : Type} {K : Engine} (parts : G → Pt → PyR (List (Bool × Cairo.Shape))) {f : GerberFile G}
    {prims : List Cairo.Prim} {b : Box} {s : ℝ} {area : Set RPt} (h1 : f.primitives.mapM (Prim.drawn parts) = .ok prims)
    (h2 : boxAround prims = .ok b) (h3 : K.layer (Frame.of s b) true false prims = .ok area) :
    f.render K parts { scale := s } true = .ok
      { scale := s, frame := some (Frame.of s b), hasBg := true,
        paints := [.background [0, 0, 0] 1, .layer [7215 / 10000, 451 / 1000, 200 / 1000] 1 area] } := by
  simp only [GerberFile.render, h1, bind, Except.bind, Ctx.renderFile, h2, Ctx.setBounds, Ctx.paintBackground,
    Ctx.paintLayer, Option.getD_none, Bool.false_eq_true, if_false, h3]
  rfl

/-- A dot that is a macro, and a line. -/
def spotFile : List String := ["%FSLAX24Y24*%", "%MOIN*%", "%AMDOT*1,1,$1,0,0*%", "%ADD10DOT,2*%", "%ADD11C,2X1*%", "D10*",
  "X0Y0D03*", "D11*", "X100000Y0D02*", "X110000D01*", "M02*"]

theorem spot_primitives : ∃ f, readMacros spotFile = .ok f ∧ f.primitives =
    [.flash (.group [.circle true 2 (0, 0)]) (0, 0) "dark" "inch",
     .edge (.line (10, 0) (11, 0) ⟨.circle 2 { diameter := 1 }, some "inch"⟩ "dark" "inch")] := by
  refine readMacros_one (b := "1,1,$1,0,0".toList) (ms := [[2], [2, 1]]) (g := [.circle true 2 (0, 0)])
    ⟨_, _, rfl, ?_, ?_⟩ ?_ ⟨_, rfl⟩ ?_
  · decide +kernel
  · decide +kernel
  · intro m hm
    simp only [List.mem_cons, List.not_mem_nil, or_false] at hm
    rcases hm with rfl | rfl <;> decide +kernel
  · decide +kernel

example : ∃ f, readMacros spotFile = .ok f ∧ f.primitives ≠ [] ∧ ∀ P ∈ f.primitives, P.Adds := by
  obtain ⟨f, h1, h2⟩ := spot_primitives
  refine ⟨f, h1, by simp [h2], ?_⟩
  rw [h2]
  simp [Prim.Adds, Shape.Solid]

/-- Such statements, if they are no macros. -/
def plainStmt : Stmt → Bool
  | .lp p => p = "dark"
  | .ad _ shape mods => mods.all fun m =>
    (!([['C'], ['R'], ['O']].contains shape) || m.length ≤ 2) && (shape ≠ ['P'] || m.length ≤ 3)
  | .am .. => false
  | _ => true

theorem plainStmt_plain {s : Stmt} (h : plainStmt s = true) : s.Plain := by
  cases s with
  | am => cases h
  | lp p => simpa [plainStmt, Stmt.Plain] using h
  | ad d shape mods =>
    intro m hm
    have := List.all_eq_true.mp h m hm
    simp only [Bool.and_eq_true, Bool.or_eq_true, Bool.not_eq_true', decide_eq_true_eq, List.contains_eq_mem,
      decide_eq_false_iff_not] at this
    exact ⟨fun hc => this.1.resolve_left (not_not.mpr hc), fun hc => this.2.resolve_left (not_not.mpr hc)⟩
  | _ => trivial

/-- A file in which nothing removes anything. -/
def plainFile : List String := ["%FSLAX24Y24*%", "%MOIN*%", "%LPD*%", "%ADD10R,2X3*%", "%ADD11C,2X1*%", "%ADD12P,2X6X30*%",
  "D10*", "X0Y0D03*", "D11*", "X100000Y0D02*", "X110000D01*", "D12*", "X0Y50000D03*", "M02*"]

-- the hypotheses of the theorem about texts
example : ∃ f, readMacros plainFile = .ok f ∧ f.primitives.length = 3 ∧ ∀ s ∈ f.statements, s.Plain := by
  obtain ⟨f, h1, h2, h3⟩ : ∃ f, loads (bareEnv fun _ _ _ _ => none) (fun _ => none) (gerberText plainFile) = .ok f ∧
      f.primitives.length = 3 ∧ ∀ s ∈ f.statements, plainStmt s = true := by
    refine ⟨_, rfl, ?_, ?_⟩ <;> decide +kernel
  obtain ⟨stmts, settings, p1, p2⟩ : ∃ stmts settings, parseText (fun _ => none) (gerberText plainFile) =
      .ok (stmts, settings) ∧ macroTexts stmts = [] := ⟨_, _, rfl, by decide +kernel⟩
  refine ⟨f, loads_macros p1 h1 ?_, h2, fun s hs => plainStmt_plain (h3 s hs)⟩
  rw [p2]
  simp

/-- **C79 fails** for clear primitives: the hole that a clear flash makes is painted in neither picture. -/
theorem C79_clear_violated (K : Engine) (parts : Unit → Pt → PyR (List (Bool × Cairo.Shape))) :
    ∃ f b area other, readLines ["%FSLAX24Y24*%", "%MOIN*%", "%ADD10C,4*%", "%ADD11C,2*%", "D10*", "X0Y0D03*",
        "%LPC*%", "D11*", "X0Y0D03*", "M02*"] = .ok f ∧
      f.render K parts = .ok
        { frame := some (Frame.of 300 b), hasBg := true,
          paints := [.background [0, 0, 0] 1, .layer [7215 / 10000, 451 / 1000, 200 / 1000] 1 area] } ∧
      f.render K parts {} true = .ok
        { frame := some (Frame.of 300 b), hasBg := true,
          paints := [.background [0, 0, 0] 1, .layer [7215 / 10000, 451 / 1000, 200 / 1000] 1 other] } ∧
      onPicture b 300 false (0, 0) ∉ area ∧ onPicture b 300 false (0, 0) ∉ other ∧
      ¬ NegativeOf (f.render K parts) (f.render K parts {} true) := by
  obtain ⟨f, h1, h2⟩ : ∃ f, readLines ["%FSLAX24Y24*%", "%MOIN*%", "%ADD10C,4*%", "%ADD11C,2*%", "D10*", "X0Y0D03*",
      "%LPC*%", "D11*", "X0Y0D03*", "M02*"] = .ok f ∧ f.primitives = [.flash (.circle 4 {}) (0, 0) "dark" "inch",
        .flash (.circle 2 {}) (0, 0) "clear" "inch"] := by
    refine ⟨_, rfl, ?_⟩
    decide +kernel
  have hs : (0 : ℝ) < 300 := by norm_num
  have ho : Ordered (((-2, 2), (-2, 2)) : Box) := by norm_num [Ordered]
  have hm : ∀ (dark invert : Bool) (d : ℝ), K.mask 300 dark invert (.circle (0, 0) d 0 {}) =
      .ok (inPixels 300 (placed (0, 0) 0 (disc (d / 2)))) := by
    intro dark invert d
    obtain ⟨M, m1, m2⟩ := C68_circle K hs dark invert (0, 0) d 0 0
    rw [if_neg (lt_irrefl _)] at m2
    rw [m1, m2]
  obtain ⟨b1, c1, -, c2, c3⟩ := C66_box_circle (0, 0) (d := 4) (by norm_num) 0 {}
  obtain ⟨b2, e1, -, e2, e3⟩ := C66_box_circle (0, 0) (d := 2) (by norm_num) 0 {}
  obtain rfl : (((-2, 2), (-2, 2)) : Box) = b1 := by
    simp only [Cairo.Shape.box] at c1
    injection c1 with c1
    rw [← c1]
    norm_num [around]
  obtain rfl : (((-1, 1), (-1, 1)) : Box) = b2 := by
    simp only [Cairo.Shape.box] at e1
    injection e1 with e1
    rw [← e1]
    norm_num [around]
  have hz : ∀ (invert : Bool) (D2 : Set RPt), (∀ q, q ∈ D2 ↔ ∃ p ∈ placed (0, 0) 0 (disc (2 / 2)), 300 * p.2 - (((-2, 2), (-2, 2)) : Box).2.1 * 300 ≤
      ⌊300 * (((-1, 1), (-1, 1)) : Box).2.2 - ⌊(((-2, 2), (-2, 2)) : Box).2.1 * 300⌋⌋ ∧
        q = onPicture ((-2, 2), (-2, 2)) 300 invert p) → onPicture ((-2, 2), (-2, 2)) 300 invert (0, 0) ∈ D2 := by
    intro invert D2 g2
    rw [g2]
    refine ⟨(0, 0), ?_, ?_, rfl⟩
    · rw [placed_zero]
      norm_num [disc]
    · have : ⌊(300 : ℝ) * 1 - ((⌊(-2 : ℝ) * 300⌋ : ℤ) : ℝ)⌋ = 900 := by
        have h : ⌊(-2 : ℝ) * 300⌋ = -600 := by rw [Int.floor_eq_iff]; norm_num
        rw [h, Int.floor_eq_iff]; norm_num
      simp only
      rw [this]
      norm_num
  have hd : f.primitives.mapM (Prim.drawn parts) = .ok [.shape true (.circle (0, 0) 4 0 {}),
      .shape false (.circle (0, 0) 2 0 {})] := by
    rw [h2]
    simp [Prim.drawn, Pt.real, Hole.real, bind, Except.bind, pure, Except.pure]
  have hb : boxAround [.shape true (.circle (0, 0) 4 0 {}), .shape false (.circle (0, 0) 2 0 {})] =
      .ok ((-2, 2), (-2, 2)) := by
    rw [box_two c1 e1 (by norm_num)]
    norm_num [widen]
  obtain ⟨D1, d1, -⟩ := C66_covered (mirror := false) ho hs c1 c2 (hm true false 4) c3
  obtain ⟨D2, g1, g2⟩ := C66_covered (mirror := false) ho hs e1 e2 (hm false false 2) e3
  obtain ⟨E1, k1, -⟩ := C66_covered (mirror := false) ho hs c1 c2 (hm true true 4) c3
  obtain ⟨E2, l1, l2⟩ := C66_covered (mirror := false) ho hs e1 e2 (hm false true 2) e3
  have r1 := render_of parts (area := D1 \ D2) hd hb (s := 300) (K := K) (by
    simp only [Engine.layer, List.flatMap_cons, List.flatMap_nil, Frame.shapes, List.append_nil, List.foldlM_cons,
      List.foldlM_nil, Engine.draw, d1, g1, bind, Except.bind, List.cons_append, List.nil_append]
    simp
    rfl)
  have r2 := render_inverted_of parts (area := (Set.univ \ E1) \ E2) hd hb (s := 300) (K := K) (by
    simp only [Engine.layer, List.flatMap_cons, List.flatMap_nil, Frame.shapes, List.append_nil, List.foldlM_cons,
      List.foldlM_nil, Engine.draw, k1, l1, bind, Except.bind, List.cons_append, List.nil_append]
    simp
    rfl)
  have n1 : onPicture ((-2, 2), (-2, 2)) 300 false (0, 0) ∉ D1 \ D2 := fun h => h.2 (hz _ _ g2)
  have n2 : onPicture ((-2, 2), (-2, 2)) 300 false (0, 0) ∉ (Set.univ \ E1) \ E2 := fun h => h.2 (hz _ _ l2)
  refine ⟨f, _, _, _, h1, r1, r2, n1, n2, ?_⟩
  have r1' : f.render K parts = _ := r1
  have r2' : f.render K parts {} true = _ := r2
  rw [r1', r2']
  rintro ⟨-, -, -, -, l, c, a, A, p1, p2⟩
  obtain ⟨-, q1⟩ := List.append_inj' (s₁ := [_]) p1 rfl
  obtain ⟨-, q2⟩ := List.append_inj' (s₁ := [_]) p2 rfl
  simp only [List.cons.injEq, Paint.layer.injEq, and_true] at q1 q2
  rw [q1.2.2] at n1
  rw [q2.2.2] at n2
  exact n2 n1

/-- **C79 fails** for holes of rectangles: they are painted in neither picture. -/
theorem C79_hole_violated (K : Engine) (parts : Unit → Pt → PyR (List (Bool × Cairo.Shape))) :
    ∃ f b area other, readLines ["%FSLAX24Y24*%", "%MOIN*%", "%ADD10R,2X2X1*%", "D10*", "X0Y0D03*", "M02*"] = .ok f ∧
      f.render K parts = .ok
        { frame := some (Frame.of 300 b), hasBg := true,
          paints := [.background [0, 0, 0] 1, .layer [7215 / 10000, 451 / 1000, 200 / 1000] 1 area] } ∧
      f.render K parts {} true = .ok
        { frame := some (Frame.of 300 b), hasBg := true,
          paints := [.background [0, 0, 0] 1, .layer [7215 / 10000, 451 / 1000, 200 / 1000] 1 other] } ∧
      onPicture b 300 false (0, 0) ∉ area ∧ onPicture b 300 false (0, 0) ∉ other := by
  obtain ⟨f, h1, h2⟩ : ∃ f, readLines ["%FSLAX24Y24*%", "%MOIN*%", "%ADD10R,2X2X1*%", "D10*", "X0Y0D03*", "M02*"] =
      .ok f ∧ f.primitives = [.flash (.rect 2 2 { diameter := 1 }) (0, 0) "dark" "inch"] := by
    refine ⟨_, rfl, ?_⟩
    decide +kernel
  have hs : (0 : ℝ) < 300 := by norm_num
  obtain ⟨b, e1, -, ho, e3, -⟩ := C66_box_rectangle (0, 0) (w := 2) (h := 2) (by norm_num) (by norm_num)
    { diameter := 1 }
  obtain rfl : (((-1, 1), (-1, 1)) : Box) = b := by
    simp only [Cairo.Shape.box, (axis_zero 2 2).1, (axis_zero 2 2).2] at e1
    injection e1 with e1
    rw [← e1]
    norm_num [around]
  have m2 := C68_hole_violated K hs (dark := true) (invert := true) (.inr rfl) (0, 0) (w := 2) (h' := 2) (hd := 1)
    (by norm_num) (by norm_num) (by norm_num)
  have m2' : inPixels 300 (placed (0, 0) 0 (slab 2 2)) ∪ inPixels 300 (placed (0, 0) 0 (disc (1 / 2))) =
      inPixels 300 (placed (0, 0) 0 (slab 2 2)) := by
    apply Set.union_eq_left.mpr
    intro q hq
    rw [mem_inPixels hs, placed_zero] at hq ⊢
    simp only [disc, slab, Set.mem_ofPred_eq, sub_zero] at hq ⊢
    constructor <;> apply abs_le.mpr <;> constructor <;> nlinarith [sq_nonneg (q.1 / 300), sq_nonneg (q.2 / 300)]
  rw [m2'] at m2
  obtain ⟨M, m1, m1'⟩ : ∃ M, K.mask 300 true false (.rectangle (0, 0) 2 2 0 { diameter := 1 }) = .ok M ∧
      ((0, 0) : RPt) ∉ M := by
    simp only [Engine.mask, Engine.holes, (axis_zero 2 2).1, (axis_zero 2 2).2, lt_irrefl, false_and, if_false,
      if_pos one_pos, Bool.not_false, Bool.and_self, if_true]
    refine ⟨_, rfl, fun h => h.2 ?_⟩
    norm_num [discAt, scalePoint]
  obtain ⟨E, k1, k2⟩ := C66_covered (mirror := false) ho hs e1 ho m2 e3
  obtain ⟨D, d1⟩ : ∃ D, K.covered (Frame.of 300 ((-1, 1), (-1, 1))) false false true
      (.rectangle (0, 0) 2 2 0 { diameter := 1 }) = .ok D := by
    have m1' : K.mask (Frame.of 300 ((-1, 1), (-1, 1))).scale true false (.rectangle (0, 0) 2 2 0 { diameter := 1 }) =
      .ok M := m1
    simp only [Engine.covered, e1, m1', bind, Except.bind]
    exact ⟨_, rfl⟩
  have hd : f.primitives.mapM (Prim.drawn parts) = .ok [.shape true (.rectangle (0, 0) 2 2 0 { diameter := 1 })] := by
    rw [h2]
    simp [Prim.drawn, Pt.real, Hole.real, bind, Except.bind, pure, Except.pure]
  have hb := box_one (d := true) e1 (by norm_num)
  refine ⟨f, _, D, Set.univ \ E, h1, render_of parts hd hb (by
    simp only [Engine.layer, List.flatMap_cons, List.flatMap_nil, Frame.shapes, List.append_nil, List.foldlM_cons,
      List.foldlM_nil, Engine.draw, d1, bind, Except.bind]
    simp
    rfl), render_inverted_of parts hd hb (by
    simp only [Engine.layer, List.flatMap_cons, List.flatMap_nil, Frame.shapes, List.append_nil, List.foldlM_cons,
      List.foldlM_nil, Engine.draw, k1, bind, Except.bind]
    simp
    rfl), fun h => m1' ?_, fun h => h.2 ?_⟩
  · have := covered_sub ho hs m1 d1 h
    simpa [scalePoint] using this
  · rw [k2]
    refine ⟨(0, 0), ?_, ?_, rfl⟩
    · rw [placed_zero]
      norm_num [slab]
    · have : ⌊(300 : ℝ) * 1 - ((⌊(-1 : ℝ) * 300⌋ : ℤ) : ℝ)⌋ = 600 := by
        have h : ⌊(-1 : ℝ) * 300⌋ = -300 := by rw [Int.floor_eq_iff]; norm_num
        rw [h, Int.floor_eq_iff]; norm_num
      simp only
      rw [this]
      norm_num

end Verif.Gerber
