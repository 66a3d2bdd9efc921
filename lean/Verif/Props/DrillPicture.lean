import Verif.Model.DrillPicture
import Verif.Spec.DrillPicture
import Verif.Props.CairoArea
import Verif.Props.CairoLayer
import Verif.Props.CairoFrame
import Verif.Props.ExcellonEdit
import Verif.Props.ToolUse

/-! # Pictures of drill files (C74) -/

namespace Verif.Excellon
open Verif.Py Verif.Cam Verif.Excellon.Spec Verif.Cairo Verif.Geom Verif.Render

/-- A box with real limits. -/
noncomputable def realBox (b : (ℚ × ℚ) × (ℚ × ℚ)) : Geom.Box := (((b.1.1 : ℝ), (b.1.2 : ℝ)), ((b.2.1 : ℝ), (b.2.2 : ℝ)))

theorem ordered_real (b : (ℚ × ℚ) × (ℚ × ℚ)) : Ordered (realBox b) ↔ b.1.1 ≤ b.1.2 ∧ b.2.1 ≤ b.2.2 := by
  simp [Ordered, realBox]

theorem flat_shapes (f : Frame) (shs : List Shape) :
    (shs.map (Prim.shape true)).flatMap f.shapes = shs.map fun sh => (true, sh) := by
  induction shs with
  | nil => rfl
  | cons a l ih => simp only [List.map_cons, List.flatMap_cons, ih]; rfl

/-- What a hit becomes on a picture. -/
theorem hit_drawn {heap : List Tool} {x : Hit} {b : (ℚ × ℚ) × (ℚ × ℚ)} (hb : hitBox heap x = .ok b) {d : ℚ}
    (hd : x.diameter heap = some d) (h0 : 0 < d) :
    ∃ sh, hitPrim heap x = .ok (.shape true sh) ∧ sh.box = .ok (realBox b) ∧ Ordered (realBox b) ∧
      (realBox b).2.2 = x.feature.top d ∧
      (∀ p ∈ x.feature.area d, (realBox b).Holds p) ∧
      ∀ (K : Engine) (s : ℝ) (dark invert : Bool), 0 < s →
        K.mask s dark invert sh = .ok (inPixels s (x.feature.area d)) := by
  have h0' : (0 : ℝ) < d := by exact_mod_cast h0
  unfold hitBox at hb
  obtain ⟨r, h1, hb⟩ := bindOk hb
  have h2 := hitRadius_ok h1
  rw [hd] at h2
  have h3 : r = d / 2 := by cases h2; ring
  have hp : ∀ sh, (∀ r' t, x.tool = some r' → pyIdx heap r' = .ok t → t.diameter = some d →
      hitPrim heap x = .ok (.shape true sh)) → hitPrim heap x = .ok (.shape true sh) := by
    intro sh h
    unfold Hit.diameter at hd
    cases ht : x.tool with
    | none => simp [ht] at hd
    | some i =>
      cases hh : heap[i]? with
      | none => simp [ht, hh] at hd
      | some t =>
        refine h i t ht ?_ (by simpa [ht, hh] using hd)
        simp [pyIdx, hh]
  rcases x with ⟨t, p⟩ | ⟨t, ⟨x | x, y | y⟩, ⟨z | z, w | w⟩, k⟩ <;> cases hb
  · have ha : (Hit.hole t p).feature.area d = placed ((p.1 : ℝ), (p.2 : ℝ)) 0 (disc ((d : ℝ) / 2)) := by
      ext q
      rw [placed_zero]
      rfl
    have hbox : realBox ((p.1 - r, p.1 + r), (p.2 - r, p.2 + r)) =
        around ((p.1 : ℝ), (p.2 : ℝ)) ((d : ℝ) / 2) ((d : ℝ) / 2) := by
      simp [realBox, around, h3]
    obtain ⟨o1, o2⟩ := box_disc ((p.1 : ℝ), (p.2 : ℝ)) (show (0 : ℝ) ≤ (d : ℝ) / 2 by linarith)
    refine ⟨.drill ((p.1 : ℝ), (p.2 : ℝ)) d, hp _ ?_, ?_, ?_, ?_, ?_, ?_⟩
    · intro r' t' e1 e2 e3
      simp [hitPrim, e1, e2, e3, bind, Except.bind]
    · rw [hbox]; rfl
    · rw [hbox]; exact o1
    · rw [hbox]; simp [around, Hit.feature, Feature.top]
    · rw [hbox, ha]; exact o2
    · intro K s dark invert hs
      rw [ha]
      exact C68_drill K hs dark invert _ _
  · have ha : (Hit.slot t (some x, some y) (some z, some w) k).feature.area d =
        swept (straight ((x : ℝ), (y : ℝ)) ((z : ℝ), (w : ℝ))) (disc ((d : ℝ) / 2)) := by
      ext q
      constructor
      · rintro ⟨u, u0, u1, h⟩
        exact ⟨_, ⟨u, u0, u1, rfl⟩, (q.1 - (x + u * (z - x)), q.2 - (y + u * (w - y))), h, by ext <;> simp⟩
      · rintro ⟨_, ⟨u, u0, u1, rfl⟩, v, hv, rfl⟩
        refine ⟨u, u0, u1, ?_⟩
        simpa [disc] using hv
    have hbox : Shape.box (.slot ((x : ℝ), (y : ℝ)) ((z : ℝ), (w : ℝ)) d) =
        .ok (realBox ((min x z - r, max x z + r), (min y w - r, max y w + r))) := by
      simp [realBox, Shape.box, segBox, Box.grow, h3]
    obtain ⟨b, o1, _, o2, o3⟩ := C66_box_line ((x : ℝ), (y : ℝ)) ((z : ℝ), (w : ℝ)) h0'.le
    rw [hbox] at o1
    cases o1
    refine ⟨.slot ((x : ℝ), (y : ℝ)) ((z : ℝ), (w : ℝ)) d, hp _ ?_, hbox, o2, ?_, ?_, ?_⟩
    · intro r' t' e1 e2 e3
      simp [hitPrim, e1, e2, e3, bind, Except.bind]
    · simp [realBox, Hit.feature, Feature.top, h3]
    · rw [ha]; exact o3
    · intro K s dark invert hs
      rw [ha]
      exact C68_slot K hs dark invert _ _ h0'

/-- A picture is drawn if all of its parts can be. -/
theorem draw_all {K : Engine} {f : Frame} {invert mirror : Bool} (xs : List (Bool × Shape)) : ∀ (P : Set RPt),
    (∀ x ∈ xs, ∃ D, K.covered f invert mirror x.1 x.2 = .ok D) → ∃ Q, xs.foldlM (K.draw f invert mirror) P = .ok Q := by
  induction xs with
  | nil => intro P _; exact ⟨P, rfl⟩
  | cons x xs ih =>
    intro P h
    obtain ⟨D, hD⟩ := h x (by simp)
    obtain ⟨Q, hQ⟩ := ih (if !invert && x.1 then P ∪ D else P \ D) (fun y hy => h y (by simp [hy]))
    refine ⟨Q, ?_⟩
    rw [List.foldlM_cons]
    simp only [Engine.draw, hD, bind, Except.bind] at hQ ⊢
    exact hQ

/-- The shapes of a file, one for each hit. -/
theorem prims_drawn {heap : List Tool} {hits : List Hit} (hb : ∀ x ∈ hits, ∃ b, hitBox heap x = .ok b)
    (h0 : ∀ x ∈ hits, ∀ d, x.diameter heap = some d → 0 < d) :
    ∃ shs, hits.mapM (hitPrim heap) = .ok (shs.map (Prim.shape true)) ∧
      List.Forall₂ (fun x sh => ∃ b d, hitBox heap x = .ok b ∧ x.diameter heap = some d ∧
        sh.box = .ok (realBox b) ∧ Ordered (realBox b) ∧ (realBox b).2.2 = x.feature.top d ∧
        (∀ p ∈ x.feature.area d, (realBox b).Holds p) ∧
        ∀ (K : Engine) (s : ℝ) (dark invert : Bool), 0 < s →
          K.mask s dark invert sh = .ok (inPixels s (x.feature.area d))) hits shs := by
  induction hits with
  | nil => exact ⟨[], rfl, .nil⟩
  | cons x l ih =>
    obtain ⟨b, hx⟩ := hb x (by simp)
    obtain ⟨d, hd⟩ := hitBox_diameter hx
    obtain ⟨sh, e1, e2, e3, e4, e5, e6⟩ := hit_drawn hx hd (h0 x (by simp) d hd)
    obtain ⟨shs, k1, k2⟩ := ih (fun y hy => hb y (by simp [hy])) (fun y hy => h0 y (by simp [hy]))
    refine ⟨sh :: shs, ?_, .cons ⟨b, d, hx, hd, e2, e3, e4, e5, e6⟩ k2⟩
    rw [List.mapM_cons, e1, k1]
    rfl

/-- The painted points of a picture of dark shapes only. -/
theorem lastDark_all {As : List (Bool × Set RPt)} (h : ∀ a ∈ As, a.1 = true) (p : RPt) :
    LastDark As p ↔ ∃ a ∈ As, p ∈ a.2 := by
  induction As using List.reverseRecOn with
  | nil =>
    simp only [List.not_mem_nil, false_and, exists_false, iff_false]
    rintro ⟨b, A, c, h, -⟩
    simp at h
  | append_singleton As a ih =>
    rw [lastDark_concat, ih (fun x hx => h x (by simp [hx]))]
    have := h a (by simp)
    constructor
    · rintro (⟨h1, -⟩ | ⟨-, x, hx, hp⟩)
      · exact ⟨a, by simp, h1⟩
      · exact ⟨x, by simp [hx], hp⟩
    · rintro ⟨x, hx, hp⟩
      by_cases ha : p ∈ a.2
      · exact .inl ⟨ha, this⟩
      · rw [List.mem_append, List.mem_singleton] at hx
        rcases hx with hx | rfl
        · exact .inr ⟨ha, x, hx, hp⟩
        · exact absurd hp ha

/-- The box of a file with hits of positive size has its limits in order. -/
theorem box_ordered {f : XFile} {b : (ℚ × ℚ) × (ℚ × ℚ)} (hb : f.boundingBox = .ok b) (hne : f.hits ≠ [])
    (h0 : ∀ x ∈ f.hits, ∀ d, x.diameter f.heap = some d → 0 < d) :
    Ordered (realBox b) ∧ ∀ x ∈ f.hits, ∃ c, hitBox f.heap x = .ok c ∧
      ((b.1.1 ≤ c.1.1 ∧ c.1.2 ≤ b.1.2) ∧ b.2.1 ≤ c.2.1 ∧ c.2.2 ≤ b.2.2) := by
  obtain ⟨bs, h1, rfl⟩ := box_fold hb
  have hin : ∀ x ∈ f.hits, ∃ c, hitBox f.heap x = .ok c ∧ (((bs.foldl joinBox
      ((100000000000, -100000000000), (100000000000, -100000000000))).1.1 ≤ c.1.1 ∧ c.1.2 ≤ (bs.foldl joinBox
      ((100000000000, -100000000000), (100000000000, -100000000000))).1.2) ∧ (bs.foldl joinBox
      ((100000000000, -100000000000), (100000000000, -100000000000))).2.1 ≤ c.2.1 ∧ c.2.2 ≤ (bs.foldl joinBox
      ((100000000000, -100000000000), (100000000000, -100000000000))).2.2) := by
    intro x hx
    obtain ⟨c, hc, hb⟩ := forall₂_left h1 hx
    obtain ⟨c1, c2, c3, c4⟩ := (join_fold bs ((100000000000, -100000000000), (100000000000, -100000000000))).2.1 c hc
    exact ⟨c, hb, ⟨c1, c2⟩, c3, c4⟩
  refine ⟨?_, hin⟩
  obtain ⟨x, hx⟩ := List.exists_mem_of_ne_nil _ hne
  obtain ⟨c, hc, ⟨c1, c2⟩, c3, c4⟩ := hin x hx
  obtain ⟨d, hd⟩ := hitBox_diameter hc
  obtain ⟨_, _, _, ⟨o1, o2⟩, _⟩ := hit_drawn hc hd (h0 x hx d hd)
  obtain ⟨o1', o2'⟩ := (ordered_real c).mp ⟨o1, o2⟩
  exact (ordered_real _).mpr ⟨(c1.trans o1').trans c2, (c3.trans o2').trans c4⟩

/-- **C74.** The picture of a drill file with hits that has a bounding box (tools with positive diameters) has a black
background and one layer, and its size is that of the bounding box at the scale of the context.  The painted points
are exactly the points of the picture where drilling with the tools of the hits removes something, except the points
above the last whole row of pixels below the top of the hit. -/
theorem C74_picture_partial (K : Engine) {f : XFile} {b : (ℚ × ℚ) × (ℚ × ℚ)} (hb : f.boundingBox = .ok b)
    (hne : f.hits ≠ []) (h0 : ∀ x ∈ f.hits, ∀ d, x.diameter f.heap = some d → 0 < d) {s : ℝ} (hs : 0 < s) :
    ∃ (area : Set RPt), f.render K { scale := s } = .ok
        { scale := s, frame := some (Frame.of s (realBox b)), hasBg := true, count := 0,
          paints := [.background [0, 0, 0] 1, .layer [7215 / 10000, 451 / 1000, 200 / 1000] 1 area] } ∧
      ∀ q, q ∈ area ↔ ∃ x ∈ f.hits, ∃ d, x.diameter f.heap = some d ∧ ∃ p ∈ x.feature.area d,
        s * p.2 - b.2.1 * s ≤ ⌊s * x.feature.top d - ⌊(b.2.1 : ℝ) * s⌋⌋ ∧ q = onPicture (realBox b) s false p := by
  obtain ⟨ho, hbox⟩ := box_ordered hb hne h0
  obtain ⟨shs, e1, e2⟩ := prims_drawn (fun x hx => (hbox x hx).imp fun c h => h.1) h0
  have hflat : (shs.map (Prim.shape true)).flatMap (Frame.of s (realBox b)).shapes = shs.map fun sh => (true, sh) :=
    flat_shapes _ _
  have hcov : ∀ x sh, (∃ c d, hitBox f.heap x = .ok c ∧ x.diameter f.heap = some d ∧
        sh.box = .ok (realBox c) ∧ Ordered (realBox c) ∧ (realBox c).2.2 = x.feature.top d ∧
        (∀ p ∈ x.feature.area d, (realBox c).Holds p) ∧
        ∀ (K : Engine) (s : ℝ) (dark invert : Bool), 0 < s →
          K.mask s dark invert sh = .ok (inPixels s (x.feature.area d))) →
      ∃ d D, x.diameter f.heap = some d ∧ K.covered (Frame.of s (realBox b)) false false true sh = .ok D ∧
        ∀ q, q ∈ D ↔ ∃ p ∈ x.feature.area d, s * p.2 - b.2.1 * s ≤ ⌊s * x.feature.top d - ⌊(b.2.1 : ℝ) * s⌋⌋ ∧
          q = onPicture (realBox b) s false p := by
    rintro x sh ⟨c, d, k1, k2, k3, k4, k5, k6, k7⟩
    obtain ⟨D, hD, hq⟩ := C66_covered ho hs (mirror := false) k3 k4 (k7 K s true false hs) k6
    rw [k5] at hq
    exact ⟨d, D, k2, hD, hq⟩
  obtain ⟨P, hP⟩ : ∃ P, K.layer (Frame.of s (realBox b)) false false (shs.map (Prim.shape true)) = .ok P := by
    unfold Engine.layer
    rw [hflat]
    refine draw_all _ _ fun y hy => ?_
    obtain ⟨sh, hsh, rfl⟩ := List.mem_map.mp hy
    obtain ⟨x, hx, h⟩ := forall₂_right e2 hsh
    obtain ⟨d, D, -, hD, -⟩ := hcov x sh h
    exact ⟨D, hD⟩
  refine ⟨P, ?_, ?_⟩
  · have hr : f.primitives = .ok (shs.map (Prim.shape true)) := e1
    simp only [XFile.render, Ctx.renderFile, hb, hr, Except.map, bind, Except.bind, Ctx.setBounds, Ctx.paintBackground,
      Ctx.paintLayer, Option.getD_none, Bool.false_eq_true, if_false]
    have : Frame.of s (((b.1.1 : ℝ), (b.1.2 : ℝ)), ((b.2.1 : ℝ), (b.2.2 : ℝ))) = Frame.of s (realBox b) := rfl
    rw [this, hP]
    rfl
  · obtain ⟨As, h1, h2⟩ := C67_painted hP
    rw [hflat] at h1
    have hdark : ∀ a ∈ As, a.1 = true := by
      intro a ha
      obtain ⟨y, hy, h, -⟩ := forall₂_right h1 ha
      obtain ⟨sh, -, rfl⟩ := List.mem_map.mp hy
      exact h
    intro q
    rw [h2, lastDark_all hdark]
    constructor
    · rintro ⟨a, ha, hq⟩
      obtain ⟨y, hy, -, hc⟩ := forall₂_right h1 ha
      obtain ⟨sh, hsh, rfl⟩ := List.mem_map.mp hy
      obtain ⟨x, hx, h⟩ := forall₂_right e2 hsh
      obtain ⟨d, D, hd, hD, hD'⟩ := hcov x sh h
      rw [hD] at hc
      cases hc
      exact ⟨x, hx, d, hd, (hD' q).mp hq⟩
    · rintro ⟨x, hx, d, hd, hp⟩
      obtain ⟨sh, hsh, h⟩ := forall₂_left e2 hx
      obtain ⟨d', D, hd', hD, hD'⟩ := hcov x sh h
      rw [hd] at hd'
      cases hd'
      obtain ⟨a, ha, -, hc⟩ := forall₂_left h1 (List.mem_map.mpr ⟨sh, hsh, rfl⟩)
      rw [hD] at hc
      injection hc with hc
      exact ⟨a, ha, by rw [← hc]; exact (hD' q).mpr hp⟩

/-- What a program makes, with the tools it uses (`Spec.Mach`, `Spec.Rack`). -/
def madeWith (settings : Option FileSettings) (ext : List (ℤ × Tool)) (f : XFile) : List (Feature × Option ℕ) :=
  ((Mach.start (startsIncremental settings)).all (f.statements.map (·.kind))).zip
    (Rack.used (numbers f.heap) (Mach.start (startsIncremental settings)) (Rack.start ext)
      (f.statements.map (·.kind)))

theorem hits_madeWith {settings : Option FileSettings} {ext : List (ℤ × Tool)} {data : Str} {f : XFile}
    (h : parseRaw settings ext data = .ok f) (hits : ∀ x ∈ f.hits, x.tool ≠ none)
    (next : ∀ k ∈ f.statements.map (·.kind), noNext k = false) :
    f.hits.map (fun x => (x.feature, x.tool)) = madeWith settings ext f := by
  unfold madeWith
  rw [← C73_tools_follow_statements_partial h hits next, ← C24_holes_follow_statements h]
  induction f.hits with
  | nil => rfl
  | cons a l ih => simp [ih]

/-- **C74, from the text.** For every text of a drill file that can be read, has something to drill, and whose picture
has a bounding box (all tools with positive diameters, every `M00` with a next tool): the picture is drawn, its painted
points are points of the picture, and they are exactly the points removed by the features that a machine with a rack
of tools makes from the statements of the file, except the points above the last whole row of pixels below the top of
the feature. -/
theorem C74_text_partial (K : Engine) {settings : Option FileSettings} {ext : List (ℤ × Tool)} {data : Str} {f : XFile}
    (h : parseRaw settings ext data = .ok f) (next : ∀ k ∈ f.statements.map (·.kind), noNext k = false)
    {b : (ℚ × ℚ) × (ℚ × ℚ)} (hb : f.boundingBox = .ok b) (hne : f.hits ≠ [])
    (h0 : ∀ x ∈ f.hits, ∀ d, x.diameter f.heap = some d → 0 < d) {s : ℝ} (hs : 0 < s) :
    ∃ (area : Set RPt) (c : Cairo.Ctx), f.render K { scale := s } = .ok c ∧
      c.frame = some (Frame.of s (realBox b)) ∧
      c.paints = [.background [0, 0, 0] 1, .layer [7215 / 10000, 451 / 1000, 200 / 1000] 1 area] ∧
      (∀ q ∈ area, Visible (Frame.of s (realBox b)).sizePx q) ∧
      ∀ q, q ∈ area ↔ ∃ ft r t d, (ft, some r) ∈ madeWith settings ext f ∧ f.heap[r]? = some t ∧ t.diameter = some d ∧
        ∃ p ∈ ft.area d, s * p.2 - b.2.1 * s ≤ ⌊s * ft.top d - ⌊(b.2.1 : ℝ) * s⌋⌋ ∧
          q = onPicture (realBox b) s false p := by
  obtain ⟨area, h1, h2⟩ := C74_picture_partial K hb hne h0 hs
  obtain ⟨ho, hbox⟩ := box_ordered hb hne h0
  have htool : ∀ x ∈ f.hits, x.tool ≠ none := by
    intro x hx e
    obtain ⟨c, hc, -⟩ := hbox x hx
    obtain ⟨d, hd⟩ := hitBox_diameter hc
    simp [Hit.diameter, e] at hd
  have hm := hits_madeWith h htool next
  refine ⟨area, _, h1, rfl, rfl, ?_, ?_⟩
  · intro q hq
    obtain ⟨x, hx, d, hd, p, hp, -, rfl⟩ := (h2 q).mp hq
    obtain ⟨c, hc, ⟨c1, c2⟩, c3, c4⟩ := hbox x hx
    obtain ⟨_, _, _, _, _, hin, _⟩ := hit_drawn hc hd (h0 x hx d hd)
    obtain ⟨p1, p2, p3, p4⟩ := hin p hp
    rw [C65_visible ho hs]
    have c1' : (realBox b).1.1 ≤ (realBox c).1.1 := by simpa [realBox] using c1
    have c2' : (realBox c).1.2 ≤ (realBox b).1.2 := by simpa [realBox] using c2
    have c3' : (realBox b).2.1 ≤ (realBox c).2.1 := by simpa [realBox] using c3
    have c4' : (realBox c).2.2 ≤ (realBox b).2.2 := by simpa [realBox] using c4
    exact ⟨c1'.trans p1, p2.trans c2', c3'.trans p3, p4.trans c4'⟩
  · intro q
    rw [h2, ← hm]
    constructor
    · rintro ⟨x, hx, d, hd, hp⟩
      cases hr : x.tool with
      | none => exact absurd hr (htool x hx)
      | some r =>
        cases ht : f.heap[r]? with
        | none => simp [Hit.diameter, hr, ht] at hd
        | some t =>
          refine ⟨x.feature, r, t, d, ?_, ht, by simpa [Hit.diameter, hr, ht] using hd, hp⟩
          exact List.mem_map.mpr ⟨x, hx, by rw [hr]⟩
    · rintro ⟨ft, r, t, d, hmem, ht, hd, hp⟩
      obtain ⟨x, hx, e⟩ := List.mem_map.mp hmem
      simp only [Prod.mk.injEq] at e
      obtain ⟨rfl, e⟩ := e
      exact ⟨x, hx, d, by simp [Hit.diameter, e, ht, hd], hp⟩

/-- **C74.** Everything at least one pixel below the top of its hit is painted. -/
theorem C74_inner_partial (K : Engine) {f : XFile} {b : (ℚ × ℚ) × (ℚ × ℚ)} (hb : f.boundingBox = .ok b)
    (h0 : ∀ x ∈ f.hits, ∀ d, x.diameter f.heap = some d → 0 < d) {s : ℝ} (hs : 0 < s) {x : Hit} (hx : x ∈ f.hits)
    {d : ℚ} (hd : x.diameter f.heap = some d) {p : RPt} (hp : p ∈ x.feature.area d)
    (ht : s * p.2 ≤ s * x.feature.top d - 1) :
    ∃ c color alpha area, f.render K { scale := s } = .ok c ∧ Paint.layer color alpha area ∈ c.paints ∧
      onPicture (realBox b) s false p ∈ area := by
  obtain ⟨area, h1, h2⟩ := C74_picture_partial K hb (List.ne_nil_of_mem hx) h0 hs
  refine ⟨_, [7215 / 10000, 451 / 1000, 200 / 1000], 1, area, h1, by simp, (h2 _).mpr ⟨x, hx, d, hd, p, hp, ?_, rfl⟩⟩
  have k1 := Int.sub_one_lt_floor (s * x.feature.top d - ⌊(b.2.1 : ℝ) * s⌋)
  have k2 := Int.floor_le ((b.2.1 : ℝ) * s)
  linarith

/-! ## Examples and violations -/

-- the hypotheses of the theorems: holes and slots with two tools
example : ∃ f, parseRaw none [] (prog ["M48", "INCH,LZ", "T01C0.020", "T02C0.030", "%", "T01", "X01Y01",
      "X02Y01G85X02Y03", "T02", "X01Y02", "M30"]) = .ok f ∧ (∀ k ∈ f.statements.map (·.kind), noNext k = false) ∧
    f.boundingBox = .ok ((985 / 1000, 201 / 100), (99 / 100, 301 / 100)) ∧ f.hits ≠ [] ∧
    f.hits.map (Hit.diameter f.heap) = [some (2 / 100), some (2 / 100), some (3 / 100)] := by
  refine ⟨_, rfl, ?_, ?_, ?_, ?_⟩ <;> decide +kernel

/-- **C74 fails** at the top of holes: the topmost point of the second of these holes is not painted, at the usual scale
of 300 pixels per unit. -/
theorem C74_top_violated (K : Engine) : ∃ f, parseRaw none [] (prog ["M48", "INCH,LZ", "T01C0.020", "%", "T01",
      "X01Y01", "X02Y020001", "M30"]) = .ok f ∧ .hole (some 0) (2, 20001 / 10000) ∈ f.hits ∧
    ∃ c color alpha area, f.render K = .ok c ∧ c.paints = [.background [0, 0, 0] 1, .layer color alpha area] ∧
      ((2, 20101 / 10000) : RPt) ∈ (Feature.hole (2, 20001 / 10000)).area (2 / 100) ∧
      onPicture ((99 / 100, 201 / 100), (99 / 100, 20101 / 10000)) 300 false (2, 20101 / 10000) ∉ area := by
  obtain ⟨f, h1, h2, h3, h4⟩ : ∃ f, parseRaw none [] (prog ["M48", "INCH,LZ", "T01C0.020", "%", "T01",
      "X01Y01", "X02Y020001", "M30"]) = .ok f ∧
      f.hits = [.hole (some 0) (1, 1), .hole (some 0) (2, 20001 / 10000)] ∧
      f.hits.map (Hit.diameter f.heap) = [some (2 / 100), some (2 / 100)] ∧
      f.boundingBox = .ok ((99 / 100, 201 / 100), (99 / 100, 20101 / 10000)) := by
    refine ⟨_, rfl, ?_, ?_, ?_⟩ <;> decide +kernel
  have hd : ∀ x ∈ f.hits, x.diameter f.heap = some (2 / 100) := by
    intro x hx
    have : x.diameter f.heap ∈ f.hits.map (Hit.diameter f.heap) := List.mem_map_of_mem hx
    rw [h3] at this
    simpa using this
  obtain ⟨area, k1, k2⟩ := C74_picture_partial K h4 (by simp [h2]) (fun x hx d e => by
    rw [hd x hx] at e; cases e; norm_num) (show (0 : ℝ) < 300 by norm_num)
  have hb : realBox ((99 / 100, 201 / 100), (99 / 100, 20101 / 10000)) =
      ((99 / 100, 201 / 100), (99 / 100, 20101 / 10000)) := by
    norm_num [realBox]
  refine ⟨f, h1, by simp [h2], _, _, _, area, k1, rfl, ?_, ?_⟩
  · norm_num [Feature.area]
  · intro hq
    obtain ⟨x, hx, d, e, p, hp, hrow, ho⟩ := (k2 _).mp hq
    rw [hd x hx] at e
    cases e
    rw [hb] at ho
    simp only [onPicture, Bool.false_eq_true, if_false, Prod.mk.injEq] at ho
    obtain ⟨o1, o2⟩ := ho
    have p1 : p.1 = 2 := by linarith
    have p2 : p.2 = 20101 / 10000 := by linarith
    rw [h2] at hx
    simp only [List.mem_cons, List.not_mem_nil, or_false] at hx
    rcases hx with rfl | rfl
    · simp only [Hit.feature, Feature.area, Set.mem_ofPred_eq, p1, p2] at hp
      norm_num at hp
    · simp only [Hit.feature, Feature.top, p2] at hrow
      have f1 : ⌊(((99 / 100 : ℚ)) : ℝ) * 300⌋ = 297 := by
        rw [Int.floor_eq_iff]; norm_num
      rw [f1] at hrow
      have f2 : ⌊(300 : ℝ) * (((20001 / 10000 : ℚ) : ℝ) + ((2 / 100 : ℚ) : ℝ) / 2) - ((297 : ℤ) : ℝ)⌋ = 306 := by
        rw [Int.floor_eq_iff]; norm_num
      rw [f2] at hrow
      norm_num at hrow

/-- **C74 fails** for slots with a missing coordinate: the file is read, but there is no picture of it. -/
theorem C74_slot_violated (K : Engine) : ∃ f, parseRaw none [] (prog ["M48", "INCH,LZ", "T01C0.020", "%", "T01",
      "X01Y01", "X02G85X03Y01", "M30"]) = .ok f ∧ ∀ c : Cairo.Ctx, f.render K c = .error .typeError := by
  obtain ⟨f, h1, h2⟩ : ∃ f, parseRaw none [] (prog ["M48", "INCH,LZ", "T01C0.020", "%", "T01",
      "X01Y01", "X02G85X03Y01", "M30"]) = .ok f ∧ f.boundingBox = .error .typeError := by
    refine ⟨_, rfl, ?_⟩
    decide +kernel
  exact ⟨f, h1, fun c => by simp [XFile.render, Ctx.renderFile, h2, Except.map, bind, Except.bind]⟩

/-- **C74 fails** for files without hits: the picture of the text is as large as the limits the search for the box
begins with, `6 · 10¹³` pixels in both directions. -/
theorem C74_empty_violated (K : Engine) : ∃ f c fr, parseRaw none [] (prog ["M48", "INCH,LZ", "T01C0.020", "%", "M30"]) =
      .ok f ∧ f.render K = .ok c ∧ c.frame = some fr ∧ fr.sizePx = (60000000000000, 60000000000000) := by
  obtain ⟨f, h1, h2, h3⟩ : ∃ f, parseRaw none [] (prog ["M48", "INCH,LZ", "T01C0.020", "%", "M30"]) = .ok f ∧
      f.boundingBox = .ok ((100000000000, -100000000000), (100000000000, -100000000000)) ∧ f.hits = [] := by
    refine ⟨_, rfl, ?_, ?_⟩ <;> decide +kernel
  have hr : f.render K = .ok
      { frame := some (Frame.of 300 (realBox ((100000000000, -100000000000), (100000000000, -100000000000)))),
        hasBg := true,
        paints := [.background [0, 0, 0] 1, .layer [7215 / 10000, 451 / 1000, 200 / 1000] 1 ∅] } := by
    simp only [XFile.render, Ctx.renderFile, h2, Except.map, bind, Except.bind, XFile.primitives, h3, List.mapM_nil,
      pure, Except.pure, Ctx.setBounds, Ctx.paintBackground, Ctx.paintLayer, Option.getD_none, Bool.false_eq_true,
      if_false, Engine.layer, List.flatMap_nil, List.foldlM_nil]
    rfl
  refine ⟨f, _, _, h1, hr, rfl, ?_⟩
  norm_num [Frame.of, Frame.sizePx, scalePoint, realBox, abs_of_nonneg, abs_of_neg]

/-- **C74 fails** for units: the picture is drawn with the numbers of the file.  The same hole, written in inches and in
millimetres, is 6 and 152.4 pixels wide. -/
theorem C74_units_violated (K : Engine) : ∃ f g c e fr gr,
    parseRaw none [] (prog ["M48", "INCH,LZ", "T01C0.020", "%", "T01", "X01Y01", "M30"]) = .ok f ∧
    parseRaw none [] (prog ["M48", "METRIC,LZ", "T01C0.508", "%", "T01", "X25.4Y25.4", "M30"]) = .ok g ∧
    g.cam.units = "metric" ∧ f.render K = .ok c ∧ g.render K = .ok e ∧ c.frame = some fr ∧ e.frame = some gr ∧
    fr.sizePx = (6, 6) ∧ gr.sizePx = (1524 / 10, 1524 / 10) := by
  obtain ⟨f, h1, h2, h3, h4⟩ : ∃ f,
      parseRaw none [] (prog ["M48", "INCH,LZ", "T01C0.020", "%", "T01", "X01Y01", "M30"]) = .ok f ∧
      f.hits = [.hole (some 0) (1, 1)] ∧ (Hit.hole (some 0) (1, 1)).diameter f.heap = some (2 / 100) ∧
      f.boundingBox = .ok ((99 / 100, 101 / 100), (99 / 100, 101 / 100)) := by
    refine ⟨_, rfl, ?_, ?_, ?_⟩ <;> decide +kernel
  obtain ⟨g, k1, k2, k3, k4, k5⟩ : ∃ g,
      parseRaw none [] (prog ["M48", "METRIC,LZ", "T01C0.508", "%", "T01", "X25.4Y25.4", "M30"]) = .ok g ∧
      g.hits = [.hole (some 0) (254 / 10, 254 / 10)] ∧
      (Hit.hole (some 0) (254 / 10, 254 / 10)).diameter g.heap = some (508 / 1000) ∧
      g.boundingBox = .ok ((25146 / 1000, 25654 / 1000), (25146 / 1000, 25654 / 1000)) ∧ g.cam.units = "metric" := by
    refine ⟨_, rfl, ?_, ?_, ?_, ?_⟩ <;> decide +kernel
  obtain ⟨A, a1, -⟩ := C74_picture_partial K h4 (by simp [h2]) (fun x hx d e => by
    rw [h2, List.mem_singleton] at hx; subst hx; rw [h3] at e; cases e; norm_num) (show (0 : ℝ) < 300 by norm_num)
  obtain ⟨B, b1, -⟩ := C74_picture_partial K k4 (by simp [k2]) (fun x hx d e => by
    rw [k2, List.mem_singleton] at hx; subst hx; rw [k3] at e; cases e; norm_num) (show (0 : ℝ) < 300 by norm_num)
  refine ⟨f, g, _, _, _, _, h1, k1, k5, a1, b1, rfl, rfl, ?_, ?_⟩
  · norm_num [Frame.of, Frame.sizePx, scalePoint, realBox, abs_of_nonneg]
  · norm_num [Frame.of, Frame.sizePx, scalePoint, realBox, abs_of_nonneg]

end Verif.Excellon
