import Verif.Model.GerberPicture
import Verif.Spec.GerberPicture
import Verif.Props.CairoArc
import Verif.Props.CairoFrame
import Verif.Props.CairoWinding
import Verif.Props.BoxesMore
import Verif.Props.DrillPicture
import Verif.Props.Eval

/-! # Pictures of Gerber files (C75) -/

namespace Verif.Gerber
open Verif.Py Verif.Cairo Verif.Geom Verif.Render

variable {G : Type}

/-! ## Primitives that are drawn right -/

/-- No rectangular hole. -/
def Hole.NoRect (h : Hole) : Prop := ¬ (0 < h.width ∧ 0 < h.height)

/-- No round hole. -/
def Hole.NoRound (h : Hole) : Prop := ¬ 0 < h.diameter

/-- Each edge begins where the one before ended. -/
def Chain : Pt → List (Edge G) → Prop
  | _, [] => True
  | p, e :: l => e.start = p ∧ Chain e.stop l

/-- Edges of contours that are drawn right: lines, and arcs between different points of their circle, in multi-quadrant
mode or within a quadrant. -/
def Edge.Bounds : Edge G → Prop
  | .line .. => True
  | .arc s e c dir _ q _ _ => s ≠ e ∧
    ∃ m, c = some m ∧ Enclosed dir q (toPlane s) (toPlane e) (toPlane m) ∧
      (e.1 - m.1) ^ 2 + (e.2 - m.2) ^ 2 = (s.1 - m.1) ^ 2 + (s.2 - m.2) ^ 2

/-- Apertures whose flashes are drawn right: no macros; clear rectangles and polygons without hole, clear circles
without rectangular hole; turned polygons without rectangular hole. -/
def Shape.Flashes (dark : Bool) : Shape G → Prop
  | .circle d hole => 0 ≤ d ∧ (dark = true ∨ hole.NoRect)
  | .rect w h hole => 0 ≤ w ∧ 0 ≤ h ∧ (dark = true ∨ hole.NoRound ∧ hole.NoRect)
  | .obround w h _ => 0 ≤ w ∧ 0 ≤ h
  | .polygon n r rot hole =>
    3 ≤ n ∧ 0 < r ∧ (dark = true ∨ hole.NoRound ∧ hole.NoRect) ∧ (rot = 0 ∨ hole.NoRect)
  | .group _ => False

/-- Lines and arcs that are drawn right: round apertures with a positive diameter, and for lines rectangular apertures,
if the area has a positive width; arcs between different points of their circle, in multi-quadrant mode or within a
quadrant. -/
def Edge.Draws : Edge G → Prop
  | .line s e ap _ _ => match ap.shape with
    | .circle d _ => 0 < d
    | .rect w h _ => 0 ≤ w ∧ 0 ≤ h ∧ Thick (toPlane s) (toPlane e) w h
    | _ => False
  | .arc s e c dir ap q _ _ => s ≠ e ∧
    (∃ m, c = some m ∧ Enclosed dir q (toPlane s) (toPlane e) (toPlane m) ∧ 0 < (s.1 - m.1) ^ 2 + (s.2 - m.2) ^ 2 ∧
      (e.1 - m.1) ^ 2 + (e.2 - m.2) ^ 2 = (s.1 - m.1) ^ 2 + (s.2 - m.2) ^ 2) ∧
    match ap.shape with
    | .circle d _ => 0 < d
    | _ => False

/-- Primitives that are drawn right; regions, if they are bounded by a chain of lines and arcs. -/
def Prim.Draws : Prim G → Prop
  | .edge e => e.Draws
  | .flash s p pol u => s.Flashes (Prim.dark (.flash s p pol u : Prim G))
  | .region es _ _ => ∃ hne : es ≠ [], (∀ e ∈ es, e.Bounds) ∧ Chain (es.head hne).start es

theorem real_eq (p : Pt) : Pt.real p = toPlane p := rfl

/-! ## Holes -/

theorem inPixels_diff {s : ℝ} (hs : 0 < s) (A B : Set RPt) : inPixels s (A \ B) = inPixels s A \ inPixels s B := by
  ext q
  simp only [Set.mem_sdiff, mem_inPixels hs]

theorem holes_cut {K : Engine} (hK : K.Convex) {s : ℝ} (hs : 0 < s) (pos : RPt) (rot : ℝ) (hole : Hole) {cr ce : Bool}
    (h1 : cr = true ∨ hole.NoRound) (h2 : ce = true ∨ hole.NoRect) (h3 : rot = 0 ∨ hole.NoRect) (A : Set RPt) :
    K.holes s pos rot hole.real cr ce (inPixels s A) = inPixels s (A \ placed pos 0 hole.area) := by
  have r1 : (0 : ℝ) < hole.real.diameter ↔ 0 < hole.diameter := by simp [Hole.real]
  have r2 : ((0 : ℝ) < hole.real.width ∧ 0 < hole.real.height) ↔ (0 < hole.width ∧ 0 < hole.height) := by
    simp [Hole.real]
  have hp : placed pos 0 hole.area = {q | 0 < hole.diameter ∧ q ∈ placed pos 0 (disc ((hole.diameter : ℝ) / 2))} ∪
      {q | (0 < hole.width ∧ 0 < hole.height) ∧ q ∈ placed pos 0 (slab hole.width hole.height)} := by
    ext q
    simp only [placed_zero, Hole.area, Set.mem_union, Set.mem_ofPred_eq, and_assoc]
  rw [hp]
  have e1 : (if (0 : ℝ) < hole.real.diameter then (if cr = true then inPixels s A \ discAt (scalePoint s pos)
      (hole.real.diameter / 2 * s) else inPixels s A ∪ discAt (scalePoint s pos) (hole.real.diameter / 2 * s))
      else inPixels s A) =
      inPixels s (A \ {q | 0 < hole.diameter ∧ q ∈ placed pos 0 (disc ((hole.diameter : ℝ) / 2))}) := by
    by_cases hd : 0 < hole.diameter
    · rw [if_pos (r1.mpr hd)]
      rcases h1 with rfl | h1
      · rw [if_pos rfl, discAt_scaled hs, inPixels_diff hs]
        simp only [hd, true_and]
        rfl
      · exact absurd hd h1
    · rw [if_neg (fun h => hd (r1.mp h))]
      simp [hd]
  simp only [Engine.holes]
  rw [e1]
  by_cases hr : 0 < hole.width ∧ 0 < hole.height
  · rw [if_pos (r2.mpr hr)]
    rcases h3 with rfl | h3
    · rcases h2 with rfl | h2
      · rw [if_pos rfl, holeArea_eq hK hs pos 0 (r2.mpr hr).1 (r2.mpr hr).2, ← inPixels_diff hs, Set.sdiff_sdiff]
        simp only [hr.1, hr.2, true_and]
        rfl
      · exact absurd hr h2
    · exact absurd hr h3
  · rw [if_neg (fun h => hr (r2.mp h))]
    simp only [hr, false_and]
    congr 2
    ext q
    simp

/-! ## One primitive -/

/-- What is known of a primitive that is drawn right. -/
def Shown (K : Engine) (P : Prim G) (sh : Cairo.Shape) (b : Box) : Prop :=
  sh.box = .ok b ∧ Ordered b ∧ (∀ p ∈ P.area, b.Holds p) ∧
    ∀ s : ℝ, 0 < s → K.mask s P.dark false sh = .ok (inPixels s P.area)

theorem flash_area (s : Shape G) (p : Pt) (pol u : String) :
    (Prim.flash s p pol u).area = placed (toPlane p) 0 s.area := by
  ext q
  rw [placed_zero]
  simp only [Prim.area, toPlane, Set.mem_ofPred_eq]
  constructor
  · rintro ⟨v, hv, rfl⟩
    simpa using hv
  · exact fun h => ⟨_, h, by ext <;> simp⟩

theorem placed_sub (c : RPt) (A B : Set RPt) : placed c 0 (A \ B) = placed c 0 A \ placed c 0 B := by
  ext q
  simp only [Set.mem_sdiff, placed_zero]

theorem placed_placed (c : RPt) (rot : ℝ) (A : Set RPt) : placed c 0 (placed (0, 0) rot A) = placed c rot A := by
  ext q
  rw [placed_zero]
  simp only [placed, Set.mem_ofPred_eq]
  constructor
  · rintro ⟨p, hp, h⟩
    simp only [Prod.mk.injEq, zero_add] at h
    exact ⟨p, hp, by ext <;> simp only <;> linarith⟩
  · rintro ⟨p, hp, rfl⟩
    exact ⟨p, hp, by simp⟩

theorem box_convex (b : Box) : Convex ℝ {p : RPt | b.Holds p} := by
  have : {p : RPt | b.Holds p} = Set.Icc b.1.1 b.1.2 ×ˢ Set.Icc b.2.1 b.2.2 := by
    ext p
    simp only [Box.Holds, Set.mem_ofPred_eq, Set.mem_prod, Set.mem_Icc]
    tauto
  rw [this]
  exact (convex_Icc _ _).prod (convex_Icc _ _)

theorem flash_shown {K : Engine} (hK : K.Convex) (parts : G → Pt → PyR (List (Bool × Cairo.Shape))) {sh : Shape G}
    {p : Pt} {pol u : String} (h : sh.Flashes (Prim.dark (.flash sh p pol u))) :
    ∃ x b, (Prim.flash sh p pol u).drawn parts = .ok (.shape (Prim.dark (.flash sh p pol u)) x) ∧
      Shown K (.flash sh p pol u) x b := by
  have hdark : Prim.dark (.flash sh p pol u) = decide (pol = "dark") := rfl
  unfold Shown
  rw [flash_area, hdark]
  rw [hdark] at h
  generalize hdk : decide (pol = "dark") = dk at *
  cases sh with
  | circle d hole =>
    obtain ⟨h0, h1⟩ := h
    obtain ⟨b, b1, -, b2, b3⟩ := C66_box_circle (toPlane p) (show (0 : ℝ) ≤ d by exact_mod_cast h0) 0 hole.real
    refine ⟨_, b, by simp only [Prim.drawn, hdk, real_eq], b1, b2, ?_, ?_⟩
    · intro q hq
      rw [Shape.area, placed_sub] at hq
      exact b3 q hq.1
    · intro s hs
      simp only [Engine.mask]
      rw [discAt_scaled hs, holes_cut hK hs _ _ _ (.inl rfl) (by simpa using h1) (.inl rfl), Shape.area, placed_sub]
  | rect w g hole =>
    obtain ⟨h0, h1, h2⟩ := h
    have w0 : (0 : ℝ) ≤ w := by exact_mod_cast h0
    have g0 : (0 : ℝ) ≤ g := by exact_mod_cast h1
    obtain ⟨b, b1, -, b2, b3, -⟩ := C66_box_rectangle (toPlane p) w0 g0 hole.real
    refine ⟨_, b, by simp only [Prim.drawn, hdk, real_eq], b1, b2, ?_, ?_⟩
    · intro q hq
      rw [Shape.area, placed_sub] at hq
      exact b3 q hq.1
    · intro s hs
      simp only [Engine.mask, (axis_zero (w : ℝ) g).1, (axis_zero (w : ℝ) g).2]
      rw [rectAt_scaled hs _ _ w0 g0, holes_cut hK hs _ _ _ (by simpa using h2.imp id And.left)
        (by simpa using h2.imp id And.right) (.inl rfl), Shape.area, placed_sub]
  | obround w g hole =>
    obtain ⟨h0, h1⟩ := h
    have w0 : (0 : ℝ) ≤ w := by exact_mod_cast h0
    have g0 : (0 : ℝ) ≤ g := by exact_mod_cast h1
    obtain ⟨b, -, b1, b2, -, b3⟩ := C66_box_rectangle (toPlane p) w0 g0 hole.real
    refine ⟨_, b, by simp only [Prim.drawn, hdk, real_eq], b1, b2, ?_, ?_⟩
    · intro q hq
      rw [Shape.area, placed_sub] at hq
      exact b3 q hq.1
    · intro s hs
      have := C68_obround_partial K hs dk false (toPlane p) w0 g0 0
      simp only [Engine.mask] at this ⊢
      rw [holes_none K _ _ _ _ _ _ noHole] at this
      injection this with this
      rw [this, holes_cut hK hs _ _ _ (.inl rfl) (.inl (by simp)) (.inl rfl), Shape.area, placed_sub]
  | polygon n r rot hole =>
    obtain ⟨hn, hr, h2, h3⟩ := h
    have r0 : (0 : ℝ) < r := by exact_mod_cast hr
    have hn' : 3 ≤ n.toNat := by omega
    have hs' : sides n = .ok n.toNat := by unfold sides; rw [if_neg (by omega)]
    obtain ⟨b, b1, b2, b3⟩ := C66_box_polygon (toPlane p) (show n.toNat ≠ 0 by omega) r0.le rot hole.real
    refine ⟨_, b, by simp only [Prim.drawn, hs', bind, Except.bind, hdk, real_eq], b1, b2, ?_, ?_⟩
    · intro q hq
      rw [Shape.area, placed_sub, placed_placed] at hq
      exact b3 q hq.1
    · intro s hs
      have := C68_polygon_partial hK hs dk false (toPlane p) hn' r0.ne' rot
      obtain ⟨vs, v1, -, v2⟩ := C62_polygon (toPlane p) (show n.toNat ≠ 0 by omega) (r : ℝ) rot
      simp only [Engine.mask, v1, bind, Except.bind] at this ⊢
      rw [holes_none K _ _ _ _ _ _ noHole] at this
      injection this with this
      rw [this, holes_cut hK hs _ _ _ (by simpa using h2.imp id And.left)
        (by simpa using h2.imp id And.right) (h3.imp (by intro h; exact_mod_cast h) id), Shape.area, placed_sub,
        placed_placed]
  | group g => exact h.elim

theorem toPlane_inj {a b : Pt} (h : a ≠ b) : toPlane a ≠ toPlane b := by
  intro e
  apply h
  simp only [toPlane, Prod.mk.injEq, Rat.cast_inj] at e
  exact Prod.ext e.1 e.2

theorem radius_eq (s m : Pt) : arcRadius (toPlane s) (toPlane m) =
    Real.sqrt (((s.1 - m.1) ^ 2 + (s.2 - m.2) ^ 2 : ℚ) : ℝ) := by
  simp only [arcRadius, toPlane]
  push_cast
  rfl

theorem edge_shown {K : Engine} (hK : K.Convex) (parts : G → Pt → PyR (List (Bool × Cairo.Shape))) {e : Edge G}
    (h : e.Draws) : ∃ x b, (Prim.edge e).drawn parts = .ok (.shape (Prim.dark (.edge e)) x) ∧ Shown K (.edge e) x b := by
  cases e with
  | line s e ap pol u =>
    obtain ⟨sh, au⟩ := ap
    cases sh with
    | circle d hole =>
      have d0 : (0 : ℝ) < d := by exact_mod_cast h
      obtain ⟨b, -, b1, b2, b3⟩ := C66_box_line (toPlane s) (toPlane e) d0.le
      exact ⟨_, b, rfl, b1, b2, b3, fun k hk => C68_line K hk _ _ _ _ d0⟩
    | rect w g hole =>
      obtain ⟨h0, h1, h2⟩ := h
      have w0 : (0 : ℝ) ≤ w := by exact_mod_cast h0
      have g0 : (0 : ℝ) ≤ g := by exact_mod_cast h1
      have e0 : placed (0, 0) 0 (slab (w : ℝ) g) = slab w g := by
        ext q
        rw [placed_zero]
        simp
      refine ⟨_, _, rfl, rfl, ?_, ?_, fun k hk => ?_⟩
      · constructor <;> simp only [Box.grow, segBox] <;>
        linarith [min_le_max (a := (Pt.real s).1) (b := (Pt.real e).1), min_le_max (a := (Pt.real s).2) (b := (Pt.real e).2)]
      · intro p hp
        exact swept_box (S := slab (w : ℝ) g) (path := straight (toPlane s) (toPlane e)) (m := ((w : ℝ) / 2, (g : ℝ) / 2))
          (fun _ => straight_box) (fun p hp => hp) hp
      · have := C68_line_rectangle_partial hK hk (Prim.dark (.edge (.line s e ⟨.rect w g hole, au⟩ pol u) : Prim G)) false
          (toPlane s) (toPlane e) w0 g0 h2
        rw [e0] at this
        exact this
    | _ => exact h.elim
  | arc s e c dir ap q pol u =>
    obtain ⟨sh, au⟩ := ap
    obtain ⟨hne, ⟨m, rfl, hq, h1, h2⟩, h3⟩ := h
    cases sh with
    | circle d hole =>
      have d0 : (0 : ℝ) < d := by exact_mod_cast h3
      have hr : 0 < arcRadius (toPlane s) (toPlane m) := by
        rw [radius_eq]
        exact Real.sqrt_pos.mpr (by exact_mod_cast h1)
      have he : arcRadius (toPlane e) (toPlane m) = arcRadius (toPlane s) (toPlane m) := by
        rw [radius_eq, radius_eq, h2]
      obtain ⟨b, b1, b2, b3⟩ := C66_box_arc hq d0.le
      exact ⟨_, b, rfl, b1, b2, b3, fun k hk => C68_arc_partial K hk _ _ hr he (toPlane_inj hne) _ _ d0⟩
    | _ => exact h3.elim

/-- What is known of a part of a region that is drawn right. -/
def Traced (e : Edge G) (x : Cairo.Part) : Prop :=
  x.Proper ∧ x.bend = e.bend ∧ x.start = toPlane e.start ∧ x.box.Holds (toPlane e.start) ∧
    (∀ p ∈ e.bend.bow, x.box.Holds p) ∧ ∀ p, e.bend = .line p → x.box.Holds p

theorem part_traced {e : Edge G} (h : e.Bounds) : ∃ x, e.part = .ok x ∧ Traced e x := by
  cases e with
  | line s t ap pol u =>
    refine ⟨_, rfl, trivial, rfl, rfl, ⟨min_le_left _ _, le_max_left _ _, min_le_left _ _, le_max_left _ _⟩,
      fun p hp => hp.elim, ?_⟩
    intro p hp
    injection hp with hp
    subst hp
    exact ⟨min_le_right _ _, le_max_right _ _, min_le_right _ _, le_max_right _ _⟩
  | arc s t c d ap q pol u =>
    obtain ⟨hne, m, rfl, hq, h2⟩ := h
    have he : arcRadius (toPlane t) (toPlane m) = arcRadius (toPlane s) (toPlane m) := by
      rw [radius_eq, radius_eq, h2]
    have hbow : ∀ p ∈ (Edge.arc s t (some m) d ap q pol u).bend.bow,
        (Cairo.Part.arc (toPlane s) (toPlane t) (toPlane m) d q).box.Holds p :=
      fun p hp => arc_enclosed hq (arcBend_circular d he hp)
    refine ⟨_, rfl, ⟨toPlane_inj hne, he⟩, rfl, rfl, hbow _ ?_, hbow, fun p hp => by cases hp⟩
    exact ⟨0, le_rfl, zero_le_one, by rw [mul_zero, add_zero]; exact (onCircle_bearing _ _).symm⟩

theorem parts_traced {es : List (Edge G)} (h : ∀ e ∈ es, e.Bounds) : ∃ xs, es.mapM Edge.part = .ok xs ∧
    List.Forall₂ Traced es xs := by
  induction es with
  | nil => exact ⟨[], rfl, .nil⟩
  | cons e l ih =>
    obtain ⟨x, h1, h2⟩ := part_traced (h e (by simp))
    obtain ⟨xs, h3, h4⟩ := ih fun y hy => h y (by simp [hy])
    refine ⟨x :: xs, ?_, .cons h2 h4⟩
    rw [List.mapM_cons, h1, h3]
    rfl

theorem traced_bends {es : List (Edge G)} {xs : List Cairo.Part} (h : List.Forall₂ Traced es xs) :
    xs.map Part.bend = es.map Edge.bend ∧ (∀ x ∈ xs, x.Proper) ∧ ∀ e ∈ es, ∃ x ∈ xs, Traced e x := by
  induction h with
  | nil => simp
  | cons h _ ih =>
    obtain ⟨h1, h2, h3⟩ := ih
    refine ⟨by rw [List.map_cons, List.map_cons, h1, h.2.1], ?_, ?_⟩
    · intro x hx
      rcases List.mem_cons.mp hx with rfl | hx
      · exact h.1
      · exact h2 x hx
    · intro e he
      rcases List.mem_cons.mp he with rfl | he
      · exact ⟨_, List.mem_cons_self, h⟩
      · obtain ⟨x, hx, h⟩ := h3 e he
        exact ⟨x, List.mem_cons_of_mem _ hx, h⟩

theorem region_shown {K : Engine} (hK : K.Winding) (parts : G → Pt → PyR (List (Bool × Cairo.Shape)))
    {es : List (Edge G)} {pol u : String} (h : (Prim.region es pol u).Draws) :
    ∃ x b, (Prim.region es pol u).drawn parts = .ok (.shape (Prim.dark (.region es pol u)) x) ∧
      Shown K (.region es pol u) x b := by
  obtain ⟨hne, hl, -⟩ := h
  obtain ⟨xs, hparts, hf⟩ := parts_traced hl
  cases hf with
  | nil => exact absurd rfl hne
  | @cons e x l xs hx hf =>
    obtain ⟨hbend, hproper, hex⟩ := traced_bends (.cons hx hf)
    obtain ⟨b, hb⟩ : ∃ b, unionBox ((x :: xs).map Part.box) = some b := ⟨_, rfl⟩
    obtain ⟨hb1, -⟩ := unionBox_spec hb
    have hbox : ∀ y ∈ x :: xs, ∀ p, y.box.Holds p → b.Holds p :=
      fun y hy p hp => hb1 _ (List.mem_map_of_mem hy) p hp
    have hstart : b.Holds (toPlane e.start) := hbox x List.mem_cons_self _ hx.2.2.2.1
    refine ⟨.region (x :: xs), b, ?_, ?_, ?_, ?_, ?_⟩
    · simp only [Prim.drawn, hparts, bind, Except.bind]
      rfl
    · simp only [Shape.box, hb]
    · obtain ⟨h1, h2, h3, h4⟩ := hstart
      exact ⟨h1.trans h2, h3.trans h4⟩
    · apply enclosed_convex (box_convex b) hstart
      intro d hd
      obtain ⟨e', he', rfl⟩ := List.mem_map.mp hd
      obtain ⟨y, hy, -, -, -, -, h5, h6⟩ := hex e' he'
      exact ⟨fun p hp => hbox y hy p (h5 p hp), fun p hp => hbox y hy p (h6 p hp)⟩
    · intro s hs
      have := C68_region_arcs_partial hK hs (Prim.dark (.region (e :: l) pol u : Prim G)) false hproper
      rw [hbend, hx.2.2.1] at this
      exact this

theorem prim_shown {K : Engine} (hK : K.Winding) (parts : G → Pt → PyR (List (Bool × Cairo.Shape))) {P : Prim G}
    (h : P.Draws) : ∃ x b, P.drawn parts = .ok (.shape P.dark x) ∧ Shown K P x b := by
  cases P with
  | edge e => exact edge_shown (C68_convex hK) parts h
  | flash sh p pol u => exact flash_shown (C68_convex hK) parts h
  | region es pol u => exact region_shown hK parts h

theorem prims_shown {K : Engine} (hK : K.Winding) (parts : G → Pt → PyR (List (Bool × Cairo.Shape))) {Ps : List (Prim G)}
    (h : ∀ P ∈ Ps, P.Draws) : ∃ xs : List (Cairo.Shape × Box),
      Ps.mapM (Prim.drawn parts) = .ok ((Ps.zip xs).map fun y => .shape y.1.dark y.2.1) ∧
      List.Forall₂ (fun P y => Shown K P y.1 y.2) Ps xs := by
  induction Ps with
  | nil => exact ⟨[], rfl, .nil⟩
  | cons P l ih =>
    obtain ⟨x, b, h1, h2⟩ := prim_shown hK parts (h P (by simp))
    obtain ⟨xs, h3, h4⟩ := ih fun Q hQ => h Q (by simp [hQ])
    refine ⟨(x, b) :: xs, ?_, .cons h2 h4⟩
    rw [List.mapM_cons, h1, h3]
    rfl

/-! ## The box of a file -/

/-- One step of the search for the box. -/
noncomputable def widen (r b : Box) : Box :=
  ((min b.1.1 r.1.1, max b.1.2 r.1.2), (min b.2.1 r.2.1, max b.2.2 r.2.2))

/-- The limits the search begins with. -/
def million : Box := ((1000000, -1000000), (1000000, -1000000))

theorem boxAround_fold {prims : List Cairo.Prim} {bs : List Box}
    (h : List.Forall₂ (fun x b => primBox x = .ok b) prims bs) : boxAround prims = .ok (bs.foldl widen million) := by
  unfold boxAround
  rw [show (((1000000, -1000000), (1000000, -1000000)) : Box) = million from rfl]
  generalize million = r
  induction h generalizing r with
  | nil => rfl
  | cons h _ ih =>
    rw [List.foldlM_cons, h]
    exact ih _

theorem widen_fold (bs : List Box) : ∀ r : Box,
    (∀ b ∈ bs, (bs.foldl widen r).1.1 ≤ b.1.1 ∧ b.1.2 ≤ (bs.foldl widen r).1.2 ∧ (bs.foldl widen r).2.1 ≤ b.2.1 ∧
      b.2.2 ≤ (bs.foldl widen r).2.2) ∧
    ((bs.foldl widen r).1.1 ≤ r.1.1 ∧ r.1.2 ≤ (bs.foldl widen r).1.2 ∧ (bs.foldl widen r).2.1 ≤ r.2.1 ∧
      r.2.2 ≤ (bs.foldl widen r).2.2) := by
  induction bs with
  | nil => intro r; simp
  | cons a l ih =>
    intro r
    obtain ⟨h1, h2, h3, h4, h5⟩ := ih (widen r a)
    simp only [List.foldl_cons]
    refine ⟨?_, h2.trans (min_le_right _ _), (le_max_right _ _).trans h3, h4.trans (min_le_right _ _),
      (le_max_right _ _).trans h5⟩
    intro b hb
    rcases List.mem_cons.mp hb with rfl | hb
    · exact ⟨h2.trans (min_le_left _ _), (le_max_left _ _).trans h3, h4.trans (min_le_left _ _),
        (le_max_left _ _).trans h5⟩
    · exact h1 b hb

/-! ## The picture -/

theorem lastDark_cons (a : Bool × Set RPt) (As : List (Bool × Set RPt)) (p : RPt) :
    LastDark (a :: As) p ↔ LastDark As p ∨ (a.1 = true ∧ p ∈ a.2 ∧ ∀ x ∈ As, p ∉ x.2) := by
  constructor
  · rintro ⟨before, A, after, h, hA, hl⟩
    cases before with
    | nil =>
      simp only [List.nil_append, List.cons.injEq] at h
      obtain ⟨rfl, rfl⟩ := h
      exact .inr ⟨rfl, hA, hl⟩
    | cons b l =>
      simp only [List.cons_append, List.cons.injEq] at h
      obtain ⟨rfl, rfl⟩ := h
      exact .inl ⟨l, A, after, rfl, hA, hl⟩
  · rintro (⟨before, A, after, rfl, hA, hl⟩ | ⟨h1, h2, h3⟩)
    · exact ⟨a :: before, A, after, rfl, hA, hl⟩
    · exact ⟨[], a.2, As, by rw [← h1]; rfl, h2, h3⟩

theorem lastDark_congr {As Bs : List (Bool × Set RPt)} {p q : RPt}
    (h : List.Forall₂ (fun a b => a.1 = b.1 ∧ (p ∈ a.2 ↔ q ∈ b.2)) As Bs) : LastDark As p ↔ LastDark Bs q := by
  have hno : ∀ {As Bs : List (Bool × Set RPt)}, List.Forall₂ (fun a b => a.1 = b.1 ∧ (p ∈ a.2 ↔ q ∈ b.2)) As Bs →
      ((∀ x ∈ As, p ∉ x.2) ↔ ∀ x ∈ Bs, q ∉ x.2) := by
    intro As Bs h
    induction h with
    | nil => simp
    | cons h _ ih => simp only [List.forall_mem_cons, ih, h.2]
  induction h with
  | nil =>
    constructor <;> rintro ⟨b, A, c, h, -⟩ <;> simp at h
  | cons h hl ih =>
    rw [lastDark_cons, lastDark_cons]
    exact or_congr ih (and_congr (by rw [h.1]) (and_congr h.2 (hno hl)))

theorem onPicture_inj {b : Box} {s : ℝ} (hs : 0 < s) {p q : RPt} (h : onPicture b s false p = onPicture b s false q) :
    p = q := by
  simp only [onPicture, Bool.false_eq_true, if_false, Prod.mk.injEq] at h
  obtain ⟨h1, h2⟩ := h
  have h1 := mul_left_cancel₀ hs.ne' h1
  have h2 := mul_left_cancel₀ hs.ne' h2
  exact Prod.ext (by linarith) (by linarith)

/-- The part of an area that is not cut off: `t` is the height its primitive may reach. -/
def cutAt (b : Box) (s t : ℝ) (A : Set RPt) : Set RPt := {p ∈ A | s * p.2 - b.2.1 * s ≤ ⌊s * t - ⌊b.2.1 * s⌋⌋}

/-- **C75.** The picture of a Gerber file with primitives, all of which are drawn right (`Prim.Draws`), has a black
background and one layer.  There is a box `b` around all the areas of the primitives, such that the size of the picture
is that of `b` at the scale of the context, and a point of the picture is painted exactly if the last primitive whose
area contains it is dark; the areas are cut at the last whole row of pixels below some height that is not lower than
any of their points. -/
theorem C75_picture_partial {K : Engine} (hK : K.Winding) (parts : G → Pt → PyR (List (Bool × Cairo.Shape)))
    {f : GerberFile G} (hne : f.primitives ≠ []) (h : ∀ P ∈ f.primitives, P.Draws) {s : ℝ} (hs : 0 < s) :
    ∃ (b : Box) (area : Set RPt) (tops : List ℝ), Ordered b ∧ (∀ P ∈ f.primitives, ∀ p ∈ P.area, b.Holds p) ∧
      f.render K parts { scale := s } = .ok
        { scale := s, frame := some (Frame.of s b), hasBg := true, count := 0,
          paints := [.background [0, 0, 0] 1, .layer [7215 / 10000, 451 / 1000, 200 / 1000] 1 area] } ∧
      List.Forall₂ (fun (P : Prim G) t => ∀ p ∈ P.area, p.2 ≤ t) f.primitives tops ∧
      ∀ q, q ∈ area ↔ ∃ p, q = onPicture b s false p ∧
        LastDark ((f.primitives.zip tops).map fun y => (y.1.dark, cutAt b s y.2 y.1.area)) p := by
  obtain ⟨stmts, settings, Ps⟩ := f
  simp only at hne h ⊢
  obtain ⟨xs, h1, h2⟩ := prims_shown hK parts h
  have hbs : List.Forall₂ (fun x b => primBox x = .ok b)
      ((Ps.zip xs).map fun y => Cairo.Prim.shape y.1.dark y.2.1) (xs.map Prod.snd) := by
    clear h1 hne h
    induction h2 with
    | nil => exact .nil
    | cons h _ ih => exact .cons h.1 ih
  have hbox := boxAround_fold hbs
  obtain ⟨w1, -⟩ := widen_fold (xs.map Prod.snd) million
  generalize (xs.map Prod.snd).foldl widen million = b at hbox w1
  have hin : ∀ P ∈ Ps, ∃ y ∈ xs, Shown K P y.1 y.2 := fun P hP => Excellon.forall₂_left h2 hP
  have hholds : ∀ P ∈ Ps, ∀ p ∈ P.area, b.Holds p := by
    intro P hP p hp
    obtain ⟨y, hy, -, -, hh, -⟩ := hin P hP
    obtain ⟨g1, g2, g3, g4⟩ := hh p hp
    obtain ⟨k1, k2, k3, k4⟩ := w1 y.2 (List.mem_map_of_mem hy)
    exact ⟨k1.trans g1, g2.trans k2, k3.trans g3, g4.trans k4⟩
  have ho : Ordered b := by
    obtain ⟨P, hP⟩ := List.exists_mem_of_ne_nil _ hne
    obtain ⟨y, hy, -, ⟨o1, o2⟩, -, -⟩ := hin P hP
    obtain ⟨k1, k2, k3, k4⟩ := w1 y.2 (List.mem_map_of_mem hy)
    exact ⟨(k1.trans o1).trans k2, (k3.trans o2).trans k4⟩
  have hflat : ∀ l : List (Prim G × (Cairo.Shape × Box)), (l.map fun y => Cairo.Prim.shape y.1.dark y.2.1).flatMap
      (Frame.of s b).shapes = l.map fun y => (y.1.dark, y.2.1) := by
    intro l
    induction l with
    | nil => rfl
    | cons a l ih => simp only [List.map_cons, List.flatMap_cons, ih]; rfl
  have hcov : ∀ (P : Prim G) (y : Cairo.Shape × Box), Shown K P y.1 y.2 →
      ∃ D, K.covered (Frame.of s b) false false P.dark y.1 = .ok D ∧
        ∀ q, q ∈ D ↔ ∃ p ∈ P.area, s * p.2 - b.2.1 * s ≤ ⌊s * y.2.2.2 - ⌊b.2.1 * s⌋⌋ ∧ q = onPicture b s false p := by
    rintro P y ⟨k1, k2, k3, k4⟩
    exact C66_covered ho hs k1 k2 (k4 s hs) k3
  obtain ⟨area, hP⟩ : ∃ area, K.layer (Frame.of s b) false false
      ((Ps.zip xs).map fun y => Cairo.Prim.shape y.1.dark y.2.1) = .ok area := by
    unfold Engine.layer
    rw [hflat]
    refine Excellon.draw_all _ _ fun z hz => ?_
    obtain ⟨y, hy, rfl⟩ := List.mem_map.mp hz
    have hsh : Shown K y.1 y.2.1 y.2.2 := by
      clear h1 hbs hbox hin hholds hne h hz hflat w1
      induction h2 with
      | nil => simp at hy
      | cons h _ ih =>
        rcases List.mem_cons.mp (by simpa using hy) with rfl | hy
        · exact h
        · exact ih hy
    obtain ⟨D, hD, -⟩ := hcov y.1 y.2 hsh
    exact ⟨D, hD⟩
  refine ⟨b, area, xs.map fun y => y.2.2.2, ho, hholds, ?_, ?_, ?_⟩
  · simp only [GerberFile.render, h1, bind, Except.bind, Ctx.renderFile, hbox, Ctx.setBounds, Ctx.paintBackground,
      Ctx.paintLayer, Option.getD_none, Bool.false_eq_true, if_false, hP]
    rfl
  · clear h1 hbs hbox hin hholds hne h hflat hP
    induction h2 with
    | nil => exact .nil
    | cons h _ ih => exact .cons (fun p hp => (h.2.2.1 p hp).2.2.2) (ih (fun y hy => w1 y (by simp [hy])))
  · obtain ⟨As, a1, a2⟩ := C67_painted hP
    rw [hflat] at a1
    intro q
    rw [a2]
    -- every point of the picture is the place of some point
    obtain ⟨p, hp⟩ : ∃ p, q = onPicture b s false p := by
      refine ⟨(q.1 / s + b.1.1, b.2.2 - q.2 / s), ?_⟩
      simp only [onPicture, Bool.false_eq_true, if_false]
      ext <;> field_simp <;> ring
    have key : List.Forall₂ (fun a c => a.1 = c.1 ∧ (q ∈ a.2 ↔ p ∈ c.2)) As
        ((Ps.zip (xs.map fun y => y.2.2.2)).map fun y => (y.1.dark, cutAt b s y.2 y.1.area)) := by
      clear h1 hbs hbox hin hholds hne h hflat hP a2
      induction h2 generalizing As with
      | nil => cases a1; exact .nil
      | cons h _ ih =>
        cases a1 with
        | cons c1 c2 =>
          refine .cons ⟨c1.1, ?_⟩ (ih (fun y hy => w1 y (by simp [hy])) _ c2)
          obtain ⟨D, hD, hD'⟩ := hcov _ _ h
          have := c1.2
          rw [hD] at this
          injection this with this
          rw [← this, hD']
          constructor
          · rintro ⟨p', hp', hc, he⟩
            rw [hp] at he
            obtain rfl := onPicture_inj hs he
            exact ⟨hp', hc⟩
          · rintro ⟨hp', hc⟩
            exact ⟨p, hp', hc, hp⟩
    rw [lastDark_congr key]
    constructor
    · exact fun hl => ⟨p, hp, hl⟩
    · rintro ⟨p', hp', hl⟩
      rw [hp] at hp'
      obtain rfl := onPicture_inj hs hp'
      exact hl

/-- **C75.** All areas lie on the picture, and all painted points belong to the area of a dark primitive.  Every point that
lies at least one pixel lower than some point of each of the areas containing it is painted exactly if the last of the
primitives whose areas contain it is dark. -/
theorem C75_inner_partial {K : Engine} (hK : K.Winding) (parts : G → Pt → PyR (List (Bool × Cairo.Shape)))
    {f : GerberFile G} (hne : f.primitives ≠ []) (h : ∀ P ∈ f.primitives, P.Draws) {s : ℝ} (hs : 0 < s) :
    ∃ (b : Box) (area : Set RPt) (c : Cairo.Ctx), f.render K parts { scale := s } = .ok c ∧
      c.frame = some (Frame.of s b) ∧
      c.paints = [.background [0, 0, 0] 1, .layer [7215 / 10000, 451 / 1000, 200 / 1000] 1 area] ∧
      (∀ P ∈ f.primitives, ∀ p ∈ P.area, Visible (Frame.of s b).sizePx (onPicture b s false p)) ∧
      (∀ q ∈ area, ∃ P ∈ f.primitives, P.dark = true ∧ ∃ p ∈ P.area, q = onPicture b s false p) ∧
      ∀ p, (∀ P ∈ f.primitives, p ∈ P.area → ∃ p' ∈ P.area, s * p.2 ≤ s * p'.2 - 1) →
        (onPicture b s false p ∈ area ↔ LastDark (f.primitives.map fun P => (P.dark, P.area)) p) := by
  obtain ⟨b, area, tops, ho, hin, h1, h2, h3⟩ := C75_picture_partial hK parts hne h hs
  refine ⟨b, area, _, h1, rfl, rfl, fun P hP p hp => (C65_visible ho hs false p).mpr (hin P hP p hp), ?_, ?_⟩
  · intro q hq
    obtain ⟨p, rfl, before, A, after, he, hA, -⟩ := (h3 q).mp hq
    have hmem : (true, A) ∈ (f.primitives.zip tops).map fun y => (y.1.dark, cutAt b s y.2 y.1.area) := by
      rw [he]; simp
    obtain ⟨⟨P, t⟩, hy, e⟩ := List.mem_map.mp hmem
    simp only [Prod.mk.injEq] at e
    obtain ⟨e1, rfl⟩ := e
    have hP := (List.of_mem_zip hy).1
    exact ⟨P, hP, e1, p, hA.1, rfl⟩
  · intro p hp
    rw [h3]
    have key : List.Forall₂ (fun a c => a.1 = c.1 ∧ (p ∈ a.2 ↔ p ∈ c.2))
        ((f.primitives.zip tops).map fun y => (y.1.dark, cutAt b s y.2 y.1.area))
        (f.primitives.map fun P => (P.dark, P.area)) := by
      clear h1 h3 hne h hin
      revert hp
      generalize f.primitives = Ps at *
      intro hp
      induction h2 with
      | nil => exact .nil
      | @cons P t _ _ ht _ ih =>
        refine .cons ⟨rfl, ⟨fun h => h.1, fun h => ⟨h, ?_⟩⟩⟩ (ih fun P hP => hp P (by simp [hP]))
        obtain ⟨p', hp', hle⟩ := hp _ (by simp) h
        have k0 := mul_le_mul_of_nonneg_left (ht p' hp') hs.le
        have k1 := Int.sub_one_lt_floor (s * t - ⌊b.2.1 * s⌋)
        have k2 := Int.floor_le (b.2.1 * s)
        show s * p.2 - b.2.1 * s ≤ _
        linarith
    constructor
    · rintro ⟨p', he, hl⟩
      obtain rfl := onPicture_inj hs he
      exact (lastDark_congr key).mp hl
    · exact fun hl => ⟨p, rfl, (lastDark_congr key).mpr hl⟩

/-- **C75, from the text.** For every text of a Gerber file that can be read, and that draws something, all of it
primitives that are drawn right: a point at least one pixel below the top of all areas containing it is painted exactly
if the last of the primitives drawn by the statements (`Spec.picture`) whose areas contain it is dark. -/
theorem C75_text_partial {K : Engine} (hK : K.Winding) (parts : G → Pt → PyR (List (Bool × Cairo.Shape)))
    {env : EvalEnv G} {fs : Str → Option Str} {data : Str} {f : GerberFile G} (hf : loads env fs data = .ok f) :
    ∃ stmts settings, parseText fs data = .ok (stmts, settings) ∧
      (picture env stmts.reverse ≠ [] → (∀ P ∈ picture env stmts.reverse, P.Draws) → ∀ s : ℝ, 0 < s →
        ∃ (b : Box) (area : Set RPt) (c : Cairo.Ctx), f.render K parts { scale := s } = .ok c ∧
          c.frame = some (Frame.of s b) ∧
          c.paints = [.background [0, 0, 0] 1, .layer [7215 / 10000, 451 / 1000, 200 / 1000] 1 area] ∧
          (∀ P ∈ picture env stmts.reverse, ∀ p ∈ P.area, Visible (Frame.of s b).sizePx (onPicture b s false p)) ∧
          (∀ q ∈ area, ∃ P ∈ picture env stmts.reverse, P.dark = true ∧ ∃ p ∈ P.area, q = onPicture b s false p) ∧
          ∀ p, (∀ P ∈ picture env stmts.reverse, p ∈ P.area → ∃ p' ∈ P.area, s * p.2 ≤ s * p'.2 - 1) →
            (onPicture b s false p ∈ area ↔
              LastDark ((picture env stmts.reverse).map fun P => (P.dark, P.area)) p)) := by
  obtain ⟨stmts, settings, h1, h2⟩ := C14_file_picture env fs data hf
  refine ⟨stmts, settings, h1, fun hne h s hs => ?_⟩
  rw [← h2] at hne h ⊢
  exact C75_inner_partial hK parts hne h hs

end Verif.Gerber
