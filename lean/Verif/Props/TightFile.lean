import Verif.Props.Tight
import Verif.Props.GerberPicture

/-! # The bounding box of a Gerber file is as small as possible (C82) -/

namespace Verif.Gerber
open Verif.Py Verif.Cairo Verif.Geom

variable {G : Type}

/-- The area of a flash, line or arc, and the contour of a region. -/
noncomputable def Prim.extent : Prim G → Set RPt
  | .region es _ _ => {q | ∃ e ∈ es, q ∈ e.path}
  | P => P.area

/-- Paths whose boxes are the smallest: lines, and arcs in multi-quadrant mode between points of their circle. -/
def Edge.Fits : Edge G → Prop
  | .line .. => True
  | .arc s e c _ _ q _ _ => q = "multi-quadrant" ∧ ∃ m, c = some m ∧
    (e.1 - m.1) ^ 2 + (e.2 - m.2) ^ 2 = (s.1 - m.1) ^ 2 + (s.2 - m.2) ^ 2

/-- Primitives whose boxes are the smallest: lines with round, rectangular and obround apertures, arcs with round
apertures, flashes of these without holes, regions. -/
def Prim.Fits : Prim G → Prop
  | .edge e => e.Fits ∧ match e, e.ap.shape with
    | _, .circle d _ => 0 ≤ d
    | .line .., .rect w h _ => 0 ≤ w ∧ 0 ≤ h
    | .line .., .obround w h _ => 0 ≤ w ∧ 0 ≤ h
    | _, _ => False
  | .flash s _ _ _ => match s with
    | .circle d hole => 0 ≤ d ∧ hole.NoRound ∧ hole.NoRect
    | .rect w h hole => 0 ≤ w ∧ 0 ≤ h ∧ hole.NoRound ∧ hole.NoRect
    | .obround w h hole => 0 ≤ w ∧ 0 ≤ h ∧ hole.NoRound ∧ hole.NoRect
    | .polygon n r rot hole => 0 < n ∧ 4 ∣ n ∧ 0 < r ∧ rot = 0 ∧ hole.NoRound ∧ hole.NoRect
    | .group _ => False
  | .region es _ _ => es ≠ [] ∧ ∀ e ∈ es, e.Fits

theorem hole_none {hole : Hole} (h1 : hole.NoRound) (h2 : hole.NoRect) : hole.area = ∅ := by
  ext q
  simp only [Hole.area, Set.mem_union, Set.mem_ofPred_eq, Set.mem_empty_iff_false, iff_false]
  rintro (⟨h, -⟩ | ⟨h, h', -⟩)
  · exact h1 h
  · exact h2 ⟨h, h'⟩

theorem edge_fits {e : Edge G} (h : e.Fits) : ∃ x, e.part = .ok x ∧ x.box.Tight e.path ∧ Touches x.box e.path := by
  cases e with
  | line s t ap pol u => exact ⟨_, rfl, C82_edge _ _, straight_touches _ _⟩
  | arc s t c d ap q pol u =>
    obtain ⟨rfl, m, rfl, h⟩ := h
    have he : arcRadius (toPlane s) (toPlane m) = arcRadius (toPlane t) (toPlane m) := by
      rw [radius_eq, radius_eq, h]
    exact ⟨_, rfl, C82_arc_edge he, arcBox_touches he⟩

theorem flash_fits {s : Shape G} {p : Pt} {pol u : String} {A B : ℝ} {S : Set RPt} (hs : s.area = S)
    (hS : S ⊆ slab (2 * A) (2 * B)) (ht : Touches ((-A, A), (-B, B)) S) :
    (around (toPlane p) A B).Tight (Prim.flash s p pol u).extent := by
  have e : (Prim.flash s p pol u).extent = placed (toPlane p) 0 S := by
    rw [← hs]
    exact flash_area s p pol u
  rw [e]
  refine ⟨fun q hq => ?_, (placed_zero_touches ht).least⟩
  obtain ⟨v, hv, rfl⟩ := turn_zero hq
  have := hS hv
  simp only [slab, Set.mem_ofPred_eq] at this
  exact holds_around (by linarith [this.1]) (by linarith [this.2])

theorem disc_slab {r : ℝ} (h : 0 ≤ r) : disc r ⊆ slab (2 * r) (2 * r) := by
  intro p hp
  obtain ⟨h1, h2⟩ := abs_le_of_disc h hp
  exact ⟨by linarith, by linarith⟩

theorem parts_fit {es : List (Edge G)} (h : ∀ e ∈ es, e.Fits) : ∃ xs, es.mapM Edge.part = .ok xs ∧
    List.Forall₂ Box.Tight (xs.map Part.box) (es.map Edge.path) := by
  induction es with
  | nil => exact ⟨[], rfl, .nil⟩
  | cons e l ih =>
    obtain ⟨x, h1, h2, -⟩ := edge_fits (h e (by simp))
    obtain ⟨xs, h3, h4⟩ := ih fun y hy => h y (by simp [hy])
    refine ⟨x :: xs, ?_, .cons h2 h4⟩
    rw [List.mapM_cons, h1, h3]
    rfl

/-- **C82 for the primitives of a Gerber file**: the box of each is the smallest around what it draws, for regions
around their contour. -/
theorem C82_primitive_partial (parts : G → Pt → PyR (List (Bool × Cairo.Shape))) {P : Prim G} (h : P.Fits) :
    ∃ x b, P.drawn parts = .ok x ∧ primBox x = .ok b ∧ b.Tight P.extent := by
  cases P with
  | edge e =>
    obtain ⟨h, ha⟩ := h
    cases e with
    | line s e ap pol u =>
      obtain ⟨sh, au⟩ := ap
      cases sh with
      | circle d hole =>
        have d0 : (0 : ℝ) ≤ d := by exact_mod_cast ha
        exact ⟨_, _, rfl, rfl, fun q hq => swept_box (fun _ => straight_box)
            (fun p hp => abs_le_of_disc (by linarith) hp) hq,
          (swept_touches (straight_touches _ _) disc_touches).least⟩
      | rect w g hole =>
        have w0 : (0 : ℝ) ≤ w := by exact_mod_cast ha.1
        have g0 : (0 : ℝ) ≤ g := by exact_mod_cast ha.2
        exact ⟨_, _, rfl, rfl, fun q hq => swept_box (m := ((w : ℝ) / 2, (g : ℝ) / 2)) (fun _ => straight_box)
            (fun p hp => hp) hq,
          (swept_touches (m := ((w : ℝ) / 2, (g : ℝ) / 2)) (straight_touches _ _) (slab_touches w0 g0)).least⟩
      | obround w g hole =>
        have w0 : (0 : ℝ) ≤ w := by exact_mod_cast ha.1
        have g0 : (0 : ℝ) ≤ g := by exact_mod_cast ha.2
        exact ⟨_, _, rfl, rfl, fun q hq => swept_box (m := ((w : ℝ) / 2, (g : ℝ) / 2)) (fun _ => straight_box)
            (fun p hp => stadium_slab w0 g0 hp) hq,
          (swept_touches (m := ((w : ℝ) / 2, (g : ℝ) / 2)) (straight_touches _ _) stadium_touches).least⟩
      | _ => exact ha.elim
    | arc s e c d ap q pol u =>
      obtain ⟨rfl, m, rfl, hr⟩ := h
      obtain ⟨sh, au⟩ := ap
      have he : arcRadius (toPlane s) (toPlane m) = arcRadius (toPlane e) (toPlane m) := by
        rw [radius_eq, radius_eq, hr]
      cases sh with
      | circle di hole =>
        have d0 : (0 : ℝ) ≤ di := by exact_mod_cast ha
        exact ⟨_, _, rfl, rfl, fun q hq => swept_box (fun _ => C32_arc_path)
            (fun p hp => abs_le_of_disc (by linarith) hp) hq,
          (swept_touches (arcBox_touches he) disc_touches).least⟩
      | _ => exact ha.elim
  | flash s p pol u =>
    cases s with
    | circle d hole =>
      obtain ⟨h0, h1, h2⟩ := h
      have d0 : (0 : ℝ) ≤ d := by exact_mod_cast h0
      exact ⟨_, _, rfl, rfl, flash_fits (by rw [Shape.area, hole_none h1 h2, Set.sdiff_empty])
        (disc_slab (by linarith)) disc_touches⟩
    | rect w g hole =>
      obtain ⟨h0, h0', h1, h2⟩ := h
      have w0 : (0 : ℝ) ≤ w := by exact_mod_cast h0
      have g0 : (0 : ℝ) ≤ g := by exact_mod_cast h0'
      refine ⟨_, _, rfl, rfl, ?_⟩
      rw [(axis_zero (w : ℝ) g).1, (axis_zero (w : ℝ) g).2]
      exact flash_fits (by rw [Shape.area, hole_none h1 h2, Set.sdiff_empty])
        (by rw [mul_div_cancel₀ _ two_ne_zero, mul_div_cancel₀ _ two_ne_zero]) (slab_touches w0 g0)
    | obround w g hole =>
      obtain ⟨h0, h0', h1, h2⟩ := h
      have w0 : (0 : ℝ) ≤ w := by exact_mod_cast h0
      have g0 : (0 : ℝ) ≤ g := by exact_mod_cast h0'
      refine ⟨_, _, rfl, rfl, ?_⟩
      rw [(axis_zero (w : ℝ) g).1, (axis_zero (w : ℝ) g).2]
      exact flash_fits (by rw [Shape.area, hole_none h1 h2, Set.sdiff_empty])
        (by rw [mul_div_cancel₀ _ two_ne_zero, mul_div_cancel₀ _ two_ne_zero]; exact stadium_slab w0 g0)
        stadium_touches
    | polygon n r rot hole =>
      obtain ⟨hn, h4, h0, rfl, h1, h2⟩ := h
      have r0 : (0 : ℝ) < r := by exact_mod_cast h0
      have hs' : sides n = .ok n.toNat := by unfold sides; rw [if_neg (by omega)]
      refine ⟨_, _, by simp only [Prim.drawn, hs', bind, Except.bind]; rfl, rfl, ?_⟩
      have := (C82_polygon_iff (o := ⟨.polygon, none, 0, fun _ => some (toPlane p), fun _ => some (r : ℝ), "clockwise",
        "multi-quadrant", none, [], 0, [], none, none, none⟩) rfl rfl rfl r0 (n := n.toNat) (by omega) rfl rfl).mpr
        (by omega)
      have e : (Prim.flash (.polygon n r 0 hole : Shape G) p pol u).extent =
          placed (toPlane p) 0 (regular n.toNat r) := by
        have : (Prim.flash (.polygon n r 0 hole : Shape G) p pol u).extent =
          placed (toPlane p) 0 (Shape.area (.polygon n r 0 hole : Shape G)) := flash_area _ p pol u
        rw [this, Shape.area, hole_none h1 h2, Set.sdiff_empty, placed_placed, Rat.cast_zero]
      rw [e]
      exact this
    | group g => exact h.elim
  | region es pol u =>
    obtain ⟨hne, hl⟩ := h
    obtain ⟨xs, h1, h2⟩ := parts_fit hl
    obtain ⟨b, hb⟩ : ∃ b, unionBox (xs.map Part.box) = some b := by
      cases es with
      | nil => exact absurd rfl hne
      | cons e l =>
        cases xs with
        | nil => cases h2
        | cons x xs => exact ⟨_, rfl⟩
    refine ⟨.shape (pol = "dark") (.region xs), b, by simp only [Prim.drawn, h1, bind, Except.bind], by simp only [primBox, Shape.box, hb], ?_⟩
    have := C82_parts (unionBox_spec hb) h2
    convert this using 1
    ext q
    simp [Prim.extent]

/-- The search for the box begins with limits which one of the boxes exceeds on each side, so they do not matter. -/
theorem million_smallest {bs : List Box} (hlo : ∃ x ∈ bs, x.1.1 ≤ 1000000) (hhi : ∃ x ∈ bs, -1000000 ≤ x.1.2)
    (hlo' : ∃ x ∈ bs, x.2.1 ≤ 1000000) (hhi' : ∃ x ∈ bs, -1000000 ≤ x.2.2) :
    SmallestAround (bs.foldl widen million) bs := by
  obtain ⟨w1, -⟩ := widen_fold bs million
  have side : ∀ (bs : List Box) (r : Box),
      (((bs.foldl widen r).1.1 = r.1.1 ∨ ∃ x ∈ bs, (bs.foldl widen r).1.1 = x.1.1) ∧
      ((bs.foldl widen r).1.2 = r.1.2 ∨ ∃ x ∈ bs, (bs.foldl widen r).1.2 = x.1.2)) ∧
      ((bs.foldl widen r).2.1 = r.2.1 ∨ ∃ x ∈ bs, (bs.foldl widen r).2.1 = x.2.1) ∧
      ((bs.foldl widen r).2.2 = r.2.2 ∨ ∃ x ∈ bs, (bs.foldl widen r).2.2 = x.2.2) := by
    intro bs
    induction bs with
    | nil => intro r; simp
    | cons a l ih =>
      intro r
      obtain ⟨⟨i1, i2⟩, i3, i4⟩ := ih (widen r a)
      simp only [List.foldl_cons, List.mem_cons, exists_eq_or_imp]
      refine ⟨⟨?_, ?_⟩, ?_, ?_⟩
      · rcases i1 with h | h
        · rw [h]
          rcases min_choice a.1.1 r.1.1 with e | e <;> simp only [widen, e] <;> tauto
        · exact .inr (.inr h)
      · rcases i2 with h | h
        · rw [h]
          rcases max_choice a.1.2 r.1.2 with e | e <;> simp only [widen, e] <;> tauto
        · exact .inr (.inr h)
      · rcases i3 with h | h
        · rw [h]
          rcases min_choice a.2.1 r.2.1 with e | e <;> simp only [widen, e] <;> tauto
        · exact .inr (.inr h)
      · rcases i4 with h | h
        · rw [h]
          rcases max_choice a.2.2 r.2.2 with e | e <;> simp only [widen, e] <;> tauto
        · exact .inr (.inr h)
  obtain ⟨⟨s1, s2⟩, s3, s4⟩ := side bs million
  refine ⟨fun x hx q hq => ?_, ?_, ?_, ?_, ?_⟩
  · obtain ⟨k1, k2, k3, k4⟩ := w1 x hx
    exact ⟨k1.trans hq.1, hq.2.1.trans k2, k3.trans hq.2.2.1, hq.2.2.2.trans k4⟩
  · rcases s1 with h | h
    · obtain ⟨x, hx, hl⟩ := hlo
      exact ⟨x, hx, le_antisymm (w1 x hx).1 (by rw [h]; exact hl)⟩
    · exact h
  · rcases s2 with h | h
    · obtain ⟨x, hx, hl⟩ := hhi
      exact ⟨x, hx, le_antisymm (by rw [h]; exact hl) (w1 x hx).2.1⟩
    · exact h
  · rcases s3 with h | h
    · obtain ⟨x, hx, hl⟩ := hlo'
      exact ⟨x, hx, le_antisymm (w1 x hx).2.2.1 (by rw [h]; exact hl)⟩
    · exact h
  · rcases s4 with h | h
    · obtain ⟨x, hx, hl⟩ := hhi'
      exact ⟨x, hx, le_antisymm (by rw [h]; exact hl) (w1 x hx).2.2.2⟩
    · exact h

/-- **C82 for Gerber files**: if the file has primitives, all with smallest boxes (`Prim.Fits`), and draws something
at a distance of at most a million from the axes, its bounding box is the smallest around all that it draws (for
regions: around the contours).  Missing: the primitives for which `C82_polygon_iff` and `C82_arc_rectangle_violated`
show that their boxes are too large, holes larger than the aperture, macros, arcs in single-quadrant mode. -/
theorem C82_file_partial (parts : G → Pt → PyR (List (Bool × Cairo.Shape))) {f : GerberFile G}
    (h : ∀ P ∈ f.primitives, P.Fits)
    (hnear : ∃ P ∈ f.primitives, ∃ q ∈ P.extent, |q.1| ≤ 1000000 ∧ |q.2| ≤ 1000000) :
    ∃ prims b, f.primitives.mapM (Prim.drawn parts) = .ok prims ∧ boxAround prims = .ok b ∧
      b.Tight {q | ∃ P ∈ f.primitives, q ∈ P.extent} := by
  obtain ⟨stmts, settings, Ps⟩ := f
  simp only at h hnear ⊢
  obtain ⟨xs, bs, h1, h2, h3⟩ : ∃ xs bs, Ps.mapM (Prim.drawn parts) = .ok xs ∧
      List.Forall₂ (fun x b => primBox x = .ok b) xs bs ∧ List.Forall₂ Box.Tight bs (Ps.map Prim.extent) := by
    clear hnear
    induction Ps with
    | nil => exact ⟨[], [], rfl, .nil, .nil⟩
    | cons P l ih =>
      obtain ⟨x, b, g1, g2, g3⟩ := C82_primitive_partial parts (h P (by simp))
      obtain ⟨xs, bs, h1, h2, h3⟩ := ih fun Q hQ => h Q (by simp [hQ])
      refine ⟨x :: xs, b :: bs, ?_, .cons g2 h2, .cons g3 h3⟩
      rw [List.mapM_cons, g1, h1]
      rfl
  refine ⟨xs, _, h1, boxAround_fold h2, ?_⟩
  have hx : ∃ x ∈ bs, (x.1.1 ≤ 1000000 ∧ -1000000 ≤ x.1.2) ∧ x.2.1 ≤ 1000000 ∧ -1000000 ≤ x.2.2 := by
    obtain ⟨P, hP, q, hq, q1, q2⟩ := hnear
    obtain ⟨x, hx, ht⟩ := Excellon.forall₂_left h3.flip (List.mem_map_of_mem (f := Prim.extent) hP)
    obtain ⟨k1, k2, k3, k4⟩ := ht.1 q hq
    rw [abs_le] at q1 q2
    exact ⟨x, hx, ⟨by linarith, by linarith⟩, by linarith, by linarith⟩
  obtain ⟨x, hx, ⟨x1, x2⟩, x3, x4⟩ := hx
  have := C82_parts (million_smallest ⟨x, hx, x1⟩ ⟨x, hx, x2⟩ ⟨x, hx, x3⟩ ⟨x, hx, x4⟩) h3
  convert this using 1
  ext q
  simp

/-- A line, a flash and a region with a half circle: the hypotheses hold. -/
example : (∀ P ∈ ([.edge (.line (0, 0) (1, 0) ⟨.circle (1 / 10) {}, "inch"⟩ "dark" "inch"),
      .flash (.rect 1 2 {}) (3, 3) "dark" "inch",
      .region [.line (0, 0) (2, 0) ⟨.circle 0 {}, "inch"⟩ "dark" "inch",
        .arc (2, 0) (0, 0) (some (1, 0)) "counterclockwise" ⟨.circle 0 {}, "inch"⟩ "multi-quadrant" "dark" "inch"]
        "dark" "inch"] : List (Prim G)), P.Fits) ∧
    ∃ q ∈ (Prim.edge (.line (0, 0) (1, 0) ⟨.circle (1 / 10) {}, "inch"⟩ "dark" "inch") : Prim G).extent,
      |q.1| ≤ 1000000 ∧ |q.2| ≤ 1000000 := by
  constructor
  · intro P hP
    simp only [List.mem_cons, List.not_mem_nil, or_false] at hP
    rcases hP with rfl | rfl | rfl
    · exact ⟨trivial, show (0 : ℚ) ≤ 1 / 10 by norm_num⟩
    · exact ⟨by norm_num, by norm_num, by simp [Hole.NoRound], by simp [Hole.NoRect]⟩
    · refine ⟨by simp, ?_⟩
      intro e he
      simp only [List.mem_cons, List.not_mem_nil, or_false] at he
      rcases he with rfl | rfl
      · trivial
      · exact ⟨rfl, (1, 0), rfl, by norm_num⟩
  · refine ⟨(0, 0), ⟨(0, 0), ⟨0, le_rfl, zero_le_one, by simp [toPlane]⟩, (0, 0), ?_, by simp⟩, by norm_num, by norm_num⟩
    show (0 : ℝ) ^ 2 + 0 ^ 2 ≤ _
    norm_num [Edge.ap]

end Verif.Gerber
