import Verif.Props.CairoLayer
import Verif.Props.Vertices

/-! # C68: primitives are drawn as the areas they stand for

The mask of a primitive is its area in pixels. -/

namespace Verif.Cairo

open Verif.Py Verif.Geom Verif.Render

/-- An area in pixels. -/
def inPixels (s : ℝ) (A : Set RPt) : Set RPt := scalePoint s '' A

theorem mem_inPixels {s : ℝ} (hs : 0 < s) (A : Set RPt) (q : RPt) : q ∈ inPixels s A ↔ (q.1 / s, q.2 / s) ∈ A := by
  constructor
  · rintro ⟨p, hp, rfl⟩
    have : ((scalePoint s p).1 / s, (scalePoint s p).2 / s) = p := by
      simp only [scalePoint]
      rw [mul_div_cancel_right₀ _ hs.ne', mul_div_cancel_right₀ _ hs.ne']
    rwa [this]
  · intro h
    refine ⟨_, h, ?_⟩
    simp only [scalePoint]
    rw [div_mul_cancel₀ _ hs.ne', div_mul_cancel₀ _ hs.ne']

theorem placed_zero (c : RPt) (S : Set RPt) (q : RPt) : q ∈ placed c 0 S ↔ (q.1 - c.1, q.2 - c.2) ∈ S := by
  simp only [placed, radians, Set.mem_ofPred_eq]
  norm_num
  constructor
  · rintro ⟨a, b, h, rfl⟩
    simpa using h
  · exact fun h => ⟨_, _, h, by simp⟩

theorem discAt_scaled {s : ℝ} (hs : 0 < s) (c : RPt) (r : ℝ) :
    discAt (scalePoint s c) (r * s) = inPixels s (placed c 0 (disc r)) := by
  ext q
  rw [mem_inPixels hs, placed_zero]
  simp only [discAt, disc, scalePoint, Set.mem_ofPred_eq]
  have e1 : q.1 / s - c.1 = (q.1 - c.1 * s) / s := by field_simp
  have e2 : q.2 / s - c.2 = (q.2 - c.2 * s) / s := by field_simp
  rw [e1, e2, div_pow, div_pow, ← add_div, div_le_iff₀ (by positivity), mul_pow]

theorem stroke_scaled {s : ℝ} (hs : 0 < s) (a e : RPt) {d : ℝ} (hd : 0 < d) :
    strokeOf (straight (scalePoint s a) (scalePoint s e)) (d * s) =
      inPixels s (swept (straight a e) (disc (d / 2))) := by
  ext q
  rw [mem_inPixels hs]
  have hw : 0 < d * s := mul_pos hd hs
  simp only [strokeOf, swept, Set.mem_ofPred_eq, hw, true_and]
  have key : ∀ c : RPt, q ∈ discAt (scalePoint s c) (d * s / 2) ↔ (q.1 / s - c.1, q.2 / s - c.2) ∈ disc (d / 2) := by
    intro c
    rw [show d * s / 2 = d / 2 * s by ring, discAt_scaled hs, mem_inPixels hs, placed_zero]
  constructor
  · rintro ⟨c, ⟨t, t0, t1, rfl⟩, h⟩
    refine ⟨(a.1 + t * (e.1 - a.1), a.2 + t * (e.2 - a.2)), ⟨t, t0, t1, rfl⟩,
      (q.1 / s - (a.1 + t * (e.1 - a.1)), q.2 / s - (a.2 + t * (e.2 - a.2))),
      (key (a.1 + t * (e.1 - a.1), a.2 + t * (e.2 - a.2))).mp ?_, by simp⟩
    convert h using 2
    simp only [scalePoint, Prod.mk.injEq]
    constructor <;> ring
  · rintro ⟨c, ⟨t, t0, t1, rfl⟩, p, hp, h⟩
    refine ⟨scalePoint s (a.1 + t * (e.1 - a.1), a.2 + t * (e.2 - a.2)), ⟨t, t0, t1, ?_⟩, (key _).mpr ?_⟩
    · simp only [scalePoint, Prod.mk.injEq]
      constructor <;> ring
    · injection h with h1 h2
      convert hp using 1
      exact Prod.ext (by simp only [h1]; ring) (by simp only [h2]; ring)

/-- Circles, with a round hole or without. -/
theorem C68_circle (K : Engine) {s : ℝ} (hs : 0 < s) (dark invert : Bool) (pos : RPt) (d rot hd : ℝ) :
    ∃ M, K.mask s dark invert (.circle pos d rot { diameter := hd }) = .ok M ∧
      M = if 0 < hd then inPixels s (placed pos 0 (disc (d / 2))) \ inPixels s (placed pos 0 (disc (hd / 2)))
        else inPixels s (placed pos 0 (disc (d / 2))) := by
  refine ⟨_, rfl, ?_⟩
  simp only [Engine.holes, discAt_scaled hs, lt_irrefl, false_and, if_false, if_true]

/-- Drills are discs. -/
theorem C68_drill (K : Engine) {s : ℝ} (hs : 0 < s) (dark invert : Bool) (pos : RPt) (d : ℝ) :
    K.mask s dark invert (.drill pos d) = .ok (inPixels s (placed pos 0 (disc (d / 2)))) := by
  simp only [Engine.mask, discAt_scaled hs]

/-- Lines drawn with a round aperture. -/
theorem C68_line (K : Engine) {s : ℝ} (hs : 0 < s) (dark invert : Bool) (a e : RPt) {d : ℝ} (hd : 0 < d) :
    K.mask s dark invert (.line a e (.circle d)) = .ok (inPixels s (swept (straight a e) (disc (d / 2)))) := by
  simp only [Engine.mask, stroke_scaled hs a e hd]

/-- Slots. -/
theorem C68_slot (K : Engine) {s : ℝ} (hs : 0 < s) (dark invert : Bool) (a e : RPt) {d : ℝ} (hd : 0 < d) :
    K.mask s dark invert (.slot a e d) = .ok (inPixels s (swept (straight a e) (disc (d / 2)))) := by
  simp only [Engine.mask, stroke_scaled hs a e hd]

/-- Violation: lines of width 0 are not drawn at all (arcs of width 0 are, with a thousandth). -/
theorem C68_line_violated (K : Engine) (s : ℝ) (dark invert : Bool) (a e : RPt) :
    K.mask s dark invert (.line a e (.circle 0)) = .ok ∅ ∧ arcWidth (.circle 0) = .ok (1 / 1000) := by
  constructor
  · simp [Engine.mask, strokeOf]
  · simp [arcWidth]

theorem rectAt_scaled {s : ℝ} (hs : 0 < s) (x y : ℝ) {w h : ℝ} (hw : 0 ≤ w) (hh : 0 ≤ h) :
    rectAt ((x - w / 2) * s) ((y - h / 2) * s) |w * s| |h * s| = inPixels s (placed (x, y) 0 (slab w h)) := by
  ext q
  rw [mem_inPixels hs, placed_zero, abs_of_nonneg (mul_nonneg hw hs.le), abs_of_nonneg (mul_nonneg hh hs.le)]
  simp only [rectAt, slab, Set.mem_ofPred_eq, abs_le]
  obtain ⟨u, hu⟩ : ∃ u, u = q.1 / s := ⟨_, rfl⟩
  obtain ⟨v, hv⟩ : ∃ v, v = q.2 / s := ⟨_, rfl⟩
  have e1 : q.1 = u * s := by rw [hu, div_mul_cancel₀ _ hs.ne']
  have e2 : q.2 = v * s := by rw [hv, div_mul_cancel₀ _ hs.ne']
  rw [← hu, ← hv, e1, e2]
  rw [← add_mul, ← add_mul]
  simp only [mul_le_mul_iff_left₀ hs]
  constructor
  · rintro ⟨h1, h2, h3, h4⟩
    refine ⟨⟨?_, ?_⟩, ?_, ?_⟩ <;> linarith
  · rintro ⟨⟨h1, h2⟩, h3, h4⟩
    refine ⟨?_, ?_, ?_, ?_⟩ <;> linarith

theorem axis_zero (w h : ℝ) : axisAlignedWidth 0 w h = w ∧ axisAlignedHeight 0 w h = h := by
  simp [axisAlignedWidth, axisAlignedHeight, cosD, sinD, radians]

theorem noHole : ¬ 0 < ({} : Hole).diameter ∧ ¬ (0 < ({} : Hole).width ∧ 0 < ({} : Hole).height) := by norm_num

/-- Rectangles that are not turned and have no hole. -/
theorem C68_rectangle_partial (K : Engine) {s : ℝ} (hs : 0 < s) (dark invert : Bool) (pos : RPt) {w h : ℝ}
    (hw : 0 ≤ w) (hh : 0 ≤ h) : K.mask s dark invert (.rectangle pos w h 0 {}) =
      .ok (inPixels s (placed pos 0 (slab w h))) := by
  simp only [Engine.mask, (axis_zero w h).1, (axis_zero w h).2]
  rw [holes_none K _ _ _ _ _ _ noHole, rectAt_scaled hs pos.1 pos.2 hw hh]

theorem placed_90 (c : RPt) (S : Set RPt) (q : RPt) : q ∈ placed c 90 S ↔ (q.2 - c.2, c.1 - q.1) ∈ S := by
  have e : radians 90 = Real.pi / 2 := by unfold radians; ring
  simp only [placed, e, Real.cos_pi_div_two, Real.sin_pi_div_two, Set.mem_ofPred_eq]
  constructor
  · rintro ⟨p, hp, rfl⟩
    convert hp using 1
    ext <;> simp
  · exact fun h => ⟨_, h, by ext <;> simp⟩

theorem axis_90 (w h : ℝ) : axisAlignedWidth 90 w h = h ∧ axisAlignedHeight 90 w h = w := by
  have e : radians 90 = Real.pi / 2 := by unfold radians; ring
  simp [axisAlignedWidth, axisAlignedHeight, cosD, sinD, e]

/-- Violation: turned rectangles are drawn upright, from the corner of the turned one.  Turned by 90 degrees, every
rectangle that is not a square is drawn wrongly. -/
theorem C68_rectangle_violated (K : Engine) {s : ℝ} (hs : 0 < s) (dark invert : Bool) (pos : RPt) {w h : ℝ}
    (hw : 0 ≤ w) (hh : 0 ≤ h) (hne : w ≠ h) :
    K.mask s dark invert (.rectangle pos w h 90 {}) ≠ .ok (inPixels s (placed pos 90 (slab w h))) := by
  simp only [Engine.mask, (axis_90 w h).1, (axis_90 w h).2]
  rw [holes_none K _ _ _ _ _ _ noHole]
  intro he
  injection he with he
  have key : ∀ u v : ℝ, (u * s, v * s) ∈ rectAt ((pos.1 - h / 2) * s) ((pos.2 - w / 2) * s) |w * s| |h * s| ↔
      (pos.1 - h / 2 ≤ u ∧ u ≤ pos.1 - h / 2 + w ∧ pos.2 - w / 2 ≤ v ∧ v ≤ pos.2 - w / 2 + h) := by
    intro u v
    simp only [rectAt, Set.mem_ofPred_eq, abs_of_nonneg (mul_nonneg hw hs.le), abs_of_nonneg (mul_nonneg hh hs.le),
      ← add_mul, mul_le_mul_iff_left₀ hs]
  have key2 : ∀ u v : ℝ, (u * s, v * s) ∈ inPixels s (placed pos 90 (slab w h)) ↔
      (|v - pos.2| ≤ w / 2 ∧ |pos.1 - u| ≤ h / 2) := by
    intro u v
    rw [mem_inPixels hs, placed_90]
    simp only [slab, Set.mem_ofPred_eq, mul_div_cancel_right₀ _ hs.ne']
  rcases lt_or_gt_of_ne hne with hlt | hlt
  · have h1 := (key (pos.1 - h / 2) (pos.2 - w / 2 + h)).mpr ⟨le_rfl, by linarith, by linarith, le_rfl⟩
    rw [he, key2, abs_le] at h1
    linarith [h1.1.2]
  · have h1 := (key (pos.1 - h / 2 + w) (pos.2 - w / 2)).mpr ⟨by linarith, le_rfl, le_rfl, by linarith⟩
    rw [he, key2, abs_le, abs_le] at h1
    linarith [h1.2.1]

/-- Obrounds without hole are drawn as if they were not turned. -/
theorem C68_obround_partial (K : Engine) {s : ℝ} (hs : 0 < s) (dark invert : Bool) (pos : RPt) {w h : ℝ}
    (hw : 0 ≤ w) (hh : 0 ≤ h) (rot : ℝ) : K.mask s dark invert (.obround pos w h rot {}) =
      .ok (inPixels s (placed pos 0 (stadium w h))) := by
  simp only [Engine.mask]
  rw [holes_none K _ _ _ _ _ _ noHole]
  congr 1
  ext q
  split
  · rename_i hwh
    have hL : 0 ≤ h - w := by linarith
    rw [rectAt_scaled hs pos.1 pos.2 hw hL, discAt_scaled hs, discAt_scaled hs]
    simp only [Set.mem_union, mem_inPixels hs, placed_zero, disc, slab, stadium, if_pos hwh, Set.mem_ofPred_eq, abs_le]
    generalize q.1 / s - pos.1 = x
    rw [show q.2 / s - (pos.2 + (h - w) / 2) = (q.2 / s - pos.2) - (h - w) / 2 by ring,
      show q.2 / s - (pos.2 - (h - w) / 2) = (q.2 / s - pos.2) + (h - w) / 2 by ring]
    generalize q.2 / s - pos.2 = y
    constructor
    · rintro ((h1 | h1) | ⟨⟨h1, h2⟩, h3, h4⟩)
      · exact ⟨(h - w) / 2, ⟨by linarith, le_rfl⟩, h1⟩
      · exact ⟨-((h - w) / 2), ⟨le_rfl, by linarith⟩, by rw [sub_neg_eq_add]; exact h1⟩
      · exact ⟨y, ⟨h3, h4⟩, by nlinarith⟩
    · rintro ⟨t, ⟨t1, t2⟩, ht⟩
      by_cases c1 : (h - w) / 2 < y
      · left; left; nlinarith
      · by_cases c2 : y < -((h - w) / 2)
        · left; right; nlinarith
        · right
          have := abs_le_of_sq_le_sq (show x ^ 2 ≤ (w / 2) ^ 2 by nlinarith [sq_nonneg (y - t)]) (by linarith)
          exact ⟨abs_le.mp this, by linarith, by linarith⟩
  · rename_i hwh
    have hL : 0 ≤ w - h := by linarith
    rw [rectAt_scaled hs pos.1 pos.2 hL hh, discAt_scaled hs, discAt_scaled hs]
    simp only [Set.mem_union, mem_inPixels hs, placed_zero, disc, slab, stadium, if_neg hwh, Set.mem_ofPred_eq, abs_le]
    generalize q.2 / s - pos.2 = y
    rw [show q.1 / s - (pos.1 - (h - w) / 2) = (q.1 / s - pos.1) - (w - h) / 2 by ring,
      show q.1 / s - (pos.1 + (h - w) / 2) = (q.1 / s - pos.1) + (w - h) / 2 by ring]
    generalize q.1 / s - pos.1 = x
    constructor
    · rintro ((h1 | h1) | ⟨⟨h3, h4⟩, h1, h2⟩)
      · exact ⟨(w - h) / 2, ⟨by linarith, le_rfl⟩, h1⟩
      · exact ⟨-((w - h) / 2), ⟨le_rfl, by linarith⟩, by rw [sub_neg_eq_add]; exact h1⟩
      · exact ⟨x, ⟨h3, h4⟩, by nlinarith⟩
    · rintro ⟨t, ⟨t1, t2⟩, ht⟩
      by_cases c1 : (w - h) / 2 < x
      · left; left; nlinarith
      · by_cases c2 : x < -((w - h) / 2)
        · left; right; nlinarith
        · right
          have := abs_le_of_sq_le_sq (show y ^ 2 ≤ (h / 2) ^ 2 by nlinarith [sq_nonneg (x - t)]) (by linarith)
          exact ⟨⟨by linarith, by linarith⟩, abs_le.mp this⟩

/-- Violation: the rotation of obrounds is ignored.  Turned by 90 degrees, every one that is wider than high is drawn
wrongly. -/
theorem C68_obround_violated (K : Engine) {s : ℝ} (hs : 0 < s) (dark invert : Bool) (pos : RPt) {w h : ℝ}
    (hh : 0 ≤ h) (hwh : h < w) :
    K.mask s dark invert (.obround pos w h 90 {}) ≠ .ok (inPixels s (placed pos 90 (stadium w h))) := by
  rw [C68_obround_partial K hs dark invert pos (by linarith) hh]
  intro he
  injection he with he
  have hn : ¬ w < h := by linarith
  have h1 : ((pos.1 + w / 2) * s, pos.2 * s) ∈ inPixels s (placed pos 0 (stadium w h)) := by
    rw [mem_inPixels hs, placed_zero]
    simp only [stadium, if_neg hn, Set.mem_ofPred_eq, mul_div_cancel_right₀ _ hs.ne']
    exact ⟨(w - h) / 2, by rw [abs_of_nonneg (by linarith)], by ring_nf; exact le_rfl⟩
  rw [he, mem_inPixels hs, placed_90] at h1
  simp only [stadium, if_neg hn, Set.mem_ofPred_eq, mul_div_cancel_right₀ _ hs.ne'] at h1
  obtain ⟨t, -, ht⟩ := h1
  nlinarith [sq_nonneg (pos.2 - pos.2 - t)]

/-! ## Closed paths -/

/-- What is assumed of cairo for closed paths: corners that run around a convex polygon fill it. -/
def Engine.Convex (K : Engine) : Prop := ∀ vs, Around vs → Planar vs → K.polygon vs = span vs

/-- The assumption can be met. -/
example : ∃ K : Engine, K.Convex := by
  refine ⟨⟨fun _ l => span (l.filterMap fun | .line p => some p | _ => none), fun _ _ _ _ _ _ => ∅⟩, ?_⟩
  rintro vs - ⟨p, hp, -⟩
  have hne : vs ≠ [] := List.ne_nil_of_mem hp
  simp only [Engine.polygon, List.getLast?_eq_some_getLast hne, List.filterMap_map]
  congr 1
  exact List.filterMap_some

theorem cross3_scaled (s : ℝ) (a b c : RPt) :
    cross3 (scalePoint s a) (scalePoint s b) (scalePoint s c) = s ^ 2 * cross3 a b c := by
  unfold cross3 scalePoint; ring

theorem around_scaled {s : ℝ} {vs : List RPt} (h : Around vs) : Around (vs.map (scalePoint s)) := by
  rcases h with h | h
  · left
    intro i hi p hp
    obtain ⟨q, hq, rfl⟩ := List.mem_map.mp hp
    simp only [List.length_map] at hi
    simp only [List.getElem_map, List.length_map, cross3_scaled]
    exact mul_nonneg (sq_nonneg s) (h i hi q hq)
  · right
    intro i hi p hp
    obtain ⟨q, hq, rfl⟩ := List.mem_map.mp hp
    simp only [List.length_map] at hi
    simp only [List.getElem_map, List.length_map, cross3_scaled]
    exact mul_nonpos_of_nonneg_of_nonpos (sq_nonneg s) (h i hi q hq)

theorem planar_scaled {s : ℝ} (hs : 0 < s) {vs : List RPt} (h : Planar vs) : Planar (vs.map (scalePoint s)) := by
  obtain ⟨p, hp, q, hq, r, hr, h⟩ := h
  refine ⟨_, List.mem_map_of_mem hp, _, List.mem_map_of_mem hq, _, List.mem_map_of_mem hr, ?_⟩
  rw [cross3_scaled]
  exact mul_ne_zero (by positivity) h

theorem span_scaled (s : ℝ) (vs : List RPt) : span (vs.map (scalePoint s)) = inPixels s (span vs) := by
  have hl : IsLinearMap ℝ (scalePoint s) := by
    constructor
    · intro p q; ext <;> simp [scalePoint] <;> ring
    · intro k p; ext <;> simp [scalePoint] <;> ring
  unfold span inPixels
  rw [hl.image_convexHull]
  congr 1
  ext q
  simp [Set.mem_image]

theorem polygon_scaled {K : Engine} (hK : K.Convex) {s : ℝ} (hs : 0 < s) {vs : List RPt} (ha : Around vs)
    (hp : Planar vs) : K.polygon (vs.map (scalePoint s)) = inPixels s (span vs) := by
  rw [hK _ (around_scaled ha) (planar_scaled hs hp), span_scaled]

theorem planar_polygon (pos : RPt) {n : ℕ} (hn : 3 ≤ n) {r : ℝ} (hr : r ≠ 0) (rot : ℝ) {vs : List RPt}
    (h : polygonVertices pos n r rot = .ok vs) : Planar vs := by
  have hn0 : n ≠ 0 := by omega
  have hn' : (0 : ℝ) < n := Nat.cast_pos.2 (by omega)
  have hn3 : (3 : ℝ) ≤ n := by exact_mod_cast hn
  simp only [polygonVertices, if_neg hn0] at h
  injection h with h
  have e : ∀ i : ℕ, rotatePoint (pos.1 + r, pos.2) (rot + 360 / (n : ℝ) * i) pos =
      onCircle pos r (2 * (radians rot / 2 + Real.pi * i / n)) := by
    intro i
    have e : radians (rot + 360 / (n : ℝ) * i) = 2 * (radians rot / 2 + Real.pi * i / n) := by
      unfold radians
      field_simp
      ring
    simp only [rotatePoint, e, onCircle]
    ext <;> simp <;> ring
  have hm : ∀ i < n, onCircle pos r (2 * (radians rot / 2 + Real.pi * (i : ℕ) / n)) ∈ vs := by
    intro i hi
    rw [← h, ← e i]
    exact List.mem_map_of_mem (List.mem_range.mpr hi)
  refine ⟨_, hm 0 (by omega), _, hm 1 (by omega), _, hm 2 (by omega), ?_⟩
  rw [cross3_circle]
  have hpi := Real.pi_pos
  have b1 : 0 < Real.pi / n := by positivity
  have b2 : 2 * (Real.pi / n) < Real.pi := by
    rw [← mul_div_assoc, div_lt_iff₀ hn']
    nlinarith
  have s1 := Real.sin_pos_of_pos_of_lt_pi b1 (by linarith)
  have s2 := Real.sin_pos_of_pos_of_lt_pi (by linarith : 0 < 2 * (Real.pi / n)) b2
  rw [show radians rot / 2 + Real.pi * ((1 : ℕ) : ℝ) / n - (radians rot / 2 + Real.pi * ((0 : ℕ) : ℝ) / n) = Real.pi / n by
      push_cast; ring,
    show radians rot / 2 + Real.pi * ((2 : ℕ) : ℝ) / n - (radians rot / 2 + Real.pi * ((1 : ℕ) : ℝ) / n) = Real.pi / n by
      push_cast; ring,
    show radians rot / 2 + Real.pi * ((2 : ℕ) : ℝ) / n - (radians rot / 2 + Real.pi * ((0 : ℕ) : ℝ) / n) =
      2 * (Real.pi / n) by push_cast; ring]
  positivity

/-- Polygons without hole. -/
theorem C68_polygon_partial {K : Engine} (hK : K.Convex) {s : ℝ} (hs : 0 < s) (dark invert : Bool) (pos : RPt) {n : ℕ}
    (hn : 3 ≤ n) {r : ℝ} (hr : r ≠ 0) (rot : ℝ) : K.mask s dark invert (.polygon pos n r rot {}) =
      .ok (inPixels s (placed pos rot (regular n r))) := by
  obtain ⟨vs, h1, -, h2⟩ := C62_polygon pos (show n ≠ 0 by omega) r rot
  simp only [Engine.mask, h1, bind, Except.bind]
  rw [holes_none K _ _ _ _ _ _ noHole,
    polygon_scaled hK hs (C62_polygon_around pos r rot h1) (planar_polygon pos hn hr rot h1), h2]

/-- Points within the span of corners on one line are on that line. -/
theorem planar_of_span {vs points : List RPt} (hnd : vs.Nodup) (h2 : 2 ≤ vs.length)
    (hin : ∀ p ∈ points, p ∈ span vs) (hp : Planar points) : Planar vs := by
  by_contra hn
  have hall : ∀ p ∈ vs, ∀ q ∈ vs, ∀ r ∈ vs, cross3 p q r = 0 := by
    intro p hp q hq r hr
    by_contra h
    exact hn ⟨p, hp, q, hq, r, hr, h⟩
  obtain ⟨a, b, l, rfl⟩ : ∃ a b l, vs = a :: b :: l := by
    match vs, h2 with
    | a :: b :: l, _ => exact ⟨a, b, l, rfl⟩
  have hab : a ≠ b := by
    rintro rfl
    simp at hnd
  have hconv : Convex ℝ {p : RPt | cross3 a b p = 0} := by
    intro p hp q hq x y _ _ hxy
    simp only [Set.mem_ofPred_eq, cross3, Prod.fst_add, Prod.snd_add, Prod.smul_fst, Prod.smul_snd, smul_eq_mul] at *
    linear_combination x * hp + y * hq +
      ((b.1 - a.1) * a.2 - (b.2 - a.2) * a.1) * (hxy)
  have hline : ∀ p ∈ points, cross3 a b p = 0 := fun p hp =>
    convexHull_min (fun v hv => hall a (by simp) b (by simp) v hv) hconv (hin p hp)
  obtain ⟨p, hp, q, hq, r, hr, h⟩ := hp
  have e1 := hline p hp
  have e2 := hline q hq
  have e3 := hline r hr
  apply h
  unfold cross3 at *
  by_cases hx : b.1 - a.1 = 0
  · have hy : b.2 - a.2 ≠ 0 := by
      intro hy
      exact hab (Prod.ext (by linarith) (by linarith))
    apply mul_left_cancel₀ hy
    linear_combination (r.2 - p.2) * (e1 - e2) - (q.2 - p.2) * (e1 - e3)
  · apply mul_left_cancel₀ hx
    linear_combination (q.1 - p.1) * (e3 - e1) - (r.1 - p.1) * (e2 - e1)

/-- Lines drawn with a rectangular aperture that is not turned. -/
theorem C68_line_rectangle_partial {K : Engine} (hK : K.Convex) {s : ℝ} (hs : 0 < s) (dark invert : Bool) (a e : RPt)
    {w h : ℝ} (hw : 0 ≤ w) (hh : 0 ≤ h) (ht : Thick a e w h) :
    K.mask s dark invert (.line a e (.rectangle w h 0)) =
      .ok (inPixels s (swept (straight a e) (placed (0, 0) 0 (slab w h)))) := by
  obtain ⟨vs, h1, h2, h3, h4⟩ := C62_line_partial a e hw hh ht
  have hp := planar_of_thick ht
  have hull : convexHullPts (endCorners a e w h) = some vs := by
    simp only [lineVertices] at h1
    split at h1
    · cases h1
    · rename_i l hl
      injection h1 with h1
      injection h1 with h1
      rw [hl, h1]
  obtain ⟨g1, -, -, g2, -⟩ := C42_hull_partial hp hull
  have hpl : Planar vs := planar_of_span h4 (by omega) g2 hp
  simp only [Engine.mask, Aperture.pen, h1, bind, Except.bind]
  cases vs with
  | nil => simp at g1
  | cons v l => rw [← h2, ← polygon_scaled hK hs h3 hpl]

example : Thick (0, 0) (3, 1) 1 (1 / 2) ∧ 3 ≤ 6 ∧ (2 : ℝ) ≠ 0 := ⟨.inl ⟨by norm_num, by norm_num⟩, by norm_num, by norm_num⟩

/-! ## Holes -/

/-- Violation: the round hole of a rectangle is not left out if the rectangle is clear or the layer inverted: the
hole is drawn, too, and with it the whole rectangle is removed. -/
theorem C68_hole_violated (K : Engine) {s : ℝ} (hs : 0 < s) {dark invert : Bool} (h : dark = false ∨ invert = true)
    (pos : RPt) {w h' hd : ℝ} (hw : 0 ≤ w) (hh : 0 ≤ h') (hd0 : 0 < hd) :
    K.mask s dark invert (.rectangle pos w h' 0 { diameter := hd }) =
      .ok (inPixels s (placed pos 0 (slab w h')) ∪ inPixels s (placed pos 0 (disc (hd / 2)))) := by
  have hc : (dark && !invert) = false := by rcases h with rfl | rfl <;> simp
  simp only [Engine.mask, Engine.holes, (axis_zero w h').1, (axis_zero w h').2, hc, if_pos hd0, lt_irrefl, false_and,
    if_false, Bool.false_eq_true, discAt_scaled hs]
  rw [rectAt_scaled hs pos.1 pos.2 hw hh]

/-- Round holes of dark rectangles are left out on layers that are not inverted. -/
theorem C68_hole_partial (K : Engine) {s : ℝ} (hs : 0 < s) (pos : RPt) {w h hd : ℝ} (hw : 0 ≤ w) (hh : 0 ≤ h)
    (hd0 : 0 < hd) : K.mask s true false (.rectangle pos w h 0 { diameter := hd }) =
      .ok (inPixels s (placed pos 0 (slab w h)) \ inPixels s (placed pos 0 (disc (hd / 2)))) := by
  simp only [Engine.mask, Engine.holes, (axis_zero w h).1, (axis_zero w h).2, if_pos hd0, lt_irrefl, false_and,
    if_false, Bool.not_false, Bool.and_self, if_true, discAt_scaled hs]
  rw [rectAt_scaled hs pos.1 pos.2 hw hh]

example : ∃ w h hd s : ℝ, 0 < s ∧ 0 ≤ w ∧ 0 ≤ h ∧ 0 < hd ∧ w ≠ h ∧ h < w := ⟨2, 1, 1 / 2, 10, by norm_num⟩

/-! ## Whole circles -/

/-- Violation: a clockwise whole circle in multi-quadrant mode is drawn as a dot: only directions within a billionth
of the start belong to the path. -/
theorem C68_full_circle_violated (K : Engine) (s : ℝ) (dark invert : Bool) (a c : RPt) {d : ℝ} (hd : d ≠ 0) :
    K.mask s dark invert (.arc a a c "clockwise" "multi-quadrant" (.circle d)) =
      .ok (strokeOf {q | ∃ t, theta a c - 1 / 1000000000 ≤ t ∧ t ≤ theta a c ∧
        q = onCircle (scalePoint s c) (s * arcRadius a c) t} (d * s)) := by
  have hq : ("multi-quadrant" : String) ≠ "single-quadrant" := by decide
  have hcw : decide (("clockwise" : String) ≠ "counterclockwise") = true := by decide
  simp only [Engine.mask, arcWidth, if_neg hd, bind, Except.bind, hcw,
    if_pos (And.intro trivial hq)]
  congr 2
  ext q
  simp only [arcPath, angles, Set.mem_ofPred_eq, if_true]
  constructor
  · rintro ⟨t, ⟨k, h1, h2, h3, h4⟩, rfl⟩
    rcases Nat.eq_zero_or_pos k with rfl | hk
    · exact ⟨t, by simpa using h3, h4, rfl⟩
    · have hk1 : (1 : ℝ) ≤ k := by exact_mod_cast hk
      rcases h2 with rfl | h2
      · simp at hk
      · nlinarith [Real.pi_pos]
  · rintro ⟨t, h1, h2, rfl⟩
    exact ⟨t, ⟨0, by norm_num, .inl rfl, by simpa using h1, h2⟩, rfl⟩

/-- Violation: test points are drawn away from their place by the origin of the picture. -/
theorem C68_test_record_violated (f : Frame) (pos : RPt) :
    (∃ d rot hole, f.shapes (.testRecord pos) = [(true, .circle pos d rot hole)]) ↔ f.origin = (0, 0) := by
  simp only [Frame.shapes]
  constructor
  · rintro ⟨d, rot, hole, h⟩
    injection h with h
    injection h with _ h
    injection h with h
    have h1 := congrArg Prod.fst h
    have h2 := congrArg Prod.snd h
    simp only at h1 h2
    exact Prod.ext (by simpa using h1) (by simpa using h2)
  · intro h
    exact ⟨15 / 1000, 0, {}, by rw [h]; simp⟩

end Verif.Cairo
