import Verif.Props.CairoShape

/-! # C66 and C68 continued: whole primitives on the picture, rectangular holes, regions -/

namespace Verif.Cairo

open Verif.Py Verif.Geom Verif.Render

/-- The points of the picture covered by a primitive whose area `A` lies in its box `b`: every point of the area at its
place on the picture, except those above the upper limit of the clipping rectangle. -/
theorem C66_covered {K : Engine} {b0 : Box} (h0 : Ordered b0) {s : ℝ} (hs : 0 < s) {invert mirror dark : Bool}
    {x : Shape} {b : Box} {A : Set RPt} (hb : x.box = .ok b) (hob : Ordered b)
    (hm : K.mask s dark invert x = .ok (inPixels s A)) (hin : ∀ p ∈ A, b.Holds p) :
    ∃ D, K.covered (Frame.of s b0) invert mirror dark x = .ok D ∧
      ∀ q, q ∈ D ↔ ∃ p ∈ A, s * p.2 - b0.2.1 * s ≤ ⌊s * b.2.2 - ⌊b0.2.1 * s⌋⌋ ∧ q = onPicture b0 s mirror p := by
  have hm' : K.mask (Frame.of s b0).scale dark invert x = .ok (inPixels s A) := hm
  refine ⟨((Frame.of s b0).matrix mirror).apply '' ((Frame.of s b0).placeMask '' inPixels s A ∩ (Frame.of s b0).clip b),
    by simp only [Engine.covered, hb, hm', bind, Except.bind], fun q => ?_⟩
  constructor
  · rintro ⟨_, ⟨⟨_, ⟨p, hp, rfl⟩, rfl⟩, hc⟩, rfl⟩
    refine ⟨p, hp, ?_, C65_place h0 s mirror p⟩
    exact (C66_clip_iff (Frame.of s b0) hs.le hob (hin p hp)).mp hc
  · rintro ⟨p, hp, hc, rfl⟩
    exact ⟨_, ⟨⟨_, ⟨p, hp, rfl⟩, rfl⟩, (C66_clip_iff (Frame.of s b0) hs.le hob (hin p hp)).mpr hc⟩,
      C65_place h0 s mirror p⟩

/-! ## Areas lie in the boxes used for clipping -/

theorem box_disc (pos : RPt) {r : ℝ} (hr : 0 ≤ r) : Ordered (around pos r r) ∧
    ∀ p ∈ placed pos 0 (disc r), (around pos r r).Holds p := by
  refine ⟨⟨by simp only [around]; linarith, by simp only [around]; linarith⟩, fun p hp => ?_⟩
  rw [placed_zero] at hp
  simp only [disc, Set.mem_ofPred_eq] at hp
  obtain ⟨x1, x2⟩ := abs_le.mp (abs_le_of_sq_le_sq (by nlinarith [sq_nonneg (p.2 - pos.2)] :
    (p.1 - pos.1) ^ 2 ≤ r ^ 2) hr)
  obtain ⟨y1, y2⟩ := abs_le.mp (abs_le_of_sq_le_sq (by nlinarith [sq_nonneg (p.1 - pos.1)] :
    (p.2 - pos.2) ^ 2 ≤ r ^ 2) hr)
  refine ⟨?_, ?_, ?_, ?_⟩ <;> simp only [around] <;> linarith

/-- Circles and drills lie in their boxes. -/
theorem C66_box_circle (pos : RPt) {d : ℝ} (hd : 0 ≤ d) (rot : ℝ) (hole : Hole) :
    ∃ b, (Shape.circle pos d rot hole).box = .ok b ∧ (Shape.drill pos d).box = .ok b ∧ Ordered b ∧
      ∀ p ∈ placed pos 0 (disc (d / 2)), b.Holds p :=
  ⟨_, rfl, rfl, box_disc pos (by linarith)⟩

/-- Slots and round lines lie in their boxes. -/
theorem C66_box_line (a e : RPt) {d : ℝ} (hd : 0 ≤ d) :
    ∃ b, (Shape.slot a e d).box = .ok b ∧ (Shape.line a e (.circle d)).box = .ok b ∧ Ordered b ∧
      ∀ p ∈ swept (straight a e) (disc (d / 2)), b.Holds p := by
  refine ⟨_, rfl, rfl, ⟨?_, ?_⟩, ?_⟩
  · simp only [segBox, Box.grow]; linarith [min_le_max (a := a.1) (b := e.1)]
  · simp only [segBox, Box.grow]; linarith [min_le_max (a := a.2) (b := e.2)]
  · rintro p ⟨c, ⟨t, t0, t1, rfl⟩, v, hv, rfl⟩
    simp only [disc, Set.mem_ofPred_eq] at hv
    obtain ⟨x1, x2⟩ := abs_le.mp (abs_le_of_sq_le_sq (by nlinarith [sq_nonneg v.2] : v.1 ^ 2 ≤ (d / 2) ^ 2)
      (by linarith))
    obtain ⟨y1, y2⟩ := abs_le.mp (abs_le_of_sq_le_sq (by nlinarith [sq_nonneg v.1] : v.2 ^ 2 ≤ (d / 2) ^ 2)
      (by linarith))
    have key : ∀ u v : ℝ, min u v ≤ u + t * (v - u) ∧ u + t * (v - u) ≤ max u v := by
      intro u v
      rcases le_total u v with h | h
      · rw [min_eq_left h, max_eq_right h]; constructor <;> nlinarith
      · rw [min_eq_right h, max_eq_left h]; constructor <;> nlinarith
    have k1 := key a.1 e.1
    have k2 := key a.2 e.2
    refine ⟨?_, ?_, ?_, ?_⟩ <;> simp only [segBox, Box.grow] <;> linarith

/-- Rectangles and obrounds that are not turned lie in their boxes. -/
theorem C66_box_rectangle (pos : RPt) {w h : ℝ} (hw : 0 ≤ w) (hh : 0 ≤ h) (hole : Hole) :
    ∃ b, (Shape.rectangle pos w h 0 hole).box = .ok b ∧ (Shape.obround pos w h 0 hole).box = .ok b ∧ Ordered b ∧
      (∀ p ∈ placed pos 0 (slab w h), b.Holds p) ∧ ∀ p ∈ placed pos 0 (stadium w h), b.Holds p := by
  refine ⟨_, rfl, rfl, ?_⟩
  rw [(axis_zero w h).1, (axis_zero w h).2]
  refine ⟨⟨by simp only [around]; linarith, by simp only [around]; linarith⟩, ?_, ?_⟩
  · intro p hp
    rw [placed_zero] at hp
    obtain ⟨h1, h2⟩ := hp
    rw [abs_le] at h1 h2
    refine ⟨?_, ?_, ?_, ?_⟩ <;> simp only [around] <;> linarith [h1.1, h1.2, h2.1, h2.2]
  · intro p hp
    rw [placed_zero] at hp
    unfold stadium at hp
    split at hp
    · obtain ⟨t, ht, h1⟩ := hp
      simp only at h1
      obtain ⟨t1, t2⟩ := abs_le.mp ht
      obtain ⟨x1, x2⟩ := abs_le.mp (abs_le_of_sq_le_sq (by nlinarith [sq_nonneg (p.2 - pos.2 - t)] :
        (p.1 - pos.1) ^ 2 ≤ (w / 2) ^ 2) (by linarith))
      obtain ⟨y1, y2⟩ := abs_le.mp (abs_le_of_sq_le_sq (by nlinarith [sq_nonneg (p.1 - pos.1)] :
        (p.2 - pos.2 - t) ^ 2 ≤ (w / 2) ^ 2) (by linarith))
      refine ⟨?_, ?_, ?_, ?_⟩ <;> simp only [around] <;> linarith
    · obtain ⟨t, ht, h1⟩ := hp
      simp only at h1
      obtain ⟨t1, t2⟩ := abs_le.mp ht
      obtain ⟨y1, y2⟩ := abs_le.mp (abs_le_of_sq_le_sq (by nlinarith [sq_nonneg (p.1 - pos.1 - t)] :
        (p.2 - pos.2) ^ 2 ≤ (h / 2) ^ 2) (by linarith))
      obtain ⟨x1, x2⟩ := abs_le.mp (abs_le_of_sq_le_sq (by nlinarith [sq_nonneg (p.2 - pos.2)] :
        (p.1 - pos.1 - t) ^ 2 ≤ (h / 2) ^ 2) (by linarith))
      refine ⟨?_, ?_, ?_, ?_⟩ <;> simp only [around] <;> linarith

/-- Polygons lie in their boxes. -/
theorem C66_box_polygon (pos : RPt) {n : ℕ} (hn : n ≠ 0) {r : ℝ} (hr : 0 ≤ r) (rot : ℝ) (hole : Hole) :
    ∃ b, (Shape.polygon pos n r rot hole).box = .ok b ∧ Ordered b ∧
      ∀ p ∈ placed pos rot (regular n r), b.Holds p := by
  obtain ⟨vs, h1, -, h2⟩ := C62_polygon pos hn r rot
  obtain ⟨ho, hd⟩ := box_disc pos hr
  refine ⟨_, rfl, ho, ?_⟩
  rw [← h2]
  have hconv : Convex ℝ {p | (around pos r r).Holds p} := by
    have : {p | (around pos r r).Holds p} =
        Set.Icc (pos.1 - r) (pos.1 + r) ×ˢ Set.Icc (pos.2 - r) (pos.2 + r) := by
      ext p
      simp only [Box.Holds, around, Set.mem_ofPred_eq, Set.mem_prod, Set.mem_Icc]
      tauto
    rw [this]
    exact (convex_Icc _ _).prod (convex_Icc _ _)
  refine fun p hp => convexHull_min ?_ hconv hp
  intro v hv
  simp only [polygonVertices, if_neg hn] at h1
  injection h1 with h1
  rw [Set.mem_ofPred_eq, ← h1, List.mem_map] at hv
  obtain ⟨i, -, rfl⟩ := hv
  apply hd
  rw [placed_zero]
  simp only [disc, rotatePoint, Set.mem_ofPred_eq]
  generalize radians (rot + 360 / (n : ℝ) * i) = t
  nlinarith [Real.sin_sq_add_cos_sq t]

/-- A drill on the picture: all of it, except the part above the rounded upper limit. -/
example (K : Engine) : ∃ D, K.covered (Frame.of 10 ((0, 4), (0, 3))) false true true (.drill (1, 1) (1 / 2)) = .ok D ∧
    ∀ q, q ∈ D ↔ ∃ p ∈ placed (1, 1) 0 (disc (1 / 2 / 2)),
      10 * p.2 - 0 * 10 ≤ ⌊(10 : ℝ) * (1 + 1 / 2 / 2) - ⌊(0 : ℝ) * 10⌋⌋ ∧ q = onPicture ((0, 4), (0, 3)) 10 true p := by
  obtain ⟨h1, h2⟩ := box_disc (1, 1) (show (0 : ℝ) ≤ 1 / 2 / 2 by norm_num)
  exact C66_covered ⟨by norm_num, by norm_num⟩ (by norm_num) rfl h1 (C68_drill K (by norm_num) true false _ _) h2

/-! ## Rectangular holes -/

theorem rot_corner (s : ℝ) (pos : RPt) (rot u v : ℝ) :
    rotatePoint ((scalePoint s pos).1 + u * s, (scalePoint s pos).2 + v * s) rot (scalePoint s pos) =
      scalePoint s (turnMap pos rot (u, v)) := by
  simp only [rotatePoint, scalePoint, turnMap, AffineMap.coe_mk]
  ext <;> simp <;> ring

theorem cross3_turn (pos : RPt) (rot : ℝ) (a b c : RPt) :
    cross3 (turnMap pos rot a) (turnMap pos rot b) (turnMap pos rot c) = cross3 a b c := by
  simp only [cross3, turnMap, AffineMap.coe_mk]
  linear_combination ((b.1 - a.1) * (c.2 - a.2) - (b.2 - a.2) * (c.1 - a.1)) *
    Real.sin_sq_add_cos_sq (radians rot)

theorem holeArea_eq {K : Engine} (hK : K.Convex) {s : ℝ} (hs : 0 < s) (pos : RPt) (rot : ℝ) {hole : Hole}
    (hw : 0 < hole.width) (hh : 0 < hole.height) :
    K.holeArea s pos rot hole = inPixels s (placed pos rot (slab hole.width hole.height)) := by
  obtain ⟨d, w, h⟩ := hole
  simp only at hw hh
  have hpts : K.holeArea s pos rot ⟨d, w, h⟩ = K.polygon (([(-(w / 2), -(h / 2)), (w / 2, -(h / 2)), (w / 2, h / 2),
      (-(w / 2), h / 2)].map (turnMap pos rot)).map (scalePoint s)) := by
    simp only [Engine.holeArea, List.map_cons, List.map_nil, ← rot_corner]
    congr 1
    simp only [List.cons.injEq, and_true]
    refine ⟨?_, ?_, ?_, ?_⟩ <;> congr 1 <;> ext <;> simp <;> ring
  have ha : Around ([(-(w / 2), -(h / 2)), (w / 2, -(h / 2)), (w / 2, h / 2), (-(w / 2), h / 2)].map (turnMap pos rot)) := by
    left
    intro i hi p hp
    obtain ⟨q, hq, rfl⟩ := List.mem_map.mp hp
    have := mul_pos hw hh
    simp only [List.length_map, List.length_cons, List.length_nil] at hi
    simp only [List.getElem_map, List.length_map, List.length_cons, List.length_nil, cross3_turn]
    simp only [List.mem_cons, List.not_mem_nil, or_false] at hq
    interval_cases i <;> rcases hq with rfl | rfl | rfl | rfl <;> simp [cross3] <;> nlinarith
  have hp : Planar ([(-(w / 2), -(h / 2)), (w / 2, -(h / 2)), (w / 2, h / 2), (-(w / 2), h / 2)].map (turnMap pos rot)) := by
    refine ⟨_, List.mem_map_of_mem (a := ((-(w / 2), -(h / 2)) : RPt)) (by simp),
      _, List.mem_map_of_mem (a := ((w / 2, -(h / 2)) : RPt)) (by simp),
      _, List.mem_map_of_mem (a := ((w / 2, h / 2) : RPt)) (by simp), ?_⟩
    rw [cross3_turn]
    have := mul_pos hw hh
    simp only [cross3]
    nlinarith
  rw [hpts, polygon_scaled hK hs ha hp]
  congr 1
  rw [placed_eq, ← slab_span hw.le hh.le]
  unfold span
  rw [AffineMap.image_convexHull]
  congr 1
  ext q
  simp only [Set.mem_ofPred_eq, List.mem_map, List.mem_cons, List.not_mem_nil, or_false, Set.mem_image]
  constructor
  · rintro ⟨p, hp, rfl⟩
    refine ⟨p, ?_, rfl⟩
    rcases hp with h | h | h | h <;> simp [h]
  · rintro ⟨p, hp, rfl⟩
    refine ⟨p, ?_, rfl⟩
    rcases hp with h | h | h | h <;> simp [h]

/-- Rectangular holes, turned with the aperture, are left out of dark circles on layers that are not inverted. -/
theorem C68_rect_hole_partial {K : Engine} (hK : K.Convex) {s : ℝ} (hs : 0 < s) (pos : RPt) (d rot : ℝ) {w h : ℝ}
    (hw : 0 < w) (hh : 0 < h) : K.mask s true false (.circle pos d rot { width := w, height := h }) =
      .ok (inPixels s (placed pos 0 (disc (d / 2))) \ inPixels s (placed pos rot (slab w h))) := by
  simp only [Engine.mask, Engine.holes, holeArea_eq hK hs pos rot (hole := { width := w, height := h }) hw hh,
    lt_irrefl, if_false, if_pos (And.intro hw hh), Bool.not_false, Bool.and_self, if_true, discAt_scaled hs]

/-- Violation: for clear circles, and on inverted layers, they are added instead. -/
theorem C68_rect_hole_violated {K : Engine} (hK : K.Convex) {s : ℝ} (hs : 0 < s) {dark invert : Bool}
    (hc : dark = false ∨ invert = true) (pos : RPt) (d rot : ℝ) {w h : ℝ} (hw : 0 < w) (hh : 0 < h) :
    K.mask s dark invert (.circle pos d rot { width := w, height := h }) =
      .ok (inPixels s (placed pos 0 (disc (d / 2))) ∪ inPixels s (placed pos rot (slab w h))) := by
  have hf : (dark && !invert) = false := by rcases hc with rfl | rfl <;> simp
  simp only [Engine.mask, Engine.holes, holeArea_eq hK hs pos rot (hole := { width := w, height := h }) hw hh,
    lt_irrefl, if_false, if_pos (And.intro hw hh), hf, Bool.false_eq_true, discAt_scaled hs]

/-! ## Regions -/

/-- The lines from each corner to the next, starting at the last. -/
def outlineOf (vs : List RPt) (start : RPt) : List Part :=
  match vs with
  | [] => []
  | v :: l => .line start v :: outlineOf l v

theorem outlineOf_pieces (s : ℝ) (vs : List RPt) : ∀ start,
    (outlineOf vs start).map (Part.piece s) = (vs.map (scalePoint s)).map .line := by
  induction vs with
  | nil => exact fun _ => rfl
  | cons v l ih =>
    intro start
    simp only [outlineOf, List.map_cons, ih v, Part.piece]

/-- Regions bounded by lines around a convex polygon are filled. -/
theorem C68_region_partial {K : Engine} (hK : K.Convex) {s : ℝ} (hs : 0 < s) (dark invert : Bool) {vs : List RPt}
    (hne : vs ≠ []) (ha : Around vs) (hp : Planar vs) :
    K.mask s dark invert (.region (outlineOf vs (vs.getLast hne))) = .ok (inPixels s (span vs)) := by
  rw [← polygon_scaled hK hs ha hp]
  have hl : (vs.map (scalePoint s)).getLast? = some (scalePoint s (vs.getLast hne)) := by
    rw [List.getLast?_map, List.getLast?_eq_some_getLast hne]; rfl
  simp only [Engine.polygon, hl]
  rw [← outlineOf_pieces s vs (vs.getLast hne)]
  cases vs with
  | nil => exact absurd rfl hne
  | cons v l => rfl

example : ∃ vs : List RPt, vs ≠ [] ∧ Around vs ∧ Planar vs := by
  obtain ⟨vs, h1, h2, -⟩ := C62_polygon (0, 0) (show 3 ≠ 0 by norm_num) 1 0
  exact ⟨vs, by rintro rfl; simp at h2, C62_polygon_around _ _ _ h1, planar_polygon (0, 0) le_rfl one_ne_zero 0 h1⟩

/-- Violation: regions without any line raise. -/
theorem C68_region_violated (K : Engine) (f : Frame) (invert mirror dark : Bool) :
    K.covered f invert mirror dark (.region []) = .error .valueError := rfl

end Verif.Cairo
