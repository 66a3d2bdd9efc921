import Verif.Props.GerberPicture

/-! # C68: holes of apertures of every shape -/

namespace Verif.Cairo
open Verif.Py Verif.Geom Verif.Render Verif.Gerber

/-- The round hole of an aperture at a place. -/
def roundGap (pos : RPt) (hole : Cairo.Hole) : Set RPt :=
  {q | 0 < hole.diameter ∧ q ∈ placed pos 0 (disc (hole.diameter / 2))}

/-- The rectangular hole of an aperture at a place, turned. -/
def rectGap (pos : RPt) (rot : ℝ) (hole : Cairo.Hole) : Set RPt :=
  {q | (0 < hole.width ∧ 0 < hole.height) ∧ q ∈ placed pos rot (slab hole.width hole.height)}

theorem inPixels_union {s : ℝ} (hs : 0 < s) (A B : Set RPt) : inPixels s (A ∪ B) = inPixels s A ∪ inPixels s B := by
  ext q
  simp only [Set.mem_union, mem_inPixels hs]

theorem holes_drawn {K : Engine} (hK : K.Convex) {s : ℝ} (hs : 0 < s) (pos : RPt) (rot : ℝ) (hole : Cairo.Hole)
    (cr ce : Bool) (A : Set RPt) : K.holes s pos rot hole cr ce (inPixels s A) =
      inPixels s (if ce then (if cr then A \ roundGap pos hole else A ∪ roundGap pos hole) \ rectGap pos rot hole
        else (if cr then A \ roundGap pos hole else A ∪ roundGap pos hole) ∪ rectGap pos rot hole) := by
  have e1 : (if (0 : ℝ) < hole.diameter then (if cr = true then inPixels s A \ discAt (scalePoint s pos)
      (hole.diameter / 2 * s) else inPixels s A ∪ discAt (scalePoint s pos) (hole.diameter / 2 * s)) else inPixels s A) =
      inPixels s (if cr then A \ roundGap pos hole else A ∪ roundGap pos hole) := by
    by_cases hd : 0 < hole.diameter
    · rw [if_pos hd, discAt_scaled hs]
      cases cr
      · simp only [Bool.false_eq_true, if_false]
        rw [inPixels_union hs]
        simp only [roundGap, hd, true_and]
        rfl
      · simp only [if_true]
        rw [inPixels_diff hs]
        simp only [roundGap, hd, true_and]
        rfl
    · rw [if_neg hd]
      cases cr <;> simp [roundGap, hd]
  simp only [Engine.holes]
  rw [e1]
  generalize (if cr then A \ roundGap pos hole else A ∪ roundGap pos hole) = B
  by_cases hr : 0 < hole.width ∧ 0 < hole.height
  · rw [if_pos hr, holeArea_eq hK hs pos rot hr.1 hr.2]
    cases ce
    · simp only [Bool.false_eq_true, if_false]
      rw [inPixels_union hs]
      simp only [rectGap, hr.1, hr.2, true_and]
      rfl
    · simp only [if_true]
      rw [inPixels_diff hs]
      simp only [rectGap, hr.1, hr.2, true_and]
      rfl
  · rw [if_neg hr]
    cases ce <;> simp [rectGap, hr]

/-- The masks of the four shapes with holes. -/
theorem mask_holes {K : Engine} (hK : K.Convex) {s : ℝ} (hs : 0 < s) (dark invert : Bool) (pos : RPt) (rot : ℝ)
    (hole : Cairo.Hole) :
    (∀ d, K.mask s dark invert (.circle pos d rot hole) =
      .ok (K.holes s pos rot hole true (dark && !invert) (inPixels s (placed pos 0 (disc (d / 2)))))) ∧
    (∀ w h, 0 ≤ w → 0 ≤ h → K.mask s dark invert (.rectangle pos w h 0 hole) =
      .ok (K.holes s pos 0 hole (dark && !invert) (dark && !invert) (inPixels s (placed pos 0 (slab w h))))) ∧
    (∀ w h, 0 ≤ w → 0 ≤ h → K.mask s dark invert (.obround pos w h rot hole) =
      .ok (K.holes s pos rot hole true (!invert) (inPixels s (placed pos 0 (stadium w h))))) ∧
    ∀ n r, 3 ≤ n → r ≠ 0 → K.mask s dark invert (.polygon pos n r rot hole) =
      .ok (K.holes s pos rot hole (dark && !invert) (dark && !invert) (inPixels s (placed pos rot (regular n r)))) := by
  refine ⟨fun d => ?_, fun w h hw hh => ?_, fun w h hw hh => ?_, fun n r hn hr => ?_⟩
  · simp only [Engine.mask]
    rw [discAt_scaled hs]
  · simp only [Engine.mask, (axis_zero w h).1, (axis_zero w h).2]
    rw [rectAt_scaled hs pos.1 pos.2 hw hh]
  · have := C68_obround_partial K hs dark invert pos hw hh rot
    simp only [Engine.mask] at this ⊢
    rw [holes_none K _ _ _ _ _ _ noHole] at this
    injection this with this
    rw [this]
  · have := C68_polygon_partial hK hs dark invert pos hn hr rot
    obtain ⟨vs, v1, -, v2⟩ := C62_polygon pos (show n ≠ 0 by omega) r rot
    simp only [Engine.mask, v1, bind, Except.bind] at this ⊢
    rw [holes_none K _ _ _ _ _ _ noHole] at this
    injection this with this
    rw [this]

/-- **C68**, holes: dark apertures on layers that are not inverted are drawn without their round hole and without their
rectangular hole, which is turned with the aperture; obrounds also if they are clear.  Missing: turned rectangles and
obrounds, whose bodies are not turned (`C68_rectangle_violated`, `C68_obround_violated`), and the other cases
(`C68_holes_violated`). -/
theorem C68_holes_partial {K : Engine} (hK : K.Convex) {s : ℝ} (hs : 0 < s) (pos : RPt) (rot : ℝ) (hole : Cairo.Hole) :
    (∀ d, K.mask s true false (.circle pos d rot hole) =
      .ok (inPixels s ((placed pos 0 (disc (d / 2)) \ roundGap pos hole) \ rectGap pos rot hole))) ∧
    (∀ w h, 0 ≤ w → 0 ≤ h → K.mask s true false (.rectangle pos w h 0 hole) =
      .ok (inPixels s ((placed pos 0 (slab w h) \ roundGap pos hole) \ rectGap pos 0 hole))) ∧
    (∀ dark w h, 0 ≤ w → 0 ≤ h → K.mask s dark false (.obround pos w h rot hole) =
      .ok (inPixels s ((placed pos 0 (stadium w h) \ roundGap pos hole) \ rectGap pos rot hole))) ∧
    ∀ n r, 3 ≤ n → r ≠ 0 → K.mask s true false (.polygon pos n r rot hole) =
      .ok (inPixels s ((placed pos rot (regular n r) \ roundGap pos hole) \ rectGap pos rot hole)) := by
  obtain ⟨h1, h2, -, h4⟩ := mask_holes hK hs true false pos rot hole
  refine ⟨fun d => ?_, fun w h hw hh => ?_, fun dark w h hw hh => ?_, fun n r hn hr => ?_⟩
  · rw [h1, holes_drawn hK hs]; simp
  · rw [h2 w h hw hh, holes_drawn hK hs]; simp
  · rw [(mask_holes hK hs dark false pos rot hole).2.2.1 w h hw hh, holes_drawn hK hs]; simp
  · rw [h4 n r hn hr, holes_drawn hK hs]; simp

/-- Violation: with clear apertures and on inverted layers holes are drawn instead of being left out: both holes of
rectangles and polygons, the rectangular holes of circles, and on inverted layers those of obrounds. -/
theorem C68_holes_violated {K : Engine} (hK : K.Convex) {s : ℝ} (hs : 0 < s) {dark invert : Bool}
    (hc : dark = false ∨ invert = true) (pos : RPt) (rot : ℝ) (hole : Cairo.Hole) :
    (∀ d, K.mask s dark invert (.circle pos d rot hole) =
      .ok (inPixels s ((placed pos 0 (disc (d / 2)) \ roundGap pos hole) ∪ rectGap pos rot hole))) ∧
    (∀ w h, 0 ≤ w → 0 ≤ h → K.mask s dark invert (.rectangle pos w h 0 hole) =
      .ok (inPixels s ((placed pos 0 (slab w h) ∪ roundGap pos hole) ∪ rectGap pos 0 hole))) ∧
    (∀ w h, 0 ≤ w → 0 ≤ h → K.mask s dark true (.obround pos w h rot hole) =
      .ok (inPixels s ((placed pos 0 (stadium w h) \ roundGap pos hole) ∪ rectGap pos rot hole))) ∧
    ∀ n r, 3 ≤ n → r ≠ 0 → K.mask s dark invert (.polygon pos n r rot hole) =
      .ok (inPixels s ((placed pos rot (regular n r) ∪ roundGap pos hole) ∪ rectGap pos rot hole)) := by
  have hf : (dark && !invert) = false := by rcases hc with rfl | rfl <;> simp
  obtain ⟨h1, h2, -, h4⟩ := mask_holes hK hs dark invert pos rot hole
  refine ⟨fun d => ?_, fun w h hw hh => ?_, fun w h hw hh => ?_, fun n r hn hr => ?_⟩
  · rw [h1, holes_drawn hK hs]; simp [hf]
  · rw [h2 w h hw hh, holes_drawn hK hs]; simp [hf]
  · rw [(mask_holes hK hs dark true pos rot hole).2.2.1 w h hw hh, holes_drawn hK hs]; simp
  · rw [h4 n r hn hr, holes_drawn hK hs]; simp [hf]

/-- A hexagon with a round and a rectangular hole turned by 30 degrees: the centre is left out of the dark one and is
part of the clear one; engines as assumed exist. -/
example {K : Engine} (hK : K.Convex) : ∃ M N, K.mask 300 true false (.polygon (0, 0) 6 2 30 ⟨1, 1, 1 / 2⟩) = .ok M ∧
    K.mask 300 false false (.polygon (0, 0) 6 2 30 ⟨1, 1, 1 / 2⟩) = .ok N ∧ (0, 0) ∉ M ∧ (0, 0) ∈ N := by
  have hr : ((0, 0) : RPt) ∈ roundGap (0, 0) ⟨1, 1, 1 / 2⟩ := by
    refine ⟨one_pos, ?_⟩
    rw [placed_zero]
    norm_num [disc]
  refine ⟨_, _, (C68_holes_partial hK (by norm_num) _ _ _).2.2.2 6 2 (by norm_num) (by norm_num),
    (C68_holes_violated hK (by norm_num) (.inl rfl) _ _ _).2.2.2 6 2 (by norm_num) (by norm_num), ?_, ?_⟩
  · rw [mem_inPixels (by norm_num)]
    rintro ⟨⟨-, h⟩, -⟩
    apply h
    simpa using hr
  · rw [mem_inPixels (by norm_num)]
    exact .inl (.inr (by simpa using hr))

end Verif.Cairo
