import Verif.Props.CairoFrame

/-! # C66: clipping to the bounding box keeps the primitive

`_clip_primitive` is there for speed only: it must not change what is drawn. -/

namespace Verif.Cairo

open Verif.Py Verif.Geom Verif.Render

/-- A point of the box survives clipping exactly if it is not above the upper limit, which is rounded down. -/
theorem C66_clip_iff (f : Frame) (hs : 0 ≤ f.scale) {b : Box} (hb : Ordered b) {p : RPt} (hp : b.Holds p) :
    f.placeMask (scalePoint f.scale p) ∈ f.clip b ↔
      f.scale * p.2 - f.originPx.2 ≤ ⌊f.scale * b.2.2 - ⌊f.originPx.2⌋⌋ := by
  obtain ⟨hx, hy⟩ := hb
  obtain ⟨p1, p2, p3, p4⟩ := hp
  have sx := mul_le_mul_of_nonneg_left hx hs
  have sy := mul_le_mul_of_nonneg_left hy hs
  have q1 := mul_le_mul_of_nonneg_left p1 hs
  have q2 := mul_le_mul_of_nonneg_left p2 hs
  have q3 := mul_le_mul_of_nonneg_left p3 hs
  have a1 := Int.floor_le (f.scale * b.1.1)
  have a2 := Int.le_ceil (f.scale * b.1.2)
  have a3 := Int.floor_le (f.scale * b.2.1 - ⌈f.originPx.2⌉)
  have a4 := Int.le_ceil f.originPx.2
  have hX : ⌊f.scale * b.1.1⌋ ≤ ⌈f.scale * b.1.2⌉ := by exact_mod_cast a1.trans (sx.trans a2)
  have hY : ⌊f.scale * b.2.1 - ⌈f.originPx.2⌉⌋ ≤ ⌊f.scale * b.2.2 - ⌊f.originPx.2⌋⌋ := by
    apply Int.floor_le_floor
    have : (⌊f.originPx.2⌋ : ℝ) ≤ ⌈f.originPx.2⌉ := (Int.floor_le _).trans a4
    linarith
  have eX : ((|⌈f.scale * b.1.2⌉ - ⌊f.scale * b.1.1⌋| : ℤ) : ℝ) = ⌈f.scale * b.1.2⌉ - ⌊f.scale * b.1.1⌋ := by
    rw [abs_of_nonneg (by omega)]; push_cast; ring
  have eY : ((|⌊f.scale * b.2.2 - ⌊f.originPx.2⌋⌋ - ⌊f.scale * b.2.1 - ⌈f.originPx.2⌉⌋| : ℤ) : ℝ) =
      ⌊f.scale * b.2.2 - ⌊f.originPx.2⌋⌋ - ⌊f.scale * b.2.1 - ⌈f.originPx.2⌉⌋ := by
    rw [abs_of_nonneg (by omega)]; push_cast; ring
  push_cast at eX eY
  simp only [Frame.clip, rectAt, Frame.placeMask, scalePoint, Set.mem_ofPred_eq]
  rw [eX, eY]
  constructor
  · rintro ⟨-, -, -, h⟩
    linarith
  · intro h
    refine ⟨by linarith, by linarith, by linarith, by linarith⟩

/-- Clipping never removes what is at least one pixel below the upper limit of the box. -/
theorem C66_clip_partial (f : Frame) (hs : 0 ≤ f.scale) {b : Box} (hb : Ordered b) {p : RPt} (hp : b.Holds p)
    (h : f.scale * p.2 ≤ f.scale * b.2.2 - 1) : f.placeMask (scalePoint f.scale p) ∈ f.clip b := by
  rw [C66_clip_iff f hs hb hp]
  have h1 := Int.sub_one_lt_floor (f.scale * b.2.2 - ⌊f.originPx.2⌋)
  have h2 := Int.floor_le f.originPx.2
  linarith

/-- If the origin and the upper limit lie on pixels, clipping removes nothing. -/
theorem C66_aligned_partial (f : Frame) (hs : 0 ≤ f.scale) {b : Box} (hb : Ordered b) {p : RPt} (hp : b.Holds p)
    {m n : ℤ} (ho : f.originPx.2 = m) (ht : f.scale * b.2.2 = n) :
    f.placeMask (scalePoint f.scale p) ∈ f.clip b := by
  rw [C66_clip_iff f hs hb hp, ho, ht, Int.floor_intCast]
  have : (⌊(n : ℝ) - (m : ℝ)⌋ : ℤ) = n - m := by exact_mod_cast Int.floor_intCast (R := ℝ) (n - m)
  rw [this]
  push_cast
  have := mul_le_mul_of_nonneg_left hp.2.2.2 hs
  linarith

example : ∃ (f : Frame) (b : Box) (p : RPt), 0 ≤ f.scale ∧ Ordered b ∧ b.Holds p ∧ f.originPx.2 = (20 : ℤ) ∧
    f.scale * b.2.2 = (50 : ℤ) ∧ f.scale * p.2 ≤ f.scale * b.2.2 - 1 :=
  ⟨⟨10, (1, 2), (2, 3)⟩, ((1, 3), (2, 5)), (2, 3), by
    norm_num [Ordered, Box.Holds, Frame.originPx, scalePoint]⟩

/-- Violation: the upper limit is rounded down where the comment says "outside of the primitive", so the upper edge of
a primitive can be cut off. -/
theorem C66_clip_violated : ∃ (f : Frame) (b : Box) (p : RPt), 0 < f.scale ∧ Ordered b ∧ b.Holds p ∧
    f.placeMask (scalePoint f.scale p) ∉ f.clip b := by
  refine ⟨⟨1, (0, 0), (2, 2)⟩, ((0, 1), (0, 3 / 2)), (0, 3 / 2), by norm_num, ⟨by norm_num, by norm_num⟩,
    by norm_num [Box.Holds], ?_⟩
  rw [C66_clip_iff _ (by norm_num) ⟨by norm_num, by norm_num⟩ (by norm_num [Box.Holds])]
  have : (⌊(3 / 2 : ℝ)⌋ : ℤ) = 1 := by rw [Int.floor_eq_iff]; norm_num
  norm_num [Frame.originPx, scalePoint, this]

/-- Violation: a primitive strictly between two rows of pixels is clipped to a rectangle without height, none of it is
drawn. -/
theorem C66_thin_violated (f : Frame) (hs : 0 < f.scale) (ho : f.originPx.2 = 0) {b : Box} (hb : Ordered b) {n : ℤ}
    (h1 : n < f.scale * b.2.1) (h2 : f.scale * b.2.2 < n + 1) {p : RPt} (hp : b.Holds p) :
    f.placeMask (scalePoint f.scale p) ∉ f.clip b := by
  rw [C66_clip_iff f hs.le hb hp, ho]
  have q3 := mul_le_mul_of_nonneg_left hp.2.2.1 hs.le
  have q := mul_le_mul_of_nonneg_left hb.2 hs.le
  have : ⌊f.scale * b.2.2⌋ = n := by
    rw [Int.floor_eq_iff]
    exact ⟨by linarith, h2⟩
  simp only [Int.floor_zero, Int.cast_zero, sub_zero, this, not_le]
  linarith

example : ∃ (f : Frame) (b : Box) (p : RPt) (n : ℤ), 0 < f.scale ∧ f.originPx.2 = 0 ∧ Ordered b ∧
    n < f.scale * b.2.1 ∧ f.scale * b.2.2 < n + 1 ∧ b.Holds p :=
  ⟨⟨1, (0, 0), (2, 2)⟩, ((0, 1), (1 / 4, 3 / 4)), (0, 1 / 2), 0, by
    norm_num [Ordered, Box.Holds, Frame.originPx, scalePoint]⟩

end Verif.Cairo
