import Verif.Model.Corners
import Verif.Props.Tight

/-! # C88: the angle of a line, and the corners of rectangles and donuts -/

namespace Verif.Geom

/-- **C88.**  The angle of a line is the direction from its start to its end, the only such angle greater than -π and not
greater than π. -/
theorem C88_angle {o : Obj} {s e : RPt} (hs : o.pts .start = some s) (he : o.pts .stop = some e) :
    ∃ a, o.lineAngle = some a ∧ -Real.pi < a ∧ a ≤ Real.pi ∧
      e = (s.1 + arcRadius e s * Real.cos a, s.2 + arcRadius e s * Real.sin a) ∧
      (s ≠ e → ∀ t d : ℝ, -Real.pi < t → t ≤ Real.pi → 0 ≤ d → e = (s.1 + d * Real.cos t, s.2 + d * Real.sin t) → t = a) := by
  refine ⟨atan2 (e.2 - s.2) (e.1 - s.1), by simp [Obj.lineAngle, hs, he], Complex.neg_pi_lt_arg _, Complex.arg_le_pi _, ?_, ?_⟩
  · have h := Complex.norm_mul_exp_arg_mul_I (⟨e.1 - s.1, e.2 - s.2⟩ : ℂ)
    have hn : ‖(⟨e.1 - s.1, e.2 - s.2⟩ : ℂ)‖ = arcRadius e s := by
      rw [Complex.norm_def, Complex.normSq_mk]
      unfold arcRadius
      congr 1; ring
    rw [hn, Complex.exp_mul_I] at h
    have h1 := congrArg Complex.re h
    have h2 := congrArg Complex.im h
    simp only [Complex.ofReal_re, Complex.ofReal_im, Complex.add_re, Complex.add_im, Complex.cos_ofReal_re,
      Complex.cos_ofReal_im, Complex.mul_re, Complex.mul_im, Complex.sin_ofReal_re, Complex.sin_ofReal_im, Complex.I_re,
      Complex.I_im, mul_zero, mul_one, sub_zero, zero_add, add_zero, zero_mul] at h1 h2
    refine Prod.ext ?_ ?_
    · show e.1 = s.1 + arcRadius e s * Real.cos (Complex.arg _)
      rw [h1]; ring
    · show e.2 = s.2 + arcRadius e s * Real.sin (Complex.arg _)
      rw [h2]; ring
  · intro hne t d h1 h2 h0 h
    have hd : 0 < d := by
      rcases h0.lt_or_eq with h0 | h0
      · exact h0
      · exfalso; apply hne
        rw [h, ← h0]; simp
    have e1 : e.1 - s.1 = d * Real.cos t := by rw [h]; simp
    have e2 : e.2 - s.2 = d * Real.sin t := by rw [h]; simp
    rw [e1, e2, atan2_polar hd ⟨h1, h2⟩]

/-- **C88.**  The corners of a rectangle turned by no more than a quarter are the lowest and leftmost, and highest and
rightmost coordinates of its area, and the corners of its box. -/
theorem C88_rectangle_partial {o : Obj} (hk : o.kind = .rectangle) {c : RPt} {w h : ℝ}
    (hc : o.pts .position = some c) (hw : o.nums .width = some w) (hh : o.nums .height = some h)
    (hw0 : 0 ≤ w) (hh0 : 0 ≤ h)
    (hcos : 0 ≤ Real.cos (radians o.rotation)) (hsin : 0 ≤ Real.sin (radians o.rotation)) :
    ∃ ll ur, o.lowerLeft = some ll ∧ o.upperRight = some ur ∧ o.ownBox none = some ((ll.1, ur.1), (ll.2, ur.2)) ∧
      Box.Tight ((ll.1, ur.1), (ll.2, ur.2)) (placed c o.rotation (slab w h)) := by
  have hb := ownBox_rectangular (.inl hk) hc hw hh
  exact ⟨(c.1 - axisAlignedWidth o.rotation w h / 2, c.2 - axisAlignedHeight o.rotation w h / 2),
    (c.1 + axisAlignedWidth o.rotation w h / 2, c.2 + axisAlignedHeight o.rotation w h / 2),
    by simp [Obj.lowerLeft, hk, hc, hw, hh], by simp [Obj.upperRight, hk, hc, hw, hh], hb,
    C82_rectangle_partial hk hc hw hh hw0 hh0 hcos hsin hb⟩

/-- **C88.**  The corners of a donut are those of its outer shape, a disc or a square, if its width and height are the
outer diameter as its constructor makes them. -/
theorem C88_donut_partial {o : Obj} (hk : o.kind = .donut) {c : RPt} {d : ℝ}
    (hc : o.pts .position = some c) (hw : o.nums .width = some d) (hh : o.nums .height = some d) (hd : 0 ≤ d) :
    ∃ ll ur, o.lowerLeft = some ll ∧ o.upperRight = some ur ∧ o.ownBox none = some ((ll.1, ur.1), (ll.2, ur.2)) ∧
      Box.Tight ((ll.1, ur.1), (ll.2, ur.2)) (placed c 0 (disc (d / 2))) ∧
      Box.Tight ((ll.1, ur.1), (ll.2, ur.2)) (placed c 0 (slab d d)) := by
  refine ⟨_, _, by simp only [Obj.lowerLeft, hk, hc, hw, hh]; rfl, by simp only [Obj.upperRight, hk, hc, hw, hh]; rfl,
    by simp [Obj.ownBox, hk, hc, hw, hh, around], ?_, ?_⟩
  · refine ⟨fun q hq => holds_disc (by linarith) (fun _ h => h) hq, Touches.least (placed_zero_touches disc_touches)⟩
  · refine ⟨?_, Touches.least (placed_zero_touches (slab_touches hd hd))⟩
    rintro q ⟨p, ⟨h1, h2⟩, rfl⟩
    rw [abs_le] at h1 h2
    simp only [radians, zero_mul, zero_div, Real.cos_zero, Real.sin_zero, one_mul, sub_zero, zero_add]
    refine ⟨?_, ?_, ?_, ?_⟩ <;> simp only <;> linarith

/-- **C88 fails** for rectangles turned by half a turn: the lower left corner is the upper right one. -/
theorem C88_rotated_violated {o : Obj} (hk : o.kind = .rectangle) {c : RPt} {w h : ℝ}
    (hc : o.pts .position = some c) (hw : o.nums .width = some w) (hh : o.nums .height = some h)
    (hw0 : 0 < w) (hh0 : 0 < h) (hr : o.rotation = 180) :
    ∃ ll ur, o.lowerLeft = some ll ∧ o.upperRight = some ur ∧ ur.1 < ll.1 ∧ ur.2 < ll.2 := by
  have e : radians o.rotation = Real.pi := by rw [hr]; unfold radians; ring
  refine ⟨_, _, by simp only [Obj.lowerLeft, hk, hc, hw, hh]; rfl, by simp only [Obj.upperRight, hk, hc, hw, hh]; rfl, ?_, ?_⟩ <;>
  · simp only [axisAlignedWidth, axisAlignedHeight, cosD, sinD, e, Real.cos_pi, Real.sin_pi]
    linarith

/-- **C88 fails** for donuts moved by assigning a position after their box was read: the corners move, the box does not. -/
theorem C88_moved_violated {o : Obj} (hk : o.kind = .donut) {c c' : RPt} {w h : ℝ}
    (hc : o.pts .position = some c) (hw : o.nums .width = some w) (hh : o.nums .height = some h) {b : Box}
    (hb : o.ownBox none = some b) (hne : c' ≠ c) :
    ∃ ll ur, ((o.withBox b).setPt .position (some c')).lowerLeft = some ll ∧
      ((o.withBox b).setPt .position (some c')).upperRight = some ur ∧
      ((o.withBox b).setPt .position (some c')).box = some b ∧ b ≠ ((ll.1, ur.1), (ll.2, ur.2)) := by
  have hb' : b = around c (w / 2) (h / 2) := by
    simp [Obj.ownBox, hk, hc, hw, hh] at hb
    exact hb.symm
  refine ⟨(c'.1 - w / 2, c'.2 - h / 2), (c'.1 + w / 2, c'.2 + h / 2), ?_, ?_, ?_, ?_⟩
  · simp [Obj.lowerLeft, Obj.setPt, Obj.withBox, ptSetter, hk, hw, hh]
  · simp [Obj.upperRight, Obj.setPt, Obj.withBox, ptSetter, hk, hw, hh]
  · simp [Obj.setPt, Obj.withBox, ptSetter, hk]
  · rw [hb']
    intro e
    apply hne
    simp only [around, Prod.mk.injEq] at e
    exact Prod.ext (by linarith [e.1.1]) (by linarith [e.2.1])

/-- A rectangle of 4 × 2 turned by 90 degrees, or a donut. -/
noncomputable def sampleCorners (k : Kind) : Obj :=
  { kind := k, units := some "inch", rotation := 90, pts := fun _ => some (1, 1),
    nums := fun a => if a = .width then some 4 else some 2, direction := "", quadrantMode := "", aperture := none, parts := [] }

example : (sampleCorners .rectangle).kind = .rectangle ∧ (sampleCorners .rectangle).pts .position = some (1, 1) ∧
    (sampleCorners .rectangle).nums .width = some 4 ∧ (sampleCorners .rectangle).nums .height = some 2 ∧
    0 ≤ Real.cos (radians (sampleCorners .rectangle).rotation) ∧
    0 ≤ Real.sin (radians (sampleCorners .rectangle).rotation) := by
  have e : radians (sampleCorners .rectangle).rotation = Real.pi / 2 := by
    show radians 90 = _
    unfold radians; ring
  refine ⟨rfl, rfl, by simp [sampleCorners], by simp [sampleCorners], ?_, ?_⟩ <;> rw [e] <;> simp

example : ∃ b, (sampleCorners .donut).ownBox none = some b ∧ ((2, 3) : RPt) ≠ (1, 1) :=
  ⟨around (1, 1) (4 / 2) (2 / 2), by simp [Obj.ownBox, sampleCorners], by norm_num⟩

end Verif.Geom
