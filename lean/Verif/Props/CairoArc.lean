import Verif.Props.CairoArea
import Verif.Props.Quadrant

/-! # C66 and C68 for arcs -/

namespace Verif.Cairo

open Verif.Py Verif.Geom Verif.Render

theorem stroke_path {s : ℝ} (hs : 0 < s) (path : Set RPt) {d : ℝ} (hd : 0 < d) :
    strokeOf (scalePoint s '' path) (d * s) = inPixels s (swept path (disc (d / 2))) := by
  ext q
  rw [mem_inPixels hs]
  have hw : 0 < d * s := mul_pos hd hs
  simp only [strokeOf, swept, Set.mem_ofPred_eq, hw, true_and]
  have key : ∀ c : RPt, q ∈ discAt (scalePoint s c) (d * s / 2) ↔ (q.1 / s - c.1, q.2 / s - c.2) ∈ disc (d / 2) := by
    intro c
    rw [show d * s / 2 = d / 2 * s by ring, discAt_scaled hs, mem_inPixels hs, placed_zero]
  constructor
  · rintro ⟨_, ⟨c, hc, rfl⟩, h⟩
    exact ⟨c, hc, _, (key c).mp h, by simp⟩
  · rintro ⟨c, hc, p, hp, h⟩
    refine ⟨_, ⟨c, hc, rfl⟩, (key c).mpr ?_⟩
    injection h with h1 h2
    convert hp using 1
    exact Prod.ext (by simp only [h1]; ring) (by simp only [h2]; ring)

theorem arcPath_scaled (s : ℝ) (c : RPt) (r a1 a2 : ℝ) (n : Bool) :
    arcPath (scalePoint s c) (s * r) a1 a2 n = scalePoint s '' arcPath c r a1 a2 n := by
  have key : ∀ t, onCircle (scalePoint s c) (s * r) t = scalePoint s (onCircle c r t) := by
    intro t
    simp only [onCircle, scalePoint, Prod.mk.injEq]
    constructor <;> ring
  ext q
  constructor
  · rintro ⟨t, ht, rfl⟩
    exact ⟨_, ⟨t, ht, rfl⟩, (key t).symm⟩
  · rintro ⟨_, ⟨t, ht, rfl⟩, rfl⟩
    exact ⟨t, ht, (key t).symm⟩

/-- A point is where its direction and distance say. -/
theorem onCircle_theta (a c : RPt) : onCircle c (arcRadius a c) (theta a c) = a := by
  have h := vec_eq a c
  have hn : ‖vec a c‖ = arcRadius a c := by
    rw [Complex.norm_def, Complex.normSq_apply]
    simp only [vec, arcRadius, sq]
  rw [hn] at h
  have h1 := congrArg Complex.re h
  have h2 := congrArg Complex.im h
  rw [Complex.re_ofReal_mul, Complex.exp_ofReal_mul_I_re] at h1
  rw [Complex.im_ofReal_mul, Complex.exp_ofReal_mul_I_im] at h2
  simp only [vec] at h1 h2
  refine Prod.ext ?_ ?_ <;> simp only [onCircle] <;> linarith

theorem circular_turns {a1 a2 : ℝ} (h1 : 0 ≤ a1 ∧ a1 < 2 * Real.pi) (h2 : 0 ≤ a2 ∧ a2 < 2 * Real.pi) {k m : ℤ}
    (hlt : a1 + k * (2 * Real.pi) < a2 + m * (2 * Real.pi))
    (hle : a2 + m * (2 * Real.pi) ≤ a1 + k * (2 * Real.pi) + 2 * Real.pi) :
    ∃ n : ℕ, (m : ℝ) - k = n ∧ (n = 0 ∨ n = 1) := by
  have hpi := Real.two_pi_pos
  have g1 : (-1 : ℝ) < ((m - k : ℤ) : ℝ) := by push_cast; nlinarith
  have g2 : ((m - k : ℤ) : ℝ) < 2 := by push_cast; nlinarith
  have g1' : (-1 : ℤ) < m - k := by exact_mod_cast g1
  have g2' : m - k < 2 := by exact_mod_cast g2
  refine ⟨(m - k).toNat, ?_, by omega⟩
  have : (((m - k).toNat : ℤ) : ℝ) = ((m - k : ℤ) : ℝ) := by rw [Int.toNat_of_nonneg (by omega)]
  rw [Int.cast_natCast] at this
  rw [this]
  push_cast
  rfl

/-- The path cairo follows is the circular path between the ends. -/
theorem arcPath_circular {a e c : RPt} (hr : 0 < arcRadius a c) (he : arcRadius e c = arcRadius a c) (hne : a ≠ e)
    (direction : String) :
    arcPath c (arcRadius a c) (theta a c) (theta e c) (decide (direction ≠ "counterclockwise")) =
      circular direction a e c := by
  have ea := onCircle_theta a c
  have ee := onCircle_theta e c
  rw [he] at ee
  have ra := theta_range a c
  have re := theta_range e c
  have hpi := Real.two_pi_pos
  have hth : theta a c ≠ theta e c := by
    intro h
    apply hne
    rw [← ea, ← ee, h]
  have ka : ∀ α, a = onCircle c (arcRadius a c) α → ∃ k : ℤ, α = theta a c + k * (2 * Real.pi) := by
    intro α h
    obtain ⟨k, hk⟩ := theta_onCircle (c := c) hr α
    rw [← h] at hk
    exact ⟨k, hk⟩
  have ke : ∀ β, e = onCircle c (arcRadius a c) β → ∃ k : ℤ, β = theta e c + k * (2 * Real.pi) := by
    intro α h
    obtain ⟨k, hk⟩ := theta_onCircle (c := c) hr α
    rw [← h] at hk
    exact ⟨k, hk⟩
  ext q
  by_cases hd : direction = "counterclockwise"
  · subst hd
    simp only [arcPath, angles, circular, ne_eq, not_true_eq_false, decide_false, Bool.false_eq_true, if_false,
      Set.mem_ofPred_eq, if_true]
    constructor
    · rintro ⟨t, ⟨k, h1, h2, h3, h4⟩, rfl⟩
      refine ⟨arcRadius a c, theta a c, theta e c + k * (2 * Real.pi), t, hr.le, ea.symm, ?_, rfl, ?_, ?_, h3, h4⟩
      · have := onCircle_add c (arcRadius a c) (theta e c) k
        push_cast at this
        rw [this, ee]
      · refine lt_of_le_of_ne h1 fun h => ?_
        rcases Nat.eq_zero_or_pos k with rfl | hk
        · simp at h; exact hth h
        · have : (1 : ℝ) ≤ k := by exact_mod_cast hk
          nlinarith
      · rcases h2 with rfl | h2
        · norm_num; linarith
        · linarith
    · rintro ⟨r, α, β, t, h0, h1, h2, rfl, h3, h4, h5, h6⟩
      have hr' : r = arcRadius a c := by rw [h1, arcRadius_onCircle h0]
      obtain ⟨k, rfl⟩ := ka α (hr' ▸ h1)
      obtain ⟨m, rfl⟩ := ke β (hr' ▸ h2)
      obtain ⟨n, hn, h01⟩ := circular_turns ra re h3 h4
      refine ⟨t + (-k : ℤ) * (2 * Real.pi), ⟨n, ?_, ?_, ?_, ?_⟩, by rw [onCircle_add, hr']⟩
      · rw [← hn]; nlinarith
      · rcases h01 with h | h
        · exact .inl h
        · right
          rw [h] at hn ⊢
          push_cast at hn ⊢
          have hm : (m : ℝ) = k + 1 := by linarith
          rw [hm] at h4
          have := lt_of_le_of_ne (show theta e c ≤ theta a c by linarith) hth.symm
          linarith
      · push_cast; linarith
      · rw [← hn]; push_cast; linarith
  · simp only [arcPath, angles, circular, ne_eq, hd, not_false_eq_true, decide_true, if_false, Set.mem_ofPred_eq, if_true]
    constructor
    · rintro ⟨t, ⟨k, h1, h2, h3, h4⟩, rfl⟩
      refine ⟨arcRadius a c, theta a c, theta e c - k * (2 * Real.pi), t, hr.le, ea.symm, ?_, rfl, ?_, ?_, h3, h4⟩
      · have := onCircle_add c (arcRadius a c) (theta e c) (-k)
        push_cast at this
        rw [sub_eq_add_neg, ← neg_mul, this, ee]
      · refine lt_of_le_of_ne h1 fun h => ?_
        rcases Nat.eq_zero_or_pos k with rfl | hk
        · simp at h; exact hth h.symm
        · have : (1 : ℝ) ≤ k := by exact_mod_cast hk
          nlinarith
      · rcases h2 with rfl | h2
        · norm_num; linarith
        · linarith
    · rintro ⟨r, α, β, t, h0, h1, h2, rfl, h3, h4, h5, h6⟩
      have hr' : r = arcRadius a c := by rw [h1, arcRadius_onCircle h0]
      obtain ⟨k, rfl⟩ := ka α (hr' ▸ h1)
      obtain ⟨m, rfl⟩ := ke β (hr' ▸ h2)
      obtain ⟨n, hn, h01⟩ := circular_turns re ra h3 h4
      refine ⟨t + (-k : ℤ) * (2 * Real.pi), ⟨n, ?_, ?_, ?_, ?_⟩, by rw [onCircle_add, hr']⟩
      · rw [← hn]; nlinarith
      · rcases h01 with h | h
        · exact .inl h
        · right
          rw [h] at hn ⊢
          push_cast at hn ⊢
          have hm : (k : ℝ) = m + 1 := by linarith
          rw [hm] at h4
          have := lt_of_le_of_ne (show theta a c ≤ theta e c by linarith) hth
          linarith
      · rw [← hn]; push_cast; linarith
      · push_cast; linarith

/-- Arcs drawn with a round aperture between different points of their circle: the aperture moved along the arc. -/
theorem C68_arc_partial (K : Engine) {s : ℝ} (hs : 0 < s) (dark invert : Bool) {a e c : RPt} (hr : 0 < arcRadius a c)
    (he : arcRadius e c = arcRadius a c) (hne : a ≠ e) (direction mode : String) {d : ℝ} (hd : 0 < d) :
    K.mask s dark invert (.arc a e c direction mode (.circle d)) =
      .ok (inPixels s (swept (circular direction a e c) (disc (d / 2)))) := by
  have hth : theta a c ≠ theta e c := by
    intro h
    apply hne
    rw [← onCircle_theta a c, ← onCircle_theta e c, h, he]
  simp only [Engine.mask, arcWidth, if_neg hd.ne', bind, Except.bind, hth, false_and, if_false]
  rw [arcPath_scaled, stroke_path hs _ hd, arcPath_circular hr he hne]

example : ∃ (s d : ℝ) (a e c : RPt), 0 < s ∧ 0 < arcRadius a c ∧ arcRadius e c = arcRadius a c ∧ a ≠ e ∧ 0 < d :=
  ⟨300, 1 / 2, (1, 0), (0, -1), (0, 0), by simp [arcRadius]⟩

/-- Arcs lie in their boxes, in multi-quadrant mode and if they stay in a quadrant. -/
theorem C66_box_arc {direction mode : String} {a e c : RPt} (h : Enclosed direction mode a e c) {d : ℝ} (hd : 0 ≤ d) :
    ∃ b, (Shape.arc a e c direction mode (.circle d)).box = .ok b ∧ Ordered b ∧
      ∀ p ∈ swept (circular direction a e c) (disc (d / 2)), b.Holds p := by
  refine ⟨_, rfl, ?_, fun p hp => swept_box (fun _ => arc_enclosed h) (fun p hp => abs_le_of_disc (by linarith) hp) hp⟩
  have : ∀ l : List RPt, ∀ p, (hullBox (p :: l)).Holds p := by
    intro l p
    exact mem_hullBox ⟨p, by simp, le_rfl⟩ ⟨p, by simp, le_rfl⟩ ⟨p, by simp, le_rfl⟩ ⟨p, by simp, le_rfl⟩
  obtain ⟨h1, h2, h3, h4⟩ := this _ a
  constructor <;> simp only [Box.grow, arcBox, arcPoints, List.cons_append] <;> linarith

end Verif.Cairo
