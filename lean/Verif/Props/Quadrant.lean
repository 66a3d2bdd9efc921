import Verif.Props.Boxes

/-! # C32: arcs within a quadrant -/

namespace Verif.Geom

/-- A point of a circle between two points of the same quadrant is between them in the first coordinate. -/
theorem between_pos {S1 S2 E1 E2 Q1 Q2 R a b : ℝ} (hS : S1 ^ 2 + S2 ^ 2 = R) (hE : E1 ^ 2 + E2 ^ 2 = R)
    (hQ : Q1 ^ 2 + Q2 ^ 2 = R) (ha : 0 ≤ a) (hb : 0 ≤ b) (hab : 1 ≤ a + b) (e1 : Q1 = a * S1 + b * E1)
    (e2 : Q2 = a * S2 + b * E2) (h1 : 0 ≤ S1) (h1' : 0 ≤ E1) (h2 : 0 ≤ S2 * E2) :
    min S1 E1 ≤ Q1 ∧ Q1 ≤ max S1 E1 := by
  have key : ∀ x y : ℝ, 0 ≤ x * y → x ^ 2 ≤ y ^ 2 → ∀ a b : ℝ, 0 ≤ a → 0 ≤ b → 1 ≤ a + b →
      x ^ 2 ≤ (a * x + b * y) ^ 2 := by
    intro x y hxy hle a b ha hb hab
    have h3 : x ^ 2 ≤ x * y := by
      have : (x ^ 2) ^ 2 ≤ (x * y) ^ 2 := by nlinarith [sq_nonneg x]
      exact le_of_sq_le_sq this hxy |> fun h => h
    have h4 : (a + b) ^ 2 * x ^ 2 ≤ (a * x + b * y) ^ 2 := by
      nlinarith [mul_nonneg ha hb, mul_nonneg (mul_nonneg ha hb) (sub_nonneg.2 h3),
        mul_nonneg (mul_nonneg hb hb) (sub_nonneg.2 hle)]
    have h5 : 1 ≤ (a + b) ^ 2 := by nlinarith
    nlinarith [sq_nonneg x]
  have hq0 : 0 ≤ Q1 := by rw [e1]; positivity
  constructor
  · rcases le_total S1 E1 with h | h
    · rw [min_eq_left h, e1]; nlinarith
    · rw [min_eq_right h, e1]; nlinarith
  · rcases le_total (S2 ^ 2) (E2 ^ 2) with h | h
    · have := key S2 E2 h2 h a b ha hb hab
      rw [← e2] at this
      exact le_max_of_le_left (abs_le_of_sq_le_sq' (by nlinarith) h1).2
    · have := key E2 S2 (by linarith) h b a hb ha (by linarith)
      rw [add_comm, ← e2] at this
      exact le_max_of_le_right (abs_le_of_sq_le_sq' (by nlinarith) h1').2

theorem between {S1 S2 E1 E2 Q1 Q2 R a b : ℝ} (hS : S1 ^ 2 + S2 ^ 2 = R) (hE : E1 ^ 2 + E2 ^ 2 = R)
    (hQ : Q1 ^ 2 + Q2 ^ 2 = R) (ha : 0 ≤ a) (hb : 0 ≤ b) (hab : 1 ≤ a + b) (e1 : Q1 = a * S1 + b * E1)
    (e2 : Q2 = a * S2 + b * E2) (h1 : 0 ≤ S1 * E1) (h2 : 0 ≤ S2 * E2) :
    min S1 E1 ≤ Q1 ∧ Q1 ≤ max S1 E1 := by
  have hc : (0 ≤ S1 ∧ 0 ≤ E1) ∨ (S1 ≤ 0 ∧ E1 ≤ 0) := by
    rcases lt_trichotomy S1 0 with h | h | h
    · exact .inr ⟨h.le, by nlinarith⟩
    · rcases le_total 0 E1 with h' | h'
      · exact .inl ⟨h.ge, h'⟩
      · exact .inr ⟨h.le, h'⟩
    · exact .inl ⟨h.le, by nlinarith⟩
  rcases hc with ⟨c1, c2⟩ | ⟨c1, c2⟩
  · exact between_pos hS hE hQ ha hb hab e1 e2 c1 c2 h2
  · obtain ⟨k1, k2⟩ := between_pos (S1 := -S1) (E1 := -E1) (Q1 := -Q1) (by simpa using hS) (by simpa using hE)
      (by simpa using hQ) ha hb hab (by rw [e1]; ring) e2 (by linarith) (by linarith) h2
    rw [min_neg_neg] at k1
    rw [max_neg_neg] at k2
    exact ⟨by linarith, by linarith⟩

theorem sector {R S1 S2 E1 E2 Q1 Q2 : ℝ} (hS : S1 ^ 2 + S2 ^ 2 = R) (hE : E1 ^ 2 + E2 ^ 2 = R)
    (hQ : Q1 ^ 2 + Q2 ^ 2 = R) (hX : 0 < S1 * E2 - S2 * E1) (hA : 0 ≤ Q1 * E2 - Q2 * E1) (hB : 0 ≤ S1 * Q2 - S2 * Q1)
    (h1 : 0 ≤ S1 * E1) (h2 : 0 ≤ S2 * E2) :
    (min S1 E1 ≤ Q1 ∧ Q1 ≤ max S1 E1) ∧ min S2 E2 ≤ Q2 ∧ Q2 ≤ max S2 E2 := by
  obtain ⟨X, hXe⟩ : ∃ X, X = S1 * E2 - S2 * E1 := ⟨_, rfl⟩
  have hX0 : X ≠ 0 := by rw [hXe]; exact hX.ne'
  have e1 : Q1 = (Q1 * E2 - Q2 * E1) / X * S1 + (S1 * Q2 - S2 * Q1) / X * E1 := by
    field_simp; rw [hXe]; ring
  have e2 : Q2 = (Q1 * E2 - Q2 * E1) / X * S2 + (S1 * Q2 - S2 * Q1) / X * E2 := by
    field_simp; rw [hXe]; ring
  rw [← hXe] at hX
  have ha := div_nonneg hA hX.le
  have hb := div_nonneg hB hX.le
  generalize (Q1 * E2 - Q2 * E1) / X = a at *
  generalize (S1 * Q2 - S2 * Q1) / X = b at *
  have hR : 0 < R := by
    rw [← hS]
    by_contra hn
    have z1 : S1 = 0 := by nlinarith [sq_nonneg S1, sq_nonneg S2]
    have z2 : S2 = 0 := by nlinarith [sq_nonneg S1, sq_nonneg S2]
    rw [z1, z2] at hXe
    simp at hXe
    exact hX0 hXe
  have hab : 1 ≤ a + b := by
    have hd : S1 * E1 + S2 * E2 ≤ R := by nlinarith [sq_nonneg (S1 - E1), sq_nonneg (S2 - E2)]
    have : R = a ^ 2 * R + 2 * (a * b) * (S1 * E1 + S2 * E2) + b ^ 2 * R := by
      nth_rw 1 [← hQ]
      nth_rw 2 [← hE]
      nth_rw 1 [← hS]
      rw [e1, e2]; ring
    have h3 : R * 1 ≤ R * (a + b) ^ 2 := by nlinarith [mul_nonneg ha hb]
    have h4 := le_of_mul_le_mul_left h3 hR
    nlinarith
  refine ⟨between hS hE hQ ha hb hab e1 e2 h1 h2, ?_⟩
  exact between (R := R) (S1 := S2) (S2 := S1) (E1 := E2) (E2 := E1) (Q1 := Q2) (Q2 := Q1) (by linarith) (by linarith)
    (by linarith) ha hb hab e2 e1 h2 h1

/-- The ends of an arc are in one quadrant around the centre, and the arc goes from the one to the other within it. -/
def OneQuadrant (direction : String) (s e c : RPt) : Prop :=
  0 ≤ (s.1 - c.1) * (e.1 - c.1) ∧ 0 ≤ (s.2 - c.2) * (e.2 - c.2) ∧
  if direction = "counterclockwise" then 0 < (s.1 - c.1) * (e.2 - c.2) - (s.2 - c.2) * (e.1 - c.1)
  else (s.1 - c.1) * (e.2 - c.2) - (s.2 - c.2) * (e.1 - c.1) < 0

theorem sector_arc {r α β t : ℝ} {c : RPt} (h2 : β ≤ α + 2 * Real.pi) (h3 : α ≤ t) (h4 : t ≤ β)
    (q1 : 0 ≤ (r * Real.cos α) * (r * Real.cos β)) (q2 : 0 ≤ (r * Real.sin α) * (r * Real.sin β))
    (hX : 0 < (r * Real.cos α) * (r * Real.sin β) - (r * Real.sin α) * (r * Real.cos β)) :
    (hullBox [onCircle c r α, onCircle c r β]).Holds (onCircle c r t) := by
  have n : ∀ x, (r * Real.cos x) ^ 2 + (r * Real.sin x) ^ 2 = r ^ 2 := fun x => by
    linear_combination r ^ 2 * Real.cos_sq_add_sin_sq x
  have cr : ∀ x y, (r * Real.cos x) * (r * Real.sin y) - (r * Real.sin x) * (r * Real.cos y) = r ^ 2 * Real.sin (y - x) := by
    intro x y; rw [Real.sin_sub]; ring
  have hsin : 0 < Real.sin (β - α) := by
    rw [cr] at hX
    exact pos_of_mul_pos_right hX (sq_nonneg r)
  have hlt : β - α < Real.pi := by
    by_contra hn
    have : Real.sin (β - α) ≤ 0 := by
      rw [← neg_nonneg, ← Real.sin_sub_pi]
      have := Real.sin_nonneg_of_nonneg_of_le_pi (x := β - α - Real.pi) (by linarith) (by linarith)
      linarith [Real.sin_sub_pi (β - α)]
    linarith
  have hA : 0 ≤ (r * Real.cos t) * (r * Real.sin β) - (r * Real.sin t) * (r * Real.cos β) := by
    rw [cr]
    exact mul_nonneg (sq_nonneg r) (Real.sin_nonneg_of_nonneg_of_le_pi (by linarith) (by linarith))
  have hB : 0 ≤ (r * Real.cos α) * (r * Real.sin t) - (r * Real.sin α) * (r * Real.cos t) := by
    rw [cr]
    exact mul_nonneg (sq_nonneg r) (Real.sin_nonneg_of_nonneg_of_le_pi (by linarith) (by linarith))
  obtain ⟨⟨k1, k2⟩, k3, k4⟩ := sector (n α) (n β) (n t) hX hA hB q1 q2
  simp only [Box.Holds, hullBox, onCircle, List.map_cons, List.map_nil, List.foldl_cons, List.foldl_nil]
  simp only [min_add_add_left, max_add_add_left]
  exact ⟨by linarith, by linarith, by linarith, by linarith⟩

/-- **C32**: in single-quadrant mode the path of an arc between points of one quadrant lies in its box. -/
theorem C32_one_quadrant_partial {direction mode : String} {s e c q : RPt} (h : OneQuadrant direction s e c)
    (hq : q ∈ circular direction s e c) (hm : mode ≠ "multi-quadrant") : (arcBox direction mode s e c).Holds q := by
  obtain ⟨r, α, β, t, hr, rfl, rfl, rfl, hd⟩ := hq
  obtain ⟨q1, q2, hX⟩ := h
  simp only [onCircle, add_sub_cancel_left] at q1 q2 hX
  unfold arcBox arcPoints
  rw [if_neg hm, List.append_nil]
  split at hd
  · rename_i hdir
    rw [if_pos hdir] at hX
    obtain ⟨-, h2, h3, h4⟩ := hd
    exact sector_arc h2 h3 h4 q1 q2 hX
  · rename_i hdir
    rw [if_neg hdir] at hX
    obtain ⟨-, h2, h3, h4⟩ := hd
    have := sector_arc (r := r) (c := c) h2 h3 h4 (by linarith) (by linarith) (by linarith)
    have := hullBox_swap _ _ [] (by simpa using this)
    simpa using this

/-- The theorem applies to a quarter of a circle. -/
example : OneQuadrant "clockwise" (0, 1) (1, 0) (0, 0) := by
  unfold OneQuadrant
  rw [if_neg (by decide)]
  norm_num

/-- The box of the arc holds the arc: boxes in multi-quadrant mode always do (`C32_arc_path`), others if the arc stays
in a quadrant. -/
def Enclosed (direction mode : String) (s e c : RPt) : Prop := mode = "multi-quadrant" ∨ OneQuadrant direction s e c

theorem arc_enclosed {direction mode : String} {s e c q : RPt} (h : Enclosed direction mode s e c)
    (hq : q ∈ circular direction s e c) : (arcBox direction mode s e c).Holds q := by
  by_cases hm : mode = "multi-quadrant"
  · subst hm
    exact C32_arc_path hq
  · exact C32_one_quadrant_partial (h.resolve_left hm) hq hm

end Verif.Geom
