import Verif.Props.Winding
import Verif.Props.CairoArc

/-! # Paths with arcs: what they go around -/

namespace Verif.Geom

open Verif.Cairo

/-- Without arcs the area is that of the closed path of lines. -/
theorem enclosed_lines (v : RPt) (l : List RPt) : enclosed v (l.map .line) = inside (v :: l) := by
  have hc : ∀ n, (l.map Bend.line).flatMap (Bend.corners n) = l := by
    intro n
    induction l with
    | nil => rfl
    | cons w l ih => simpa [Bend.corners] using ih
  ext p
  constructor
  · rintro (⟨b, hb, hp⟩ | ⟨N, h⟩)
    · obtain ⟨w, -, rfl⟩ := List.mem_map.mp hb
      exact hp.elim
    · have := h N le_rfl
      rwa [hc] at this
  · intro h
    exact .inr ⟨0, fun n _ => by rwa [hc]⟩

/-- Corners on an arc are points of it. -/
theorem corners_bow {n : ℕ} (hn : 0 < n) {c : RPt} {r α β : ℝ} {q : RPt} (h : q ∈ (Bend.arc c r α β).corners n) :
    q ∈ (Bend.arc c r α β).bow := by
  simp only [Bend.corners, List.mem_map, List.mem_range] at h
  obtain ⟨k, hk, rfl⟩ := h
  have hn' : (0 : ℝ) < n := by exact_mod_cast hn
  refine ⟨k / n, by positivity, ?_, rfl⟩
  rw [div_le_one hn']
  exact_mod_cast Nat.lt_succ_iff.mp hk

/-- The area lies in every convex set that contains the path. -/
theorem enclosed_convex {C : Set RPt} (hC : Convex ℝ C) {v : RPt} {l : List Bend} (hv : v ∈ C)
    (hl : ∀ b ∈ l, b.bow ⊆ C ∧ ∀ p, b = .line p → p ∈ C) : enclosed v l ⊆ C := by
  rintro p (⟨b, hb, hp⟩ | ⟨N, h⟩)
  · exact (hl b hb).1 hp
  · refine convexHull_min ?_ hC (inside_span _ (h (N + 1) (by omega)))
    intro w hw
    rcases List.mem_cons.mp hw with rfl | hw
    · exact hv
    · obtain ⟨b, hb, hw⟩ := List.mem_flatMap.mp hw
      cases b with
      | line q => rw [List.mem_singleton.mp hw]; exact (hl _ hb).2 q rfl
      | arc c r α β => exact (hl _ hb).1 (corners_bow (by omega) hw)

/-! ## Directions -/

theorem onCircle_bearing (p c : RPt) : onCircle c (arcRadius p c) (bearing p c) = p := by
  have hn : ‖(⟨p.1 - c.1, p.2 - c.2⟩ : ℂ)‖ = arcRadius p c := by
    rw [Complex.norm_def, Complex.normSq_apply]
    simp only [arcRadius, sq]
  have h1 := Complex.norm_mul_cos_arg (⟨p.1 - c.1, p.2 - c.2⟩ : ℂ)
  have h2 := Complex.norm_mul_sin_arg (⟨p.1 - c.1, p.2 - c.2⟩ : ℂ)
  rw [hn] at h1 h2
  simp only [onCircle, bearing, h1, h2]
  ext <;> simp

theorem onCircle_ioc (c : RPt) (r a b : ℝ) : onCircle c r (toIocMod Real.two_pi_pos a b) = onCircle c r b := by
  rw [toIocMod, zsmul_eq_mul, sub_eq_add_neg, ← neg_mul, ← Int.cast_neg, onCircle_add]

theorem onCircle_ico (c : RPt) (r a b : ℝ) : onCircle c r (toIcoMod Real.two_pi_pos a b) = onCircle c r b := by
  rw [toIcoMod, zsmul_eq_mul, sub_eq_add_neg, ← neg_mul, ← Int.cast_neg, onCircle_add]

/-- The arc is the circular path between its ends. -/
theorem arcBend_circular (direction : String) {s e c : RPt} (he : arcRadius e c = arcRadius s c) :
    (arcBend direction s e c).bow ⊆ circular direction s e c := by
  rintro q ⟨t, h0, h1, rfl⟩
  have hs := (onCircle_bearing s c).symm
  have hee : e = onCircle c (arcRadius s c) (bearing e c) := by rw [← he]; exact (onCircle_bearing e c).symm
  by_cases hd : direction = "counterclockwise"
  · have h2 := toIocMod_mem_Ioc Real.two_pi_pos (bearing s c) (bearing e c)
    rw [if_pos hd]
    refine ⟨arcRadius s c, bearing s c, toIocMod Real.two_pi_pos (bearing s c) (bearing e c), _, Real.sqrt_nonneg _, hs,
      by rw [onCircle_ioc]; exact hee, rfl, ?_⟩
    rw [if_pos hd]
    refine ⟨h2.1, h2.2, ?_, ?_⟩ <;> nlinarith [h2.1]
  · have h2 := toIcoMod_mem_Ico Real.two_pi_pos (bearing s c - 2 * Real.pi) (bearing e c)
    rw [sub_add_cancel] at h2
    rw [if_neg hd]
    refine ⟨arcRadius s c, bearing s c, toIcoMod Real.two_pi_pos (bearing s c - 2 * Real.pi) (bearing e c), _,
      Real.sqrt_nonneg _, hs, by rw [onCircle_ico]; exact hee, rfl, ?_⟩
    rw [if_neg hd]
    refine ⟨h2.2, by linarith [h2.1], ?_, ?_⟩ <;> nlinarith [h2.2]

/-! ## Whole circles -/

theorem crossing_same {e : RPt × RPt} (h : e.1 = e.2) (p : RPt) : crossing e p = 0 := by
  unfold crossing
  rw [h, if_neg, if_neg] <;> rintro ⟨h1, h2, -⟩ <;> linarith

/-- A point to the left of all lines of a closed path that passes below and above it. -/
theorem winding_left {vs : List RPt} {p : RPt} (h : ∀ e ∈ loop vs, e.1 = e.2 ∨ 0 < cross3 e.1 e.2 p)
    {v w : RPt} (hv : v ∈ vs) (hw : w ∈ vs) (h1 : v.2 ≤ p.2) (h2 : p.2 < w.2) : winding vs p ≠ 0 := by
  have hnn : ∀ x ∈ (loop vs).map (crossing · p), 0 ≤ x := by
    intro x hx
    obtain ⟨e, he, rfl⟩ := List.mem_map.mp hx
    rcases h e he with h | h
    · rw [crossing_same h]
    · unfold crossing
      simp only [cross3] at h
      dsimp only
      split
      · norm_num
      · rw [if_neg]
        rintro ⟨-, -, h3⟩
        linarith
  obtain ⟨e, he, h3, h4⟩ := loop_change (P := fun q => p.2 < q.2) hv hw (by simpa using h1) h2
  have : crossing e p = 1 := by
    unfold crossing
    rw [if_pos]
    refine ⟨by simpa using h3, h4, ?_⟩
    rcases h e he with h | h
    · rw [h] at h3; exact absurd h4 h3
    · simp only [cross3] at h
      linarith
  have := List.single_le_sum hnn _ (List.mem_map_of_mem he)
  unfold winding
  omega

/-- A point to the right of all lines. -/
theorem winding_right {vs : List RPt} {p : RPt} (h : ∀ e ∈ loop vs, e.1 = e.2 ∨ cross3 e.1 e.2 p < 0)
    {v w : RPt} (hv : v ∈ vs) (hw : w ∈ vs) (h1 : v.2 ≤ p.2) (h2 : p.2 < w.2) : winding vs p ≠ 0 := by
  have hnn : ∀ x ∈ (loop vs).map (fun e => -crossing e p), 0 ≤ x := by
    intro x hx
    obtain ⟨e, he, rfl⟩ := List.mem_map.mp hx
    rcases h e he with h | h
    · rw [crossing_same h, neg_zero]
    · unfold crossing
      simp only [cross3] at h
      rw [if_neg]
      · split <;> norm_num
      · rintro ⟨-, -, h3⟩
        linarith
  obtain ⟨e, he, h3, h4⟩ := loop_change (P := fun q => q.2 ≤ p.2) hw hv (by simpa using h2) h1
  have : crossing e p = -1 := by
    unfold crossing
    have h3' := not_le.mp h3
    rw [if_neg (fun h => absurd h.1 h3), if_pos]
    refine ⟨h4, h3', ?_⟩
    rcases h e he with h | h
    · rw [h] at h3; exact absurd h4 h3
    · simp only [cross3] at h
      linarith
  have hs := List.single_le_sum hnn _ (List.mem_map_of_mem he)
  have hneg : ((loop vs).map fun e => -crossing e p).sum = -winding vs p := by
    unfold winding
    induction loop vs with
    | nil => rfl
    | cons e l ih => simp only [List.map_cons, List.sum_cons, ih]; ring
  rw [hneg] at hs
  omega

/-- The lines of a closed path through numbered points. -/
theorem loop_range {v : RPt} {P : ℕ → RPt} {m : ℕ} {e : RPt × RPt} (h : e ∈ loop (v :: (List.range (m + 1)).map P)) :
    e = (v, P 0) ∨ (∃ k < m, e = (P k, P (k + 1))) ∨ e = (P m, v) := by
  obtain ⟨i, hi, rfl⟩ := steps_index h
  simp only [List.length_append, List.length_map, List.length_range, List.length_singleton] at hi
  rcases Nat.eq_zero_or_pos i with rfl | h0
  · left
    simp
  · obtain ⟨k, rfl⟩ : ∃ k, i = k + 1 := ⟨i - 1, by omega⟩
    right
    rcases Nat.lt_or_ge k m with hk | hk
    · left
      refine ⟨k, hk, ?_⟩
      simp only [List.getElem_cons_succ]
      rw [List.getElem_append_left (by simp; omega), List.getElem_append_left (by simp; omega)]
      simp
    · right
      have : k = m := by omega
      subst this
      simp only [List.getElem_cons_succ]
      rw [List.getElem_append_left (by simp), List.getElem_append_right (by simp)]
      simp

/-- On which side of a chord a point is. -/
theorem cross_chord (c : RPt) (r m d : ℝ) (p : RPt) : cross3 (onCircle c r (m - d)) (onCircle c r (m + d)) p =
    2 * r * Real.sin d * (r * Real.cos d - ((p.1 - c.1) * Real.cos m + (p.2 - c.2) * Real.sin m)) := by
  simp only [cross3, onCircle, Real.cos_add, Real.sin_add, Real.cos_sub, Real.sin_sub]
  linear_combination (2 * r ^ 2 * Real.sin d * Real.cos d) * (Real.sin_sq_add_cos_sq m)

theorem dot_le (x y m : ℝ) : x * Real.cos m + y * Real.sin m ≤ Real.sqrt (x ^ 2 + y ^ 2) := by
  apply Real.le_sqrt_of_sq_le
  nlinarith [sq_nonneg (x * Real.sin m - y * Real.cos m), Real.sin_sq_add_cos_sq m]

/-- Among evenly spaced directions there is one close to every direction. -/
theorem near_direction {n : ℕ} (hn : 0 < n) (α φ : ℝ) : ∃ k < n, ∃ (j : ℤ) (d : ℝ), 0 ≤ d ∧ d ≤ 2 * Real.pi / n ∧
    φ = α + 2 * Real.pi * (k / n) + d + j * (2 * Real.pi) := by
  have hn' : (0 : ℝ) < n := by exact_mod_cast hn
  have hpi := Real.two_pi_pos
  set x := (φ - α) / (2 * Real.pi) with hx
  have f0 := Int.fract_nonneg x
  have f1 := Int.fract_lt_one x
  have g0 := Nat.floor_le (mul_nonneg f0 hn'.le)
  have g1 := Nat.lt_floor_add_one (Int.fract x * n)
  refine ⟨⌊Int.fract x * n⌋₊, ?_, ⌊x⌋, 2 * Real.pi * (Int.fract x - ⌊Int.fract x * n⌋₊ / n), ?_, ?_, ?_⟩
  · rw [Nat.floor_lt (mul_nonneg f0 hn'.le)]
    nlinarith
  · apply mul_nonneg hpi.le
    rw [sub_nonneg, div_le_iff₀ hn']
    exact g0
  · rw [div_eq_mul_inv (2 * Real.pi)]
    apply mul_le_mul_of_nonneg_left _ hpi.le
    rw [tsub_le_iff_right, inv_eq_one_div, ← add_div, le_div_iff₀ hn']
    linarith
  · have h1 := Int.fract_add_floor x
    have h2 : φ - α = x * (2 * Real.pi) := by rw [hx]; field_simp
    rw [← h1] at h2
    linarith

theorem disc_convex (c : RPt) (r : ℝ) : Convex ℝ {p : RPt | (p.1 - c.1) ^ 2 + (p.2 - c.2) ^ 2 ≤ r ^ 2} := by
  intro p hp q hq a b ha hb hab
  simp only [Set.mem_ofPred_eq, Prod.fst_add, Prod.snd_add, Prod.smul_fst, Prod.smul_snd, smul_eq_mul] at *
  have hb' : b = 1 - a := by linarith
  subst hb'
  nlinarith [mul_nonneg ha hb, sq_nonneg (p.1 - q.1), sq_nonneg (p.2 - q.2),
    mul_nonneg (mul_nonneg ha hb) (sq_nonneg (p.1 - q.1)), mul_nonneg (mul_nonneg ha hb) (sq_nonneg (p.2 - q.2))]

theorem onCircle_disc (c : RPt) (r t : ℝ) : onCircle c r t ∈ {p : RPt | (p.1 - c.1) ^ 2 + (p.2 - c.2) ^ 2 ≤ r ^ 2} := by
  simp only [onCircle, Set.mem_ofPred_eq]
  nlinarith [Real.sin_sq_add_cos_sq t]

/-- The directions of the corners of a whole turn. -/
theorem whole_turn (direction : String) (s c : RPt) : ∃ σ : ℝ, (σ = 1 ∨ σ = -1) ∧
    arcBend direction s s c = .arc c (arcRadius s c) (bearing s c) (bearing s c + σ * (2 * Real.pi)) := by
  unfold arcBend
  by_cases h : direction = "counterclockwise"
  · refine ⟨1, .inl rfl, ?_⟩
    rw [if_pos h, toIocMod_apply_left, one_mul]
    rfl
  · refine ⟨-1, .inr rfl, ?_⟩
    have := toIcoMod_apply_right Real.two_pi_pos (bearing s c - 2 * Real.pi)
    rw [sub_add_cancel] at this
    rw [if_neg h, this]
    congr 1
    ring

theorem near_turn {n : ℕ} (hn : 0 < n) {σ : ℝ} (hσ : σ = 1 ∨ σ = -1) (α φ : ℝ) : ∃ k < n, ∃ (j : ℤ) (d : ℝ),
    |d| ≤ 2 * Real.pi / n ∧ α + σ * (2 * Real.pi) * (k / n) = φ + d + j * (2 * Real.pi) := by
  rcases hσ with rfl | rfl
  · obtain ⟨k, hk, j, d, h0, h1, h2⟩ := near_direction hn α φ
    refine ⟨k, hk, -j, -d, by rwa [abs_neg, abs_of_nonneg h0], ?_⟩
    push_cast
    linarith
  · obtain ⟨k, hk, j, d, h0, h1, h2⟩ := near_direction hn (-α) (-φ)
    refine ⟨k, hk, j, d, by rwa [abs_of_nonneg h0], ?_⟩
    linarith

/-- A corner of a whole turn is near every direction. -/
theorem near_corner {n : ℕ} (hn : 2 ≤ n) {σ : ℝ} (hσ : σ = 1 ∨ σ = -1) (α φ : ℝ) : ∃ k < n,
    Real.cos (2 * Real.pi / n) ≤ Real.cos (α + σ * (2 * Real.pi) * (k / n) - φ) := by
  obtain ⟨k, hk, j, d, hd, h⟩ := near_turn (n := n) (by omega) hσ α φ
  refine ⟨k, hk, ?_⟩
  rw [h, show φ + d + j * (2 * Real.pi) - φ = d + j * (2 * Real.pi) by ring, Real.cos_add_int_mul_two_pi, ← Real.cos_abs d]
  have hn' : (2 : ℝ) ≤ n := by exact_mod_cast hn
  apply Real.cos_le_cos_of_nonneg_of_le_pi (abs_nonneg _) _ hd
  rw [div_le_iff₀ (by linarith)]
  nlinarith [Real.pi_pos]

/-- The path that is one whole circle goes around the disc. -/
theorem enclosed_circle (direction : String) {s c : RPt} (hr : 0 < arcRadius s c) :
    enclosed s [arcBend direction s s c] = {p : RPt | (p.1 - c.1) ^ 2 + (p.2 - c.2) ^ 2 ≤ arcRadius s c ^ 2} := by
  obtain ⟨σ, hσ, hb⟩ := whole_turn direction s c
  have hs := onCircle_bearing s c
  rw [hb]
  generalize arcRadius s c = r at hr hs
  generalize bearing s c = α at hs
  subst hs
  apply Set.Subset.antisymm
  · apply enclosed_convex (disc_convex c r) (onCircle_disc c r _)
    intro b hb
    rw [List.mem_singleton.mp hb]
    refine ⟨?_, fun p h => by cases h⟩
    rintro q ⟨t, -, -, rfl⟩
    exact onCircle_disc c r _
  · intro p hp
    rcases (show (p.1 - c.1) ^ 2 + (p.2 - c.2) ^ 2 ≤ r ^ 2 from hp).eq_or_lt with heq | hlt
    · left
      refine ⟨_, List.mem_singleton_self _, ?_⟩
      have hp' := onCircle_bearing p c
      have hpr : arcRadius p c = r := by rw [arcRadius, heq, Real.sqrt_sq hr.le]
      rw [hpr] at hp'
      set x := σ * (bearing p c - α) / (2 * Real.pi) with hx
      refine ⟨Int.fract x, Int.fract_nonneg x, (Int.fract_lt_one x).le, ?_⟩
      have hσ2 : σ * σ = 1 := by rcases hσ with rfl | rfl <;> norm_num
      obtain ⟨j, hj⟩ : ∃ j : ℤ, (j : ℝ) = -σ * ⌊x⌋ := by
        rcases hσ with rfl | rfl
        · exact ⟨-⌊x⌋, by push_cast; ring⟩
        · exact ⟨⌊x⌋, by ring⟩
      have hx2 : σ * (2 * Real.pi) * x = bearing p c - α := by
        have : x * (2 * Real.pi) = σ * (bearing p c - α) := by rw [hx]; field_simp
        linear_combination σ * this + (bearing p c - α) * hσ2
      have : α + (α + σ * (2 * Real.pi) - α) * Int.fract x = bearing p c + j * (2 * Real.pi) := by
        rw [hj, ← Int.self_sub_floor]
        linear_combination hx2
      rw [this, onCircle_add, hp']
    · right
      have hd : Real.sqrt ((p.1 - c.1) ^ 2 + (p.2 - c.2) ^ 2) < r := (Real.sqrt_lt' hr).mpr hlt
      have hlim : Filter.Tendsto (fun n : ℕ => r * Real.cos (2 * Real.pi / n)) Filter.atTop (nhds r) := by
        have h1 : Filter.Tendsto (fun n : ℕ => 2 * Real.pi / (n : ℝ)) Filter.atTop (nhds 0) :=
          tendsto_const_div_atTop_nhds_zero_nat _
        have h2 := (Real.continuous_cos.tendsto 0).comp h1
        rw [Real.cos_zero] at h2
        simpa using h2.const_mul r
      obtain ⟨N, hN⟩ := Filter.eventually_atTop.mp (hlim.eventually (lt_mem_nhds hd))
      refine ⟨max N 3, fun n hn => .inr ?_⟩
      have hn1 := hN n (le_trans (le_max_left _ _) hn)
      have hn3 : 3 ≤ n := le_trans (le_max_right _ _) hn
      have hn' : (3 : ℝ) ≤ n := by exact_mod_cast hn3
      have hpi := Real.pi_pos
      simp only [List.flatMap_cons, List.flatMap_nil, List.append_nil, Bend.corners]
      set P : ℕ → RPt := fun k => onCircle c r (α + (α + σ * (2 * Real.pi) - α) * (k / n)) with hP
      have hmem : ∀ k < n, P k ∈ onCircle c r α :: (List.range (n + 1)).map P := by
        intro k hk
        exact List.mem_cons_of_mem _ (List.mem_map_of_mem (List.mem_range.mpr (by omega)))
      have hPk : ∀ k, P k = onCircle c r (α + σ * (2 * Real.pi) * (k / n)) := by
        intro k
        rw [hP]
        simp only
        congr 1
        ring
      have hy1 := dot_le (p.1 - c.1) (p.2 - c.2) (Real.pi / 2)
      have hy2 := dot_le (p.1 - c.1) (p.2 - c.2) (-(Real.pi / 2))
      rw [Real.cos_neg, Real.sin_neg] at hy2
      rw [Real.cos_pi_div_two, Real.sin_pi_div_two] at hy1 hy2
      obtain ⟨k1, hk1, h1⟩ := near_corner (by omega) hσ α (Real.pi / 2) (n := n)
      obtain ⟨k2, hk2, h2⟩ := near_corner (by omega) hσ α (-(Real.pi / 2)) (n := n)
      rw [Real.cos_sub_pi_div_two] at h1
      rw [sub_neg_eq_add, Real.cos_add_pi_div_two] at h2
      have hlow : (P k2).2 ≤ p.2 := by
        rw [hPk]
        simp only [onCircle]
        nlinarith
      have hhigh : p.2 < (P k1).2 := by
        rw [hPk]
        simp only [onCircle]
        nlinarith
      have h0 : P 0 = onCircle c r α := by rw [hPk]; simp
      have hend : P n = onCircle c r α := by
        rw [hPk, div_self (by positivity), mul_one]
        rcases hσ with rfl | rfl
        · have := onCircle_add c r α 1
          simpa using this
        · have := onCircle_add c r α (-1)
          simpa using this
      have hcos : Real.sqrt ((p.1 - c.1) ^ 2 + (p.2 - c.2) ^ 2) < r * Real.cos (Real.pi / n) := by
        refine lt_of_lt_of_le hn1 (mul_le_mul_of_nonneg_left ?_ hr.le)
        apply Real.cos_le_cos_of_nonneg_of_le_pi (by positivity)
        · rw [div_le_iff₀ (by linarith)]
          nlinarith
        · apply div_le_div_of_nonneg_right _ (by linarith)
          linarith
      have hsin : 0 < Real.sin (Real.pi / n) := by
        apply Real.sin_pos_of_pos_of_lt_pi (by positivity)
        rw [div_lt_iff₀ (by linarith)]
        nlinarith
      have hchord : ∀ k, cross3 (P k) (P (k + 1)) p = 2 * r * (σ * Real.sin (Real.pi / n)) * (r * Real.cos (Real.pi / n) -
          ((p.1 - c.1) * Real.cos (α + σ * (2 * Real.pi) * (k / n) + σ * (Real.pi / n)) +
            (p.2 - c.2) * Real.sin (α + σ * (2 * Real.pi) * (k / n) + σ * (Real.pi / n)))) := by
        intro k
        have e1 : P k = onCircle c r (α + σ * (2 * Real.pi) * (k / n) + σ * (Real.pi / n) - σ * (Real.pi / n)) := by
          rw [hPk, add_sub_cancel_right]
        have e2 : P (k + 1) = onCircle c r (α + σ * (2 * Real.pi) * (k / n) + σ * (Real.pi / n) + σ * (Real.pi / n)) := by
          rw [hPk]
          congr 1
          push_cast
          field_simp
          ring
        rw [e1, e2, cross_chord]
        have g1 : Real.sin (σ * (Real.pi / n)) = σ * Real.sin (Real.pi / n) := by
          rcases hσ with rfl | rfl <;> simp
        have g2 : Real.cos (σ * (Real.pi / n)) = Real.cos (Real.pi / n) := by
          rcases hσ with rfl | rfl <;> simp
        rw [g1, g2]
      have hpos : ∀ k, 0 < σ * cross3 (P k) (P (k + 1)) p := by
        intro k
        have hσ2 : σ * σ = 1 := by rcases hσ with rfl | rfl <;> norm_num
        have := dot_le (p.1 - c.1) (p.2 - c.2) (α + σ * (2 * Real.pi) * (k / n) + σ * (Real.pi / n))
        rw [hchord, show ∀ A B : ℝ, σ * (2 * r * (σ * A) * B) = 2 * r * A * B * (σ * σ) by intros; ring, hσ2, mul_one]
        exact mul_pos (by positivity) (by linarith)
      have hside : ∀ e ∈ loop (onCircle c r α :: (List.range (n + 1)).map P), e.1 = e.2 ∨ 0 < σ * cross3 e.1 e.2 p := by
        intro e he
        rcases loop_range he with rfl | ⟨k, -, rfl⟩ | rfl
        · exact .inl h0.symm
        · exact .inr (hpos k)
        · exact .inl hend
      rcases hσ with rfl | rfl
      · exact winding_left (fun e he => (hside e he).imp_right fun h => by linarith) (hmem k2 hk2) (hmem k1 hk1) hlow hhigh
      · exact winding_right (fun e he => (hside e he).imp_right fun h => by linarith) (hmem k2 hk2) (hmem k1 hk1) hlow hhigh

end Verif.Geom
