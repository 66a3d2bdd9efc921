import Verif.Props.CairoArc

/-! # C68 for arcs with rectangular apertures, which cairo draws with square caps -/

namespace Verif.Cairo

open Verif.Py Verif.Geom Verif.Render

/-! ## What is assumed of cairo -/

/-- The points up to `w / 2` to both sides of a path on the circle around `c`. -/
def band (c : RPt) (r : ℝ) (path : Set RPt) (w : ℝ) : Set RPt :=
  {q | ∃ p ∈ path, ∃ d : ℝ, |d| ≤ w / 2 ∧ q = (p.1 + d * ((p.1 - c.1) / r), p.2 + d * ((p.2 - c.2) / r))}

/-- The square cap at the point `p` of the circle: half a square beyond the end, counterclockwise for `σ = 1` and
clockwise for `σ = -1`. -/
def cap (c : RPt) (r : ℝ) (p : RPt) (σ w : ℝ) : Set RPt :=
  {q | ∃ d l : ℝ, |d| ≤ w / 2 ∧ 0 ≤ l ∧ l ≤ w / 2 ∧
    q = (p.1 + d * ((p.1 - c.1) / r) - σ * l * ((p.2 - c.2) / r), p.2 + d * ((p.2 - c.2) / r) + σ * l * ((p.1 - c.1) / r))}

/-- What is assumed of cairo: `stroke()` with `LINE_CAP_SQUARE` paints half the width to both sides of the path, and half
a square beyond its ends. -/
def Engine.SquareCaps (K : Engine) : Prop := ∀ c r a1 a2 n w, 0 < r → 0 < w →
  K.squareArc c r a1 a2 n w = band c r (arcPath c r a1 a2 n) w ∪ cap c r (onCircle c r a1) (if n then 1 else -1) w ∪
    cap c r (onCircle c r a2) (if n then -1 else 1) w

/-- The assumption can be met. -/
example : ∃ K : Engine, K.SquareCaps :=
  ⟨⟨fun _ _ => ∅, fun c r a1 a2 n w => band c r (arcPath c r a1 a2 n) w ∪ cap c r (onCircle c r a1) (if n then 1 else -1) w ∪
    cap c r (onCircle c r a2) (if n then -1 else 1) w⟩, fun _ _ _ _ _ _ _ _ => rfl⟩

/-! ## Scaling -/

theorem band_scaled {s : ℝ} (hs : 0 < s) (c : RPt) {r : ℝ} (hr : 0 < r) (path : Set RPt) (w : ℝ) :
    band (scalePoint s c) (s * r) (scalePoint s '' path) (w * s) = inPixels s (band c r path w) := by
  have e : ∀ u v : ℝ, (u * s - v * s) / (s * r) = (u - v) / r := by intro u v; field_simp
  ext q
  constructor
  · rintro ⟨_, ⟨p, hp, rfl⟩, d, hd, rfl⟩
    refine ⟨_, ⟨p, hp, d / s, ?_, rfl⟩, ?_⟩
    · rw [abs_div, abs_of_pos hs, div_le_iff₀ hs]; linarith
    · simp only [scalePoint, e, Prod.mk.injEq]
      constructor <;> field_simp
  · rintro ⟨_, ⟨p, hp, d, hd, rfl⟩, rfl⟩
    refine ⟨_, ⟨p, hp, rfl⟩, d * s, ?_, ?_⟩
    · rw [abs_mul, abs_of_pos hs]; nlinarith
    · simp only [scalePoint, e, Prod.mk.injEq]
      constructor <;> ring

theorem cap_scaled {s : ℝ} (hs : 0 < s) (c : RPt) {r : ℝ} (hr : 0 < r) (p : RPt) (σ w : ℝ) :
    cap (scalePoint s c) (s * r) (scalePoint s p) σ (w * s) = inPixels s (cap c r p σ w) := by
  have e : ∀ u v : ℝ, (u * s - v * s) / (s * r) = (u - v) / r := by intro u v; field_simp
  ext q
  constructor
  · rintro ⟨d, l, hd, h0, hl, rfl⟩
    refine ⟨_, ⟨d / s, l / s, ?_, by positivity, ?_, rfl⟩, ?_⟩
    · rw [abs_div, abs_of_pos hs, div_le_iff₀ hs]; linarith
    · rw [div_le_iff₀ hs]; linarith
    · simp only [scalePoint, e, Prod.mk.injEq]
      constructor <;> field_simp
  · rintro ⟨_, ⟨d, l, hd, h0, hl, rfl⟩, rfl⟩
    refine ⟨d * s, l * s, ?_, by positivity, ?_, ?_⟩
    · rw [abs_mul, abs_of_pos hs]; nlinarith
    · nlinarith
    · simp only [scalePoint, e, Prod.mk.injEq]
      constructor <;> ring

/-! ## What is painted -/

/-- What is painted of an arc with a rectangular aperture. -/
def squarePainted (direction : String) (a e c : RPt) (w : ℝ) : Set RPt :=
  band c (arcRadius a c) (circular direction a e c) w ∪
    cap c (arcRadius a c) a (if direction = "counterclockwise" then -1 else 1) w ∪
    cap c (arcRadius a c) e (if direction = "counterclockwise" then 1 else -1) w

theorem squareArc_mask {K : Engine} (hK : K.SquareCaps) {s : ℝ} (hs : 0 < s) (dark invert : Bool) {a e c : RPt}
    (hr : 0 < arcRadius a c) (he : arcRadius e c = arcRadius a c) (hne : a ≠ e) (direction mode : String) (w h rot : ℝ) :
    K.mask s dark invert (.arc a e c direction mode (.rectangle w h rot)) =
      .ok (inPixels s (squarePainted direction a e c (max (max w h) (1 / 1000)))) := by
  have hth : theta a c ≠ theta e c := by
    intro h
    apply hne
    rw [← onCircle_theta a c, ← onCircle_theta e c, h, he]
  have hw : 0 < max (max w h) (1 / 1000) := lt_of_lt_of_le (by norm_num) (le_max_right _ _)
  have key : ∀ r t, onCircle (scalePoint s c) (s * r) t = scalePoint s (onCircle c r t) := by
    intro r t
    simp only [onCircle, scalePoint, Prod.mk.injEq]
    constructor <;> ring
  have ee := onCircle_theta e c
  rw [he] at ee
  simp only [Engine.mask, arcWidth, bind, Except.bind, hth, false_and, if_false]
  rw [hK _ _ _ _ _ _ (mul_pos hs hr) (mul_pos hw hs), arcPath_scaled, band_scaled hs _ hr, key, key, onCircle_theta, ee,
    cap_scaled hs _ hr, cap_scaled hs _ hr, arcPath_circular hr he hne]
  unfold squarePainted inPixels
  rw [Set.image_union, Set.image_union]
  by_cases hd : direction = "counterclockwise" <;> simp [hd]

theorem circular_radius {direction : String} {a e c q : RPt} (h : q ∈ circular direction a e c) :
    ∃ t, q = onCircle c (arcRadius a c) t := by
  obtain ⟨r, α, β, t, hr, h1, -, h3, -⟩ := h
  have : arcRadius a c = r := by
    rw [h1]
    simp only [arcRadius, onCircle, add_sub_cancel_left]
    rw [show (r * Real.cos α) ^ 2 + (r * Real.sin α) ^ 2 = r ^ 2 by
      linear_combination r ^ 2 * Real.sin_sq_add_cos_sq α, Real.sqrt_sq hr]
  exact ⟨t, by rw [this, h3]⟩

theorem band_slab {direction : String} {a e c : RPt} (hr : 0 < arcRadius a c) (w : ℝ) :
    band c (arcRadius a c) (circular direction a e c) w ⊆ swept (circular direction a e c) (slab w w) := by
  rintro q ⟨p, hp, d, hd, rfl⟩
  refine ⟨p, hp, (_, _), ⟨?_, ?_⟩, rfl⟩ <;>
  · obtain ⟨t, rfl⟩ := circular_radius hp
    simp only [onCircle, add_sub_cancel_left, mul_div_cancel_left₀ _ hr.ne', abs_mul]
    refine le_trans (mul_le_of_le_one_right (abs_nonneg d) ?_) hd
    first | exact Real.abs_cos_le_one t | exact Real.abs_sin_le_one t

theorem cos_le_of_between {u x : ℝ} (h0 : 0 ≤ u) (h1 : u ≤ x) (h2 : x ≤ 2 * Real.pi - u) : Real.cos x ≤ Real.cos u := by
  rcases le_total x Real.pi with h | h
  · exact Real.cos_le_cos_of_nonneg_of_le_pi h0 h h1
  · rw [← Real.cos_two_pi_sub x]
    exact Real.cos_le_cos_of_nonneg_of_le_pi h0 (by linarith) (by linarith)

/-- Points near a point of an arc are beside the arc, or beyond one of its ends. -/
theorem near_arc (c : RPt) {r : ℝ} (hr : 0 < r) {α β t w : ℝ} (ha : α ≤ t)
    (hb : t ≤ β) (hw : 0 ≤ w) {x y : ℝ} (hd : x ^ 2 + y ^ 2 ≤ (w / 2) ^ 2) {q : RPt}
    (hq : q = ((onCircle c r t).1 + x, (onCircle c r t).2 + y)) :
    q ∈ band c r {p | ∃ t, α ≤ t ∧ t ≤ β ∧ p = onCircle c r t} w ∨ q ∈ cap c r (onCircle c r α) (-1) w ∨
      q ∈ cap c r (onCircle c r β) 1 w := by
  -- the direction of the point
  obtain ⟨ρ, φ, h0, hα, hα', e⟩ : ∃ ρ φ, 0 ≤ ρ ∧ α ≤ φ ∧ φ < α + 2 * Real.pi ∧ q = onCircle c ρ φ := by
    refine ⟨arcRadius q c, toIcoMod Real.two_pi_pos α (theta q c), Real.sqrt_nonneg _,
      (toIcoMod_mem_Ico Real.two_pi_pos α _).1, (toIcoMod_mem_Ico Real.two_pi_pos α _).2, ?_⟩
    have h := toIcoMod_add_toIcoDiv_zsmul Real.two_pi_pos α (theta q c)
    have h' := onCircle_theta q c
    rw [← h] at h'
    simp only [onCircle, zsmul_eq_mul, Real.cos_add_int_mul_two_pi, Real.sin_add_int_mul_two_pi] at h'
    rw [onCircle]
    exact h'.symm
  have hdist : ρ ^ 2 + r ^ 2 - 2 * ρ * r * Real.cos (φ - t) ≤ (w / 2) ^ 2 := by
    rw [e] at hq
    simp only [onCircle, Prod.mk.injEq] at hq
    have hx : x = ρ * Real.cos φ - r * Real.cos t := by linarith [hq.1]
    have hy : y = ρ * Real.sin φ - r * Real.sin t := by linarith [hq.2]
    rw [hx, hy] at hd
    rw [Real.cos_sub]
    have s1 := Real.sin_sq_add_cos_sq φ
    have s2 := Real.sin_sq_add_cos_sq t
    nlinarith
  have hρ : 0 ≤ 2 * ρ * r := by positivity
  -- components along and across the path
  have comp : ∀ u, Real.cos (φ - t) ≤ Real.cos u → |ρ * Real.cos u - r| ≤ w / 2 ∧ ρ * Real.sin u ≤ w / 2 := by
    intro u hu
    have s1 := Real.sin_sq_add_cos_sq u
    have : (ρ * Real.cos u - r) ^ 2 + (ρ * Real.sin u) ^ 2 ≤ (w / 2) ^ 2 := by
      have := mul_le_mul_of_nonneg_left hu hρ
      nlinarith
    constructor
    · exact abs_le_of_sq_le_sq (by nlinarith [sq_nonneg (ρ * Real.sin u)]) (by linarith)
    · exact (abs_le_of_sq_le_sq' (by nlinarith [sq_nonneg (ρ * Real.cos u - r)]) (by linarith)).2
  rcases le_or_gt φ β with hφ | hφ
  · left
    have h := (comp 0 (by rw [Real.cos_zero]; exact Real.cos_le_one _)).1
    rw [Real.cos_zero, mul_one] at h
    refine ⟨onCircle c r φ, ⟨φ, hα, hφ, rfl⟩, ρ - r, h, ?_⟩
    rw [e]
    simp only [onCircle, add_sub_cancel_left, mul_div_cancel_left₀ _ hr.ne', Prod.mk.injEq]
    constructor <;> ring
  right
  rcases le_total (φ - β) (α + 2 * Real.pi - φ) with h | h
  · right
    obtain ⟨g1, g2⟩ := comp (φ - β) (cos_le_of_between (by linarith) (by linarith) (by linarith))
    refine ⟨_, _, g1, mul_nonneg h0 (Real.sin_nonneg_of_nonneg_of_le_pi (by linarith) (by linarith)), g2, ?_⟩
    rw [e]
    have hc : Real.cos φ = Real.cos (φ - β) * Real.cos β - Real.sin (φ - β) * Real.sin β := by
      rw [← Real.cos_add, sub_add_cancel]
    have hsn : Real.sin φ = Real.sin (φ - β) * Real.cos β + Real.cos (φ - β) * Real.sin β := by
      rw [← Real.sin_add, sub_add_cancel]
    simp only [onCircle, add_sub_cancel_left, mul_div_cancel_left₀ _ hr.ne', Prod.mk.injEq, hc, hsn]
    constructor <;> ring
  · left
    have hcos : Real.cos (φ - t) ≤ Real.cos (α - φ) := by
      rw [← Real.cos_two_pi_sub, ← Real.cos_add_two_pi (α - φ)]
      exact cos_le_of_between (by linarith) (by linarith) (by linarith)
    obtain ⟨g1, g2⟩ := comp (α - φ) hcos
    have hs : 0 ≤ Real.sin (α - φ) := by
      rw [← Real.sin_add_two_pi]
      exact Real.sin_nonneg_of_nonneg_of_le_pi (by linarith) (by linarith)
    refine ⟨_, _, g1, mul_nonneg h0 hs, g2, ?_⟩
    rw [e]
    have hc : Real.cos φ = Real.cos α * Real.cos (α - φ) + Real.sin α * Real.sin (α - φ) := by
      rw [← Real.cos_sub, sub_sub_cancel]
    have hsn : Real.sin φ = Real.sin α * Real.cos (α - φ) - Real.cos α * Real.sin (α - φ) := by
      rw [← Real.sin_sub, sub_sub_cancel]
    simp only [onCircle, add_sub_cancel_left, mul_div_cancel_left₀ _ hr.ne', Prod.mk.injEq, hc, hsn]
    constructor <;> ring

theorem arcRadius_onCircle (c : RPt) {r : ℝ} (hr : 0 ≤ r) (t : ℝ) : arcRadius (onCircle c r t) c = r := by
  simp only [arcRadius, onCircle, add_sub_cancel_left]
  rw [show (r * Real.cos t) ^ 2 + (r * Real.sin t) ^ 2 = r ^ 2 by
    linear_combination r ^ 2 * Real.sin_sq_add_cos_sq t, Real.sqrt_sq hr]

theorem disc_painted {direction : String} {a e c : RPt} (hr : 0 < arcRadius a c) {w : ℝ} (hw : 0 ≤ w) :
    swept (circular direction a e c) (disc (w / 2)) ⊆ squarePainted direction a e c w := by
  rintro q ⟨p, ⟨r, α, β, t, h0, h1, h2, h3, h4⟩, ⟨x, y⟩, hd, hq⟩
  have er : arcRadius a c = r := by rw [h1]; exact arcRadius_onCircle c h0 α
  rw [er] at hr
  unfold squarePainted
  rw [er]
  rw [h3] at hq
  by_cases hdir : direction = "counterclockwise"
  · rw [if_pos hdir] at h4
    rcases near_arc c hr h4.2.2.1 h4.2.2.2 hw hd hq with h | h | h
    · left; left
      obtain ⟨p', ⟨t', g1, g2, g3⟩, rest⟩ := h
      exact ⟨p', ⟨r, α, β, t', h0, h1, h2, g3, by rw [if_pos hdir]; exact ⟨h4.1, h4.2.1, g1, g2⟩⟩, rest⟩
    · left; right
      rw [if_pos hdir, h1]; exact h
    · right
      rw [if_pos hdir, h2]; exact h
  · rw [if_neg hdir] at h4
    rcases near_arc c hr h4.2.2.1 h4.2.2.2 hw hd hq with h | h | h
    · left; left
      obtain ⟨p', ⟨t', g1, g2, g3⟩, rest⟩ := h
      exact ⟨p', ⟨r, α, β, t', h0, h1, h2, g3, by rw [if_neg hdir]; exact ⟨h4.1, h4.2.1, g1, g2⟩⟩, rest⟩
    · right
      rw [if_neg hdir, h2]; exact h
    · left; right
      rw [if_neg hdir, h1]; exact h

/-! ## C68 -/

/-- **C68** for arcs with a square aperture between different points of their circle: what a round aperture of the same
width covers is painted, and what is painted is covered by the square aperture, except for the caps, which are squares in
the direction of the arc.  Missing: that exactly the sweep of the aperture is painted, which is false
(`C68_square_arc_violated`). -/
theorem C68_square_arc_partial {K : Engine} (hK : K.SquareCaps) {s : ℝ} (hs : 0 < s) (dark invert : Bool) {a e c : RPt}
    (hr : 0 < arcRadius a c) (he : arcRadius e c = arcRadius a c) (hne : a ≠ e) (direction mode : String) {w : ℝ}
    (hw : 1 / 1000 ≤ w) :
    ∃ A, K.mask s dark invert (.arc a e c direction mode (.rectangle w w 0)) = .ok (inPixels s A) ∧
      swept (circular direction a e c) (disc (w / 2)) ⊆ A ∧
      A ⊆ swept (circular direction a e c) (slab w w) ∪ cap c (arcRadius a c) a (if direction = "counterclockwise" then -1 else 1) w ∪
        cap c (arcRadius a c) e (if direction = "counterclockwise" then 1 else -1) w := by
  refine ⟨_, squareArc_mask hK hs dark invert hr he hne direction mode w w 0, ?_, ?_⟩
  · rw [max_self, max_eq_left hw]
    exact disc_painted hr (by linarith)
  · rw [max_self, max_eq_left hw]
    exact Set.union_subset_union (Set.union_subset_union (band_slab hr w) subset_rfl) subset_rfl

example : ∃ (s w : ℝ) (a e c : RPt), 0 < s ∧ 0 < arcRadius a c ∧ arcRadius e c = arcRadius a c ∧ a ≠ e ∧ 1 / 1000 ≤ w :=
  ⟨300, 1 / 2, (1, 0), (0, -1), (0, 0), by norm_num [arcRadius]⟩

/-- A half circle. -/
theorem half_circle (p : RPt) : p ∈ circular "counterclockwise" (1, 0) (-1, 0) (0, 0) →
    ∃ t, p = (Real.cos t, Real.sin t) := by
  intro h
  obtain ⟨t, rfl⟩ := circular_radius h
  exact ⟨t, by simp [onCircle, arcRadius]⟩

theorem mem_half_circle {t : ℝ} (h0 : 0 ≤ t) (h1 : t ≤ Real.pi) :
    (Real.cos t, Real.sin t) ∈ circular "counterclockwise" (1, 0) (-1, 0) (0, 0) :=
  ⟨1, 0, Real.pi, t, by norm_num, by simp [onCircle], by simp [onCircle], by simp [onCircle],
    by rw [if_pos rfl]; exact ⟨Real.pi_pos, by linarith [Real.pi_pos], h0, h1⟩⟩

/-- **C68 fails** for arcs with rectangular apertures.  On the half circle of radius 1 around the origin, an aperture 1 wide
and 0.2 high paints up to 0.5 above the circle; and of an aperture of size 1 by 1, the corners are missing. -/
theorem C68_square_arc_violated {K : Engine} (hK : K.SquareCaps) {s : ℝ} (hs : 0 < s) (dark invert : Bool) :
    let path := circular "counterclockwise" (1, 0) (-1, 0) (0, 0)
    (∃ A, K.mask s dark invert (.arc (1, 0) (-1, 0) (0, 0) "counterclockwise" "multi-quadrant" (.rectangle 1 (1 / 5) 0)) =
        .ok (inPixels s A) ∧ ((0, 7 / 5) : RPt) ∈ A ∧ ((0, 7 / 5) : RPt) ∉ swept path (slab 1 (1 / 5))) ∧
    ∃ A, K.mask s dark invert (.arc (1, 0) (-1, 0) (0, 0) "counterclockwise" "multi-quadrant" (.rectangle 1 1 0)) =
        .ok (inPixels s A) ∧ ((6 / 5, 6 / 5) : RPt) ∉ A ∧ ((6 / 5, 6 / 5) : RPt) ∈ swept path (slab 1 1) := by
  have hr : arcRadius (1, 0) (0, 0) = 1 := by simp [arcRadius]
  have he : arcRadius (-1, 0) (0, 0) = arcRadius (1, 0) (0, 0) := by simp [arcRadius]
  have hne : ((1, 0) : RPt) ≠ (-1, 0) := by
    intro h
    have := congrArg Prod.fst h
    norm_num at this
  refine ⟨⟨_, squareArc_mask hK hs dark invert (by rw [hr]; norm_num) he hne _ _ _ _ _, ?_, ?_⟩,
    ⟨_, squareArc_mask hK hs dark invert (by rw [hr]; norm_num) he hne _ _ _ _ _, ?_, ?_⟩⟩
  · refine .inl (.inl ⟨(0, 1), ?_, 2 / 5, ?_, ?_⟩)
    · have := mem_half_circle (t := Real.pi / 2) (by linarith [Real.pi_pos]) (by linarith [Real.pi_pos])
      simpa using this
    · rw [abs_of_pos (by norm_num)]; norm_num
    · rw [hr]; norm_num
  · rintro ⟨p, hp, ⟨x, y⟩, ⟨-, hy⟩, h⟩
    obtain ⟨t, rfl⟩ := half_circle p hp
    have h2 := congrArg Prod.snd h
    simp only at h2 hy
    have := Real.sin_le_one t
    have := (abs_le.1 hy).2
    linarith
  · have e : max (max (1 : ℝ) 1) (1 / 1000) = 1 := by norm_num
    rw [e]
    rintro ((⟨p, hp, d, hd, h⟩ | ⟨d, l, -, h0, -, h⟩) | ⟨d, l, -, h0, -, h⟩)
    · obtain ⟨t, rfl⟩ := half_circle p hp
      rw [hr] at h
      simp only [sub_zero, div_one, Prod.mk.injEq] at h
      have h1 : (6 / 5 : ℝ) = (1 + d) * Real.cos t := by linarith [h.1]
      have h2 : (6 / 5 : ℝ) = (1 + d) * Real.sin t := by linarith [h.2]
      have hs := Real.sin_sq_add_cos_sq t
      have : (1 + d) ^ 2 = (6 / 5) ^ 2 + (6 / 5) ^ 2 := by
        conv_rhs => rw [show ((6 / 5 : ℝ)) ^ 2 + (6 / 5) ^ 2 = ((1 + d) * Real.cos t) ^ 2 + ((1 + d) * Real.sin t) ^ 2 by
          rw [← h1, ← h2]]
        linear_combination -(1 + d) ^ 2 * hs
      obtain ⟨g1, g2⟩ := abs_le.1 hd
      nlinarith
    · rw [hr] at h
      have h2 := congrArg Prod.snd h
      simp only [if_true] at h2
      norm_num at h2
      linarith
    · rw [hr] at h
      have h2 := congrArg Prod.snd h
      simp only [if_true] at h2
      norm_num at h2
      linarith
  · -- 0.7071 is between 0.7 and 1.7
    have hsq : Real.sqrt 2 * Real.sqrt 2 = 2 := Real.mul_self_sqrt (by norm_num)
    have hs0 := Real.sqrt_nonneg 2
    have l1 : 7 / 10 ≤ Real.sqrt 2 / 2 := by nlinarith
    have l2 : Real.sqrt 2 / 2 ≤ 1 := by nlinarith
    have hm := mem_half_circle (t := Real.pi / 4) (by linarith [Real.pi_pos]) (by linarith [Real.pi_pos])
    rw [Real.cos_pi_div_four, Real.sin_pi_div_four] at hm
    refine ⟨_, hm, (6 / 5 - Real.sqrt 2 / 2, 6 / 5 - Real.sqrt 2 / 2), ⟨?_, ?_⟩, by simp⟩ <;>
      exact abs_le.2 ⟨by linarith, by linarith⟩

end Verif.Cairo
