import Verif.Props.CairoArc

/-! # C36: the centres of exact arcs -/

namespace Verif.Geom
open Verif.Gerber Verif.Cairo

/-- Twice the signed area of the triangle of the centre and the ends of an arc. -/
def cross (s e c : Pt) : ℚ := (s.1 - c.1) * (e.2 - c.2) - (s.2 - c.2) * (e.1 - c.1)

/-- The scalar product of the directions from the centre to the ends. -/
def dot (s e c : Pt) : ℚ := (s.1 - c.1) * (e.1 - c.1) + (s.2 - c.2) * (e.2 - c.2)

/-- An arc given exactly: the offsets are those of the centre without their signs, and both ends have the same distance
from it. -/
def Exact (s e off c : Pt) : Prop :=
  |c.1 - s.1| = |off.1| ∧ |c.2 - s.2| = |off.2| ∧
    (e.1 - c.1) ^ 2 + (e.2 - c.2) ^ 2 = (s.1 - c.1) ^ 2 + (s.2 - c.2) ^ 2

theorem theta_polar (p : Pt) (c : Pt) : ((p.1 : ℝ) - c.1 = arcRadius (toR p) (toR c) * Real.cos (theta (toR p) (toR c))) ∧
    ((p.2 : ℝ) - c.2 = arcRadius (toR p) (toR c) * Real.sin (theta (toR p) (toR c))) := by
  have h := onCircle_theta (toR p) (toR c)
  have h1 := congrArg Prod.fst h
  have h2 := congrArg Prod.snd h
  simp only [onCircle, toR] at h1 h2
  constructor
  · simp only [toR]; linarith
  · simp only [toR]; linarith

theorem cross_sin (s e c : Pt) : ((cross s e c : ℚ) : ℝ) = arcRadius (toR s) (toR c) * arcRadius (toR e) (toR c) *
    Real.sin (theta (toR e) (toR c) - theta (toR s) (toR c)) := by
  obtain ⟨a1, a2⟩ := theta_polar s c
  obtain ⟨b1, b2⟩ := theta_polar e c
  simp only [cross]
  push_cast
  rw [a1, a2, b1, b2, Real.sin_sub]
  ring

theorem dot_cos (s e c : Pt) : ((dot s e c : ℚ) : ℝ) = arcRadius (toR s) (toR c) * arcRadius (toR e) (toR c) *
    Real.cos (theta (toR e) (toR c) - theta (toR s) (toR c)) := by
  obtain ⟨a1, a2⟩ := theta_polar s c
  obtain ⟨b1, b2⟩ := theta_polar e c
  simp only [dot]
  push_cast
  rw [a1, a2, b1, b2, Real.cos_sub]
  ring

/-- Differences of angles with positive sine and cosine that is not negative. -/
theorem first_quadrant {δ : ℝ} (h1 : -(2 * Real.pi) < δ) (h2 : δ < 2 * Real.pi) (hs : 0 < Real.sin δ)
    (hc : 0 ≤ Real.cos δ) : (0 < δ ∧ δ ≤ Real.pi / 2) ∨ δ ≤ -(3 * Real.pi / 2) := by
  have key : ∀ x : ℝ, 0 ≤ x → x < 2 * Real.pi → 0 < Real.sin x → 0 ≤ Real.cos x → 0 < x ∧ x ≤ Real.pi / 2 := by
    intro x x0 x1 xs xc
    have hp := Real.pi_pos
    have hlt : x < Real.pi := by
      by_contra hn
      have := Real.sin_nonneg_of_nonneg_of_le_pi (x := x - Real.pi) (by linarith) (by linarith)
      rw [Real.sin_sub_pi] at this
      linarith
    refine ⟨lt_of_le_of_ne x0 (by rintro rfl; simp at xs), ?_⟩
    by_contra hn
    have := Real.cos_neg_of_pi_div_two_lt_of_lt (x := x) (by linarith) (by linarith)
    linarith
  rcases le_or_gt 0 δ with h | h
  · exact .inl (key δ h h2 hs hc)
  · have := key (δ + 2 * Real.pi) (by linarith) (by linarith) (by rwa [Real.sin_add_two_pi])
      (by rwa [Real.cos_add_two_pi])
    exact .inr (by linarith)

theorem pmod_step {x : ℝ} (h0 : 0 ≤ x) (h1 : x < 2 * Real.pi) : pmod (x + 2 * Real.pi) (2 * Real.pi) = x := by
  have : ⌊(x + 2 * Real.pi) / (2 * Real.pi)⌋ = 1 := by
    rw [Int.floor_eq_iff]
    constructor
    · rw [le_div_iff₀ Real.two_pi_pos]; push_cast; linarith
    · rw [div_lt_iff₀ Real.two_pi_pos]; push_cast; linarith
  unfold pmod
  rw [this]
  push_cast
  ring

theorem pmod_same {x : ℝ} (h0 : 0 ≤ x) (h1 : x < 2 * Real.pi) : pmod x (2 * Real.pi) = x := by
  have : ⌊x / (2 * Real.pi)⌋ = 0 := by
    rw [Int.floor_eq_iff]
    constructor
    · rw [le_div_iff₀ Real.two_pi_pos]; push_cast; linarith
    · rw [div_lt_iff₀ Real.two_pi_pos]; push_cast; linarith
  unfold pmod
  rw [this]
  push_cast
  ring

/-- The radii of arcs are positive if their ends are in different directions. -/
theorem radii_pos {s e c : Pt} (h : cross s e c ≠ 0) :
    0 < arcRadius (toR s) (toR c) * arcRadius (toR e) (toR c) := by
  have hn : ((cross s e c : ℚ) : ℝ) ≠ 0 := by exact_mod_cast h
  rw [cross_sin] at hn
  refine lt_of_le_of_ne (mul_nonneg (Real.sqrt_nonneg _) (Real.sqrt_nonneg _)) fun h0 => hn ?_
  rw [← h0, zero_mul]

/-- Clockwise arcs of at most 90 degrees are accepted. -/
theorem valid_clockwise {s e c : Pt} (hx : cross s e c < 0) (hd : 0 ≤ dot s e c) : ValidSweep "clockwise" s e c := by
  have hr := radii_pos hx.ne
  have hs : 0 < Real.sin (theta (toR s) (toR c) - theta (toR e) (toR c)) := by
    have : ((cross s e c : ℚ) : ℝ) < 0 := by exact_mod_cast hx
    rw [cross_sin] at this
    have := (pos_iff_neg_of_mul_neg this).mp hr
    rw [← neg_sub, Real.sin_neg]
    linarith
  have hc : 0 ≤ Real.cos (theta (toR s) (toR c) - theta (toR e) (toR c)) := by
    have : (0 : ℝ) ≤ ((dot s e c : ℚ) : ℝ) := by exact_mod_cast hd
    rw [dot_cos] at this
    rw [← neg_sub, Real.cos_neg]
    exact nonneg_of_mul_nonneg_right this hr
  obtain ⟨a1, a2⟩ := theta_range (toR s) (toR c)
  obtain ⟨b1, b2⟩ := theta_range (toR e) (toR c)
  have hp := Real.pi_pos
  unfold ValidSweep sweepAngle
  simp only [show ("clockwise" = "counterclockwise") = False by simp, if_false]
  rw [abs_of_nonneg (by linarith)]
  refine ⟨pmod_nonneg Real.two_pi_pos, ?_⟩
  rcases first_quadrant (by linarith) (by linarith) hs hc with ⟨h1, h2⟩ | h
  · rw [show theta (toR s) (toR c) + 2 * Real.pi - theta (toR e) (toR c) =
      theta (toR s) (toR c) - theta (toR e) (toR c) + 2 * Real.pi by ring, pmod_step (by linarith) (by linarith)]
    norm_num
    linarith
  · rw [pmod_same (by linarith) (by linarith)]
    norm_num
    linarith

/-- Arcs accepted as clockwise go clockwise. -/
theorem clockwise_of_valid {s e c : Pt} (h : ValidSweep "clockwise" s e c) : cross s e c ≤ 0 := by
  by_contra hn
  push Not at hn
  have hr := radii_pos hn.ne'
  have hs : 0 < Real.sin (theta (toR e) (toR c) - theta (toR s) (toR c)) := by
    have : (0 : ℝ) < ((cross s e c : ℚ) : ℝ) := by exact_mod_cast hn
    rw [cross_sin] at this
    exact pos_of_mul_pos_right this hr.le
  obtain ⟨a1, a2⟩ := theta_range (toR s) (toR c)
  obtain ⟨b1, b2⟩ := theta_range (toR e) (toR c)
  have hp := Real.pi_gt_three
  obtain ⟨-, h⟩ := h
  unfold sweepAngle at h
  simp only [show ("clockwise" = "counterclockwise") = False by simp, if_false] at h
  rw [abs_of_nonneg (by linarith)] at h
  norm_num at h
  generalize theta (toR s) (toR c) = α at *
  generalize theta (toR e) (toR c) = β at *
  have hneg : Real.sin (α - β) < 0 := by rw [← neg_sub, Real.sin_neg]; linarith
  rcases le_or_gt β α with hle | hlt
  · rw [show α + 2 * Real.pi - β = α - β + 2 * Real.pi by ring, pmod_step (by linarith) (by linarith)] at h
    linarith [Real.sin_nonneg_of_nonneg_of_le_pi (x := α - β) (by linarith) (by linarith)]
  · rw [pmod_same (by linarith) (by linarith)] at h
    have := Real.sin_nonneg_of_nonneg_of_le_pi (x := α + 2 * Real.pi - β) (by linarith) (by linarith)
    rw [show α + 2 * Real.pi - β = α - β + 2 * Real.pi by ring, Real.sin_add_two_pi] at this
    linarith

/-- Counterclockwise arcs within a quadrant are accepted unless they end in the direction of the x axis. -/
theorem valid_counterclockwise {s e c : Pt} (hx : 0 < cross s e c) (h1 : 0 ≤ (s.1 - c.1) * (e.1 - c.1))
    (h2 : 0 ≤ (s.2 - c.2) * (e.2 - c.2)) (he : ¬ (e.2 = c.2 ∧ c.1 < e.1)) :
    ValidSweep "counterclockwise" s e c := by
  have hr := radii_pos hx.ne'
  have hs : 0 < Real.sin (theta (toR e) (toR c) - theta (toR s) (toR c)) := by
    have : (0 : ℝ) < ((cross s e c : ℚ) : ℝ) := by exact_mod_cast hx
    rw [cross_sin] at this
    exact pos_of_mul_pos_right this hr.le
  have hc : 0 ≤ Real.cos (theta (toR e) (toR c) - theta (toR s) (toR c)) := by
    have : (0 : ℝ) ≤ ((dot s e c : ℚ) : ℝ) := by exact_mod_cast add_nonneg h1 h2
    rw [dot_cos] at this
    exact nonneg_of_mul_nonneg_right this hr
  obtain ⟨a1, a2⟩ := theta_range (toR s) (toR c)
  obtain ⟨b1, b2⟩ := theta_range (toR e) (toR c)
  have hp := Real.pi_pos
  unfold ValidSweep sweepAngle
  simp only [if_true]
  refine ⟨abs_nonneg _, ?_⟩
  rcases first_quadrant (by linarith) (by linarith) hs hc with ⟨k1, k2⟩ | k
  · rw [abs_of_pos k1]
    norm_num
    linarith
  · exfalso
    have hra : 0 < arcRadius (toR s) (toR c) := lt_of_le_of_ne (Real.sqrt_nonneg _) fun h => by
      rw [← h, zero_mul] at hr; exact lt_irrefl _ hr
    have hrb : 0 < arcRadius (toR e) (toR c) := lt_of_le_of_ne (Real.sqrt_nonneg _) fun h => by
      rw [← h, mul_zero] at hr; exact lt_irrefl _ hr
    obtain ⟨p1, p2⟩ := theta_polar s c
    obtain ⟨q1, q2⟩ := theta_polar e c
    have hsin : Real.sin (theta (toR s) (toR c)) < 0 := by
      rw [← Real.sin_sub_two_pi]
      exact Real.sin_neg_of_neg_of_neg_pi_lt (by linarith) (by linarith)
    have hsin2 : 0 ≤ Real.sin (theta (toR e) (toR c)) := Real.sin_nonneg_of_nonneg_of_le_pi b1 (by linarith)
    have h2' : (0 : ℝ) ≤ ((s.2 : ℝ) - c.2) * ((e.2 : ℝ) - c.2) := by exact_mod_cast h2
    have hneg : ((s.2 : ℝ) - c.2) < 0 := by rw [p2]; exact mul_neg_of_pos_of_neg hra hsin
    have hpos : 0 ≤ ((e.2 : ℝ) - c.2) := by rw [q2]; exact mul_nonneg hrb.le hsin2
    have hz : ((e.2 : ℝ) - c.2) = 0 := by nlinarith
    have hz' : e.2 = c.2 := by exact_mod_cast (sub_eq_zero.mp hz)
    have hcos : 0 < Real.cos (theta (toR e) (toR c)) :=
      Real.cos_pos_of_mem_Ioo ⟨by linarith, by linarith⟩
    have : (0 : ℝ) < (e.1 : ℝ) - c.1 := by rw [q1]; exact mul_pos hrb hcos
    exact he ⟨hz', by exact_mod_cast (sub_pos.mp this)⟩

/-- The candidates seen from the centre. -/
theorem candidate_cases {s off c c' : Pt} (h1 : |c.1 - s.1| = |off.1|) (h2 : |c.2 - s.2| = |off.2|)
    (h1' : |c'.1 - s.1| = |off.1|) (h2' : |c'.2 - s.2| = |off.2|) :
    (c'.1 = c.1 ∨ c'.1 = 2 * s.1 - c.1) ∧ (c'.2 = c.2 ∨ c'.2 = 2 * s.2 - c.2) := by
  constructor
  · rcases abs_eq_abs.mp (h1'.trans h1.symm) with h | h
    · exact .inl (by linarith)
    · exact .inr (by linarith)
  · rcases abs_eq_abs.mp (h2'.trans h2.symm) with h | h
    · exact .inl (by linarith)
    · exact .inr (by linarith)

/-- If one candidate is accepted and exact, and no other is, it is found. -/
theorem found_exact {d : String} {s e off c : Pt} (h : Exact s e off c) (hv : ValidSweep d s e c)
    (hu : ∀ c', Exact s e off c' → ValidSweep d s e c' → c' = c) : findCenterSQ d s e off = some c := by
  obtain ⟨k1, k2, k3⟩ := h
  obtain ⟨h1, h2, h3⟩ := centerLoop_spec d s e (centerCandidates s off) none maxsize (by simp)
  have hc : c ∈ centerCandidates s off := (mem_candidates ..).2 ⟨k1, k2⟩
  have h0 : radiusError s e c = 0 := by
    unfold radiusError sqDistance
    rw [abs_eq_zero]
    linarith
  cases hf : findCenterSQ d s e off with
  | none =>
    have := (h3 hf).2 c hc hv
    rw [h0, maxsize] at this
    norm_num at this
  | some c' =>
    obtain ⟨m1, m2⟩ : c' ∈ centerCandidates s off ∧ ValidSweep d s e c' := by simpa using (h1 c' hf).1
    have m3 := (h2 c' hf).2.2 c hc hv
    rw [h0] at m3
    have m4 : radiusError s e c' = 0 := le_antisymm m3 (abs_nonneg _)
    unfold radiusError sqDistance at m4
    rw [abs_eq_zero] at m4
    obtain ⟨n1, n2⟩ := (mem_candidates ..).1 m1
    rw [hu c' ⟨n1, n2, by linarith⟩ m2]

theorem diag_eq {u1 u2 v1 v2 : ℚ} (h : v1 ^ 2 + v2 ^ 2 = u1 ^ 2 + u2 ^ 2) (hd : u1 * v1 + u2 * v2 = u1 ^ 2 + u2 ^ 2) :
    v1 = u1 ∧ v2 = u2 := by
  have : (v1 - u1) ^ 2 + (v2 - u2) ^ 2 = 0 := by linear_combination h - 2 * hd
  constructor <;> nlinarith [sq_nonneg (v1 - u1), sq_nonneg (v2 - u2)]

/-- Exact candidates: the centre, or one of the two points that are as far from the ends and lie beside the start or
the end; `diag` cannot happen. -/
theorem exact_cases {s e off c c' : Pt} (h : Exact s e off c) (h' : Exact s e off c') (hx : cross s e c ≠ 0) :
    c' = c ∨ (e.1 = s.1 ∧ e.2 - c.2 = -(s.2 - c.2) ∧ c' = (2 * s.1 - c.1, c.2)) ∨
      (e.2 = s.2 ∧ e.1 - c.1 = -(s.1 - c.1) ∧ c' = (c.1, 2 * s.2 - c.2)) := by
  obtain ⟨k1, k2, k3⟩ := h
  obtain ⟨n1, n2, n3⟩ := h'
  obtain ⟨sx, sy⟩ := s
  obtain ⟨ex, ey⟩ := e
  obtain ⟨cx, cy⟩ := c
  obtain ⟨c1, c2⟩ := c'
  simp only [cross] at *
  obtain ⟨hc1, hc2⟩ := candidate_cases (s := (sx, sy)) (c := (cx, cy)) (c' := (c1, c2)) k1 k2 n1 n2
  simp only at hc1 hc2
  rcases hc1 with rfl | rfl <;> rcases hc2 with rfl | rfl
  · exact .inl rfl
  · have hz : (sy - cy) * (ey - sy) = 0 := by linear_combination (k3 - n3) / 4
    rcases mul_eq_zero.mp hz with hz | hz
    · left
      ext
      · rfl
      · simp only; linarith
    · have he : ey = sy := by linarith
      subst he
      have : (ex - c1 - (sx - c1)) * (ex - c1 + (sx - c1)) = 0 := by linear_combination k3
      rcases mul_eq_zero.mp this with h | h
      · exact absurd (by rw [show ex = sx by linarith]; ring) hx
      · exact .inr (.inr ⟨rfl, by linarith, rfl⟩)
  · have hz : (sx - cx) * (ex - sx) = 0 := by linear_combination (k3 - n3) / 4
    rcases mul_eq_zero.mp hz with hz | hz
    · left
      ext
      · simp only; linarith
      · rfl
    · have he : ex = sx := by linarith
      subst he
      have : (ey - c2 - (sy - c2)) * (ey - c2 + (sy - c2)) = 0 := by linear_combination k3
      rcases mul_eq_zero.mp this with h | h
      · exact absurd (by rw [show ey = sy by linarith]; ring) hx
      · exact .inr (.inl ⟨rfl, by linarith, rfl⟩)
  · obtain ⟨e1, e2⟩ := diag_eq (u1 := sx - cx) (u2 := sy - cy) (v1 := ex - cx) (v2 := ey - cy) k3
      (by linear_combination (k3 - n3) / 4)
    exact absurd (by rw [e1, e2]; ring) hx

/-- **C36**, clockwise arcs: the centre of every arc of at most 90 degrees given exactly is found. -/
theorem C36_clockwise_exact {s e off c : Pt} (h : Exact s e off c) (hx : cross s e c < 0) (hd : 0 ≤ dot s e c) :
    findCenterSQ "clockwise" s e off = some c := by
  refine found_exact h (valid_clockwise hx hd) fun c' h' hv => ?_
  have hc := clockwise_of_valid hv
  rcases exact_cases h h' hx.ne with rfl | ⟨h1, h2, rfl⟩ | ⟨h1, h2, rfl⟩
  · rfl
  · exfalso
    simp only [cross] at hx hc
    rw [h1, h2] at hx hc
    nlinarith
  · exfalso
    simp only [cross] at hx hc
    rw [h1, h2] at hx hc
    nlinarith

/-- From the end of the y axis to the end of the x axis, and across the x axis. -/
example : findCenterSQ "clockwise" (0, 1) (1, 0) (0, 1) = some (0, 0) ∧
    findCenterSQ "clockwise" (4, 3) (4, -3) (4, 3) = some (0, 0) :=
  ⟨C36_clockwise_exact (by norm_num [Exact]) (by norm_num [cross]) (by norm_num [dot]),
   C36_clockwise_exact (by norm_num [Exact]) (by norm_num [cross]) (by norm_num [dot])⟩

/-- **C36**, counterclockwise arcs: the centre of every arc within a quadrant given exactly is found unless the arc ends
in the direction of the positive x axis.  Missing: those (`C36_quarter_violated`), and arcs crossing an axis
(`C36_ccw_violated`). -/
theorem C36_counterclockwise_partial {s e off c : Pt} (h : Exact s e off c) (hx : 0 < cross s e c)
    (h1 : 0 ≤ (s.1 - c.1) * (e.1 - c.1)) (h2 : 0 ≤ (s.2 - c.2) * (e.2 - c.2)) (he : ¬ (e.2 = c.2 ∧ c.1 < e.1)) :
    findCenterSQ "counterclockwise" s e off = some c := by
  refine found_exact h (valid_counterclockwise hx h1 h2 he) fun c' h' _ => ?_
  rcases exact_cases h h' hx.ne' with rfl | ⟨k1, k2, rfl⟩ | ⟨k1, k2, rfl⟩
  · rfl
  · exfalso
    rw [k2] at h2
    have : s.2 - c.2 = 0 := by nlinarith
    simp only [cross] at hx
    rw [k2, this] at hx
    simp at hx
  · exfalso
    rw [k2] at h1
    have : s.1 - c.1 = 0 := by nlinarith
    simp only [cross] at hx
    rw [k2, this] at hx
    simp at hx

/-- From the end of the x axis to the end of the y axis. -/
example : findCenterSQ "counterclockwise" (1, 0) (0, 1) (1, 0) = some (0, 0) :=
  C36_counterclockwise_partial (by norm_num [Exact]) (by norm_num [cross]) (by norm_num) (by norm_num) (by norm_num)

/-- The counterclockwise quarter from the lower end of the y axis to the end of the x axis around the origin, the lower
right corner of a rounded rectangle: a centre with different distances from the ends is taken. -/
theorem C36_quarter_violated :
    Admissible "counterclockwise" (0, -1) (1, 0) (0, 1) (0, 0) ∧ mismatch (0, -1) (1, 0) (0, 0) = 0 ∧
      findCenterSQ "counterclockwise" (0, -1) (1, 0) (0, 1) = some (0, -2) ∧ mismatch (0, -1) (1, 0) (0, -2) = 4 := by
  have hp := Real.pi_pos
  have h3 := Real.pi_gt_three
  have t1 : theta (toR (0, -1)) (toR (0, 0)) = 3 * Real.pi / 2 := by
    have e : atan2 ((toR (0, -1)).2 - (toR (0, 0)).2) ((toR (0, -1)).1 - (toR (0, 0)).1) = -(Real.pi / 2) := by
      rw [← atan2_polar (r := 1) (t := -(Real.pi / 2)) one_pos ⟨by linarith, by linarith⟩]
      norm_num [toR]
    rw [theta, e, pmod_of_lt Real.two_pi_pos ⟨by linarith, by linarith⟩]
    ring
  have t2 : theta (toR (1, 0)) (toR (0, 0)) = 0 := by
    have e : atan2 ((toR (1, 0)).2 - (toR (0, 0)).2) ((toR (1, 0)).1 - (toR (0, 0)).1) = 0 := by
      rw [← atan2_polar (r := 1) (t := 0) one_pos ⟨by linarith, by linarith⟩]
      norm_num [toR]
    rw [theta, e, pmod_of_small Real.two_pi_pos ⟨by linarith, by linarith⟩]
    ring
  have hinv : ¬ ValidSweep "counterclockwise" (0, -1) (1, 0) (0, 0) := by
    rintro ⟨-, h⟩
    simp only [sweepAngle, if_true, t1, t2] at h
    rw [abs_of_nonpos (by linarith)] at h
    norm_num at h
    linarith
  have hval : ValidSweep "counterclockwise" (0, -1) (1, 0) (0, -2) := by
    have hx : cross (0, -1) (1, 0) (0, -2) < 0 := by norm_num [cross]
    have hd : 0 ≤ dot (0, -1) (1, 0) (0, -2) := by norm_num [dot]
    have hr := radii_pos hx.ne
    have hs : 0 < Real.sin (theta (toR (0, -1)) (toR (0, -2)) - theta (toR (1, 0)) (toR (0, -2))) := by
      have : ((cross (0, -1) (1, 0) (0, -2) : ℚ) : ℝ) < 0 := by exact_mod_cast hx
      rw [cross_sin] at this
      have := (pos_iff_neg_of_mul_neg this).mp hr
      rw [← neg_sub, Real.sin_neg]
      linarith
    have hc : 0 ≤ Real.cos (theta (toR (0, -1)) (toR (0, -2)) - theta (toR (1, 0)) (toR (0, -2))) := by
      have : (0 : ℝ) ≤ ((dot (0, -1) (1, 0) (0, -2) : ℚ) : ℝ) := by exact_mod_cast hd
      rw [dot_cos] at this
      rw [← neg_sub, Real.cos_neg]
      exact nonneg_of_mul_nonneg_right this hr
    have e1 : theta (toR (0, -1)) (toR (0, -2)) = Real.pi / 2 := by
      have e : atan2 ((toR (0, -1)).2 - (toR (0, -2)).2) ((toR (0, -1)).1 - (toR (0, -2)).1) = Real.pi / 2 := by
        rw [← atan2_polar (r := 1) (t := Real.pi / 2) one_pos ⟨by linarith, by linarith⟩]
        norm_num [toR]
      rw [theta, e, pmod_of_small Real.two_pi_pos ⟨by linarith, by linarith⟩]
      ring
    obtain ⟨b1, b2⟩ := theta_range (toR (1, 0)) (toR (0, -2))
    rcases first_quadrant (by linarith) (by linarith) hs hc with ⟨k1, k2⟩ | k
    · unfold ValidSweep sweepAngle
      simp only [if_true]
      refine ⟨abs_nonneg _, ?_⟩
      rw [abs_of_nonpos (by linarith)]
      norm_num
      linarith
    · rw [e1] at k
      linarith
  refine ⟨⟨by norm_num, Real.pi / 2, by linarith, by norm_num, 1, one_pos, ?_⟩, by norm_num [mismatch], ?_,
    by norm_num [mismatch]⟩
  · simp only [if_true]
    rw [Complex.ofReal_div, Complex.ofReal_ofNat, Complex.exp_pi_div_two_mul_I]
    apply Complex.ext <;> simp [vec, toR]
  · have hcand : centerCandidates (0, -1) (0, 1) = [(0, 0), (0, -2), (0, 0), (0, -2)] := by
      norm_num [centerCandidates]
    have he : radiusError (0, -1) (1, 0) (0, -2) = 4 := by norm_num [radiusError, sqDistance]
    rw [findCenterSQ, hcand, centerLoop, if_neg (fun h => hinv h.2), centerLoop,
      if_pos ⟨by rw [he]; norm_num [maxsize], hval⟩, he, centerLoop, if_neg (fun h => hinv h.2), centerLoop,
      if_neg (fun h => by rw [he] at h; exact lt_irrefl _ h.1), centerLoop]

end Verif.Geom
