import Verif.Model.Angle
import Mathlib.Analysis.Real.Pi.Bounds

/-! # Rotation, sweep angles and arc centres (C34, C35, C36) -/

namespace Verif.Geom
open Verif.Gerber Complex

/-! ## C34 -/

/-- Distance in the plane. -/
noncomputable def dist2 (p q : RPt) : ℝ := Real.sqrt ((p.1 - q.1) ^ 2 + (p.2 - q.2) ^ 2)

/-- Rotation preserves distances. -/
theorem C34_isometry (p q c : RPt) (a : ℝ) :
    dist2 (rotatePoint p a c) (rotatePoint q a c) = dist2 p q := by
  unfold dist2 rotatePoint
  congr 1
  have h := Real.sin_sq_add_cos_sq (radians a)
  simp only
  linear_combination ((p.1 - q.1) ^ 2 + (p.2 - q.2) ^ 2) * h

/-- Rotation keeps the orientation: the signed area of two vectors from the centre stays. -/
theorem C34_orientation (p q c : RPt) (a : ℝ) :
    let p' := rotatePoint p a c
    let q' := rotatePoint q a c
    (p'.1 - c.1) * (q'.2 - c.2) - (p'.2 - c.2) * (q'.1 - c.1) =
      (p.1 - c.1) * (q.2 - c.2) - (p.2 - c.2) * (q.1 - c.1) := by
  unfold rotatePoint
  have h := Real.sin_sq_add_cos_sq (radians a)
  simp only
  linear_combination ((p.1 - c.1) * (q.2 - c.2) - (p.2 - c.2) * (q.1 - c.1)) * h

/-- The centre is fixed. -/
theorem C34_fixes_center (c : RPt) (a : ℝ) : rotatePoint c a c = c := by
  simp [rotatePoint]

/-- Rotations about the same centre add up. -/
theorem C34_compose (p c : RPt) (a b : ℝ) :
    rotatePoint (rotatePoint p a c) b c = rotatePoint p (a + b) c := by
  have h : radians (a + b) = radians b + radians a := by unfold radians; ring
  unfold rotatePoint
  simp only [h, Real.cos_add, Real.sin_add]
  ext <;> simp only <;> ring

/-- Rotating back undoes a rotation, and a full turn does nothing. -/
theorem C34_inverse (p c : RPt) (a : ℝ) :
    rotatePoint (rotatePoint p a c) (-a) c = p ∧ rotatePoint p 360 c = p := by
  constructor
  · rw [C34_compose]
    simp [rotatePoint, radians]
  · have : radians 360 = 2 * Real.pi := by unfold radians; ring
    simp [rotatePoint, this]

/-- The angle is in degrees, counterclockwise: a quarter turn takes the x axis to the y axis. -/
theorem C34_quarter (r : ℝ) : rotatePoint (r, 0) 90 (0, 0) = (0, r) := by
  have : radians 90 = Real.pi / 2 := by unfold radians; ring
  simp [rotatePoint, this]

/-! ## C35 -/

/-- The vector from the centre to a point, as a complex number. -/
def vec (p c : RPt) : ℂ := ⟨p.1 - c.1, p.2 - c.2⟩

/-- Travelling the angle `t` in the given direction around `c` leads from the ray through `s` to the
ray through `e`. -/
def Travels (direction : String) (t : ℝ) (s e c : RPt) : Prop :=
  ∃ r : ℝ, 0 < r ∧ vec e c =
    r * (vec s c * exp ((if direction = "counterclockwise" then t else -t) * I))

theorem pmod_nonneg {a b : ℝ} (hb : 0 < b) : 0 ≤ pmod a b := by
  unfold pmod
  have := Int.floor_le (a / b)
  rw [le_div_iff₀ hb] at this
  linarith

theorem pmod_lt {a b : ℝ} (hb : 0 < b) : pmod a b < b := by
  unfold pmod
  have := Int.lt_floor_add_one (a / b)
  rw [div_lt_iff₀ hb] at this
  linarith

theorem exp_pmod (a : ℝ) : exp ((pmod a (2 * Real.pi) : ℝ) * I) = exp (a * I) := by
  unfold pmod
  push_cast
  rw [show ((a : ℂ) - 2 * Real.pi * ⌊a / (2 * Real.pi)⌋) * I =
    a * I - ⌊a / (2 * Real.pi)⌋ * (2 * Real.pi * I) by ring]
  exact exp_periodic.sub_int_mul_eq _

theorem exp_neg_pmod (a : ℝ) :
    exp ((-(pmod a (2 * Real.pi)) : ℝ) * I) = exp (-a * I) := by
  rw [ofReal_neg, neg_mul, exp_neg, exp_pmod, neg_mul, exp_neg]

theorem theta_range (p c : RPt) : 0 ≤ theta p c ∧ theta p c < 2 * Real.pi :=
  ⟨pmod_nonneg Real.two_pi_pos, pmod_lt Real.two_pi_pos⟩

theorem vec_eq (p c : RPt) : vec p c = ‖vec p c‖ * exp ((theta p c : ℝ) * I) := by
  unfold theta atan2
  rw [exp_pmod]
  push_cast
  rw [add_mul, exp_add, exp_two_pi_mul_I, mul_one]
  exact (norm_mul_exp_arg_mul_I (vec p c)).symm

/-- The sweep angle is always in the range from 0 to a full turn. -/
theorem C35_range (d : String) (s e c : RPt) :
    0 ≤ sweepAngle d s e c ∧ sweepAngle d s e c < 2 * Real.pi := by
  have h1 := theta_range s c
  have h2 := theta_range e c
  unfold sweepAngle
  simp only
  split
  · refine ⟨abs_nonneg _, abs_lt.2 ⟨by linarith, by linarith⟩⟩
  · exact ⟨pmod_nonneg Real.two_pi_pos, pmod_lt Real.two_pi_pos⟩

theorem travels_of_exp {d : String} {t : ℝ} {s e c : RPt} (hs : s ≠ c) (he : e ≠ c)
    (h : exp ((theta e c : ℝ) * I) = exp ((theta s c : ℝ) * I) *
      exp ((if d = "counterclockwise" then t else -t) * I)) : Travels d t s e c := by
  have hv : ∀ p : RPt, p ≠ c → 0 < ‖vec p c‖ := by
    intro p hp
    rw [norm_pos_iff]
    intro h0
    apply hp
    have h1 := congrArg Complex.re h0
    have h2 := congrArg Complex.im h0
    simp only [vec, zero_re, zero_im] at h1 h2
    ext <;> linarith
  refine ⟨‖vec e c‖ / ‖vec s c‖, div_pos (hv e he) (hv s hs), ?_⟩
  have hne : (‖vec s c‖ : ℂ) ≠ 0 := by exact_mod_cast (hv s hs).ne'
  have h1 := vec_eq e c
  have h2 := vec_eq s c
  rw [h] at h1
  generalize (‖vec e c‖ : ℝ) = x at *
  generalize (‖vec s c‖ : ℝ) = y at *
  rw [h1, h2]
  push_cast
  field_simp

/-- For clockwise arcs the sweep angle is the angle travelled; also for counterclockwise arcs that do
not pass the direction of the positive x axis.  Missing: counterclockwise arcs that do
(`C35_ccw_violated`). -/
theorem C35_sweep_partial {d : String} {s e c : RPt} (hs : s ≠ c) (he : e ≠ c)
    (h : d = "counterclockwise" → theta s c ≤ theta e c) :
    Travels d (sweepAngle d s e c) s e c := by
  apply travels_of_exp hs he
  unfold sweepAngle
  simp only
  by_cases hd : d = "counterclockwise"
  · rw [if_pos hd, if_pos hd, abs_of_nonneg (by linarith [h hd]), ← exp_add]
    congr 1
    push_cast
    ring
  · rw [if_neg hd, if_neg hd, exp_neg_pmod, ← exp_add]
    have h1 := theta_range s c
    have h2 := theta_range e c
    rw [abs_of_nonneg (by linarith)]
    push_cast
    rw [show (theta s c : ℂ) * I + -(theta s c + 2 * Real.pi - theta e c) * I =
      theta e c * I - 2 * Real.pi * I by ring]
    exact (exp_periodic.sub_eq _).symm

theorem vec_ne {p c : RPt} (h : p ≠ c) : vec p c ≠ 0 := by
  intro h0
  apply h
  have h1 := congrArg Complex.re h0
  have h2 := congrArg Complex.im h0
  simp only [vec, zero_re, zero_im] at h1 h2
  ext <;> linarith

theorem exp_inj {a b : ℝ} (h : |a - b| < 2 * Real.pi) (he : exp (a * I) = exp (b * I)) :
    a = b := by
  obtain ⟨n, hn⟩ := exp_eq_exp_iff_exists_int.1 he
  have h1 : a = b + n * (2 * Real.pi) := by
    have := congrArg Complex.im hn
    simpa using this
  have h3 : a - b = n * (2 * Real.pi) := by linarith
  rw [h3, abs_mul, abs_of_pos Real.two_pi_pos] at h
  have h4 : |(n : ℝ)| < 1 := by
    by_contra hc
    have := mul_le_mul_of_nonneg_right (not_lt.1 hc) Real.two_pi_pos.le
    linarith
  have h5 : n = 0 := by
    have : |n| < 1 := by exact_mod_cast h4
    exact Int.abs_lt_one_iff.1 this
  rw [h1, h5]
  simp

/-- The angle travelled is unique in that range, so the theorem above determines the sweep. -/
theorem travels_unique {d : String} {t t' : ℝ} {s e c : RPt} (hs : s ≠ c)
    (ht : 0 ≤ t ∧ t < 2 * Real.pi) (ht' : 0 ≤ t' ∧ t' < 2 * Real.pi) (h : Travels d t s e c)
    (h' : Travels d t' s e c) : t = t' := by
  obtain ⟨r, hr, h⟩ := h
  obtain ⟨r', hr', h'⟩ := h'
  rw [h] at h'
  have hn := congrArg norm h'
  simp only [norm_mul, norm_exp_ofReal_mul_I, norm_real, Real.norm_eq_abs, abs_of_pos hr,
    abs_of_pos hr', mul_one] at hn
  have hv := norm_pos_iff.2 (vec_ne hs)
  have hrr : r = r' := mul_right_cancel₀ hv.ne' hn
  subst hrr
  have h1 := mul_left_cancel₀ (by exact_mod_cast hr.ne') h'
  have h2 := mul_left_cancel₀ (vec_ne hs) h1
  split at h2
  · exact exp_inj (abs_lt.2 ⟨by linarith, by linarith⟩) h2
  · have := exp_inj (abs_lt.2 ⟨by linarith, by linarith⟩) h2
    linarith

theorem atan2_polar {r t : ℝ} (hr : 0 < r) (ht : -Real.pi < t ∧ t ≤ Real.pi) :
    atan2 (r * Real.sin t) (r * Real.cos t) = t := by
  have h : (⟨r * Real.cos t, r * Real.sin t⟩ : ℂ) = r * (Complex.cos t + Complex.sin t * I) := by
    apply Complex.ext <;> simp [← ofReal_cos, ← ofReal_sin]
  rw [atan2, h]
  exact arg_mul_cos_add_sin_mul_I hr ⟨ht.1, ht.2⟩

theorem pmod_of_small {a b : ℝ} (hb : 0 < b) (h : b ≤ a ∧ a < 2 * b) : pmod a b = a - b := by
  unfold pmod
  have : ⌊a / b⌋ = 1 := by
    rw [Int.floor_eq_iff, le_div_iff₀ hb, div_lt_iff₀ hb]
    push_cast
    constructor <;> linarith
  rw [this]
  simp

theorem pmod_of_lt {a b : ℝ} (hb : 0 < b) (h : 0 ≤ a ∧ a < b) : pmod a b = a := by
  unfold pmod
  have : ⌊a / b⌋ = 0 := by
    rw [Int.floor_eq_iff, le_div_iff₀ hb, div_lt_iff₀ hb]
    push_cast
    constructor <;> linarith
  rw [this]
  simp

/-- A counterclockwise arc from the direction of the negative y axis to that of the positive x axis
is a quarter turn; the code computes three quarters. -/
theorem C35_ccw_violated :
    sweepAngle "counterclockwise" (0, -1) (1, 0) (0, 0) = 3 * Real.pi / 2 ∧
      Travels "counterclockwise" (Real.pi / 2) (0, -1) (1, 0) (0, 0) ∧
      ¬ Travels "counterclockwise" (3 * Real.pi / 2) (0, -1) (1, 0) (0, 0) := by
  have hp := Real.pi_pos
  have hT : Travels "counterclockwise" (Real.pi / 2) (0, -1) (1, 0) (0, 0) := by
    refine ⟨1, one_pos, ?_⟩
    simp only [if_true]
    push_cast
    rw [exp_pi_div_two_mul_I]
    apply Complex.ext <;> simp [vec]
  refine ⟨?_, hT, fun h => ?_⟩
  · have h0 : theta (0, -1) (0, 0) = 3 * Real.pi / 2 := by
      have := atan2_polar (r := 1) (t := -(Real.pi / 2)) one_pos ⟨by linarith, by linarith⟩
      simp only [Real.sin_neg, Real.sin_pi_div_two, Real.cos_neg, Real.cos_pi_div_two, one_mul]
        at this
      simp only [theta, sub_zero, this]
      rw [pmod_of_lt Real.two_pi_pos ⟨by linarith, by linarith⟩]
      ring
    have h1 : theta (1, 0) (0, 0) = 0 := by
      have := atan2_polar (r := 1) (t := 0) one_pos ⟨by linarith, by linarith⟩
      simp only [Real.sin_zero, Real.cos_zero, one_mul] at this
      simp only [theta, sub_zero, this]
      rw [pmod_of_small Real.two_pi_pos ⟨by linarith, by linarith⟩]
      ring
    simp only [sweepAngle, if_true, h0, h1, zero_sub, abs_neg]
    exact abs_of_pos (by linarith)
  · have := travels_unique (by simp) ⟨by linarith, by linarith⟩ ⟨by linarith, by linarith⟩ hT h
    linarith

/-- A clockwise arc across the positive x axis. -/
example : Travels "clockwise" (sweepAngle "clockwise" (1, 1) (1, -1) (0, 0)) (1, 1) (1, -1) (0, 0) :=
  C35_sweep_partial (by simp) (by simp) (by simp)

/-! ## C36 -/

/-- A centre is admissible for an arc with the given offsets: one of the four sign combinations, and
the arc from `s` to `e` around it travels at most a quarter turn (with the tolerance of the code). -/
def Admissible (d : String) (s e offsets c : Pt) : Prop :=
  (|c.1 - s.1| = |offsets.1| ∧ |c.2 - s.2| = |offsets.2|) ∧
    ∃ t, 0 ≤ t ∧ t ≤ Real.pi / 2 + 1 / 10 ^ 6 ∧ Travels d t (toR s) (toR e) (toR c)

/-- The difference of the squared radii. -/
def mismatch (s e c : Pt) : ℚ :=
  |((s.1 - c.1) ^ 2 + (s.2 - c.2) ^ 2) - ((e.1 - c.1) ^ 2 + (e.2 - c.2) ^ 2)|

theorem radiusError_eq (s e c : Pt) : radiusError s e c = mismatch s e c := by
  unfold radiusError mismatch sqDistance
  congr 1
  ring

theorem mem_candidates {s off c : Pt} :
    c ∈ centerCandidates s off ↔ |c.1 - s.1| = |off.1| ∧ |c.2 - s.2| = |off.2| := by
  obtain ⟨cx, cy⟩ := c
  obtain ⟨sx, sy⟩ := s
  obtain ⟨ox, oy⟩ := off
  simp only [centerCandidates, List.map_cons, List.map_nil, List.mem_cons, List.not_mem_nil,
    or_false, Prod.mk.injEq, abs_eq_abs, mul_one, mul_neg]
  constructor
  · rintro (⟨h1, h2⟩ | ⟨h1, h2⟩ | ⟨h1, h2⟩ | ⟨h1, h2⟩) <;> subst h1 <;> subst h2 <;> simp
  · rintro ⟨h1 | h1, h2 | h2⟩
    · exact .inl ⟨by linarith, by linarith⟩
    · exact .inr (.inl ⟨by linarith, by linarith⟩)
    · exact .inr (.inr (.inl ⟨by linarith, by linarith⟩))
    · exact .inr (.inr (.inr ⟨by linarith, by linarith⟩))

/-- What the loop returns. -/
theorem centerLoop_spec (d : String) (s e : Pt) :
    ∀ (l : List Pt) (best : Option Pt) (err : ℚ),
      (∀ b, best = some b → radiusError s e b = err) →
      (∀ c, centerLoop d s e l best err = some c →
        (best = some c ∨ c ∈ l ∧ ValidSweep d s e c) ∧
          (best ≠ none ∨ c ∈ l ∧ radiusError s e c < err)) ∧
      (∀ c, centerLoop d s e l best err = some c → (best = none → radiusError s e c < err) ∧
        radiusError s e c ≤ err ∧
        ∀ c' ∈ l, ValidSweep d s e c' → radiusError s e c ≤ radiusError s e c') ∧
      (centerLoop d s e l best err = none →
        best = none ∧ ∀ c' ∈ l, ValidSweep d s e c' → err ≤ radiusError s e c') := by
  intro l
  induction l with
  | nil =>
    intro best err hb
    refine ⟨fun c hc => ?_, fun c hc => ?_, fun h => ⟨h, by simp⟩⟩
    · simp only [centerLoop] at hc
      exact ⟨.inl hc, .inl (by simp [hc])⟩
    · simp only [centerLoop] at hc
      exact ⟨by simp [hc], (hb c hc).le, by simp⟩
  | cons x l ih =>
    intro best err hb
    simp only [centerLoop]
    split
    next hx =>
      obtain ⟨h1, h2, h3⟩ := ih (some x) (radiusError s e x) (by simp)
      refine ⟨fun c hc => ?_, fun c hc => ?_, fun hn => by simpa using (h3 hn).1⟩
      · obtain ⟨-, hle, -⟩ := h2 c hc
        rcases (h1 c hc).1 with h | h
        · simp only [Option.some.injEq] at h
          subst h
          exact ⟨.inr ⟨by simp, hx.2⟩, .inr ⟨by simp, hx.1⟩⟩
        · exact ⟨.inr ⟨by simp [h.1], h.2⟩, .inr ⟨by simp [h.1], lt_of_le_of_lt hle hx.1⟩⟩
      · obtain ⟨-, hle, hmin⟩ := h2 c hc
        refine ⟨fun _ => lt_of_le_of_lt hle hx.1, (lt_of_le_of_lt hle hx.1).le, fun c' hc' hv => ?_⟩
        rcases List.mem_cons.1 hc' with rfl | hc'
        · exact hle
        · exact hmin c' hc' hv
    next hx =>
      obtain ⟨h1, h2, h3⟩ := ih best err hb
      refine ⟨fun c hc => ?_, fun c hc => ?_, fun hn => ?_⟩
      · obtain ⟨ha, hb'⟩ := h1 c hc
        exact ⟨ha.imp_right fun h => ⟨by simp [h.1], h.2⟩,
          hb'.imp_right fun h => ⟨by simp [h.1], h.2⟩⟩
      · obtain ⟨ha, hle, hmin⟩ := h2 c hc
        refine ⟨ha, hle, fun c' hc' hv => ?_⟩
        rcases List.mem_cons.1 hc' with rfl | hc'
        · have : ¬ radiusError s e c' < err := fun h => hx ⟨h, hv⟩
          exact le_trans hle (not_lt.1 this)
        · exact hmin c' hc' hv
      · obtain ⟨ha, hmin⟩ := h3 hn
        refine ⟨ha, fun c' hc' hv => ?_⟩
        rcases List.mem_cons.1 hc' with rfl | hc'
        · exact not_lt.1 fun h => hx ⟨h, hv⟩
        · exact hmin c' hc' hv

/-- No candidate centre coincides with an end of the arc, and for counterclockwise arcs no candidate
arc passes the direction of the positive x axis. -/
def Regular (d : String) (s e off : Pt) : Prop :=
  ∀ c : Pt, |c.1 - s.1| = |off.1| ∧ |c.2 - s.2| = |off.2| →
    s ≠ c ∧ e ≠ c ∧ (d = "counterclockwise" → theta (toR s) (toR c) ≤ theta (toR e) (toR c))

theorem toR_ne {p q : Pt} (h : p ≠ q) : toR p ≠ toR q := by
  intro h'
  apply h
  simp only [toR, Prod.mk.injEq, Rat.cast_inj] at h'
  exact Prod.ext h'.1 h'.2

theorem admissible_iff {d : String} {s e off : Pt} (hr : Regular d s e off) (c : Pt) :
    Admissible d s e off c ↔ c ∈ centerCandidates s off ∧ ValidSweep d s e c := by
  rw [mem_candidates]
  unfold Admissible
  refine and_congr_right fun hc => ?_
  obtain ⟨h1, h2, h3⟩ := hr c hc
  have ht := C35_sweep_partial (toR_ne h1) (toR_ne h2) h3
  have hrange := C35_range d (toR s) (toR e) (toR c)
  constructor
  · rintro ⟨t, ht0, ht1, htr⟩
    have hp : t < 2 * Real.pi := by
      have := Real.pi_gt_three
      norm_num at ht1
      linarith
    have := travels_unique (toR_ne h1) ⟨ht0, hp⟩ hrange htr ht
    exact ⟨hrange.1, this ▸ ht1⟩
  · rintro ⟨ha, hb⟩
    exact ⟨_, ha, hb, ht⟩

/-- For regular arcs the centre found is admissible and has the least mismatch of the admissible
centres, and a centre is found if there is an admissible one with a mismatch below `sys.maxsize`,
in particular an exact one.  Missing: counterclockwise arcs for which the arc around some candidate
passes the direction of the positive x axis (`C36_ccw_violated`), and arcs with a candidate centre
at one of their ends. -/
theorem C36_center_partial {d : String} {s e off : Pt} (hr : Regular d s e off) :
    (∀ c, findCenterSQ d s e off = some c → Admissible d s e off c ∧
      ∀ c', Admissible d s e off c' → mismatch s e c ≤ mismatch s e c') ∧
    ((∃ c, Admissible d s e off c ∧ mismatch s e c < 2 ^ 63 - 1) →
      ∃ c, findCenterSQ d s e off = some c) := by
  obtain ⟨h1, h2, h3⟩ := centerLoop_spec d s e (centerCandidates s off) none maxsize (by simp)
  constructor
  · intro c hc
    refine ⟨(admissible_iff hr c).2 ?_, fun c' hc' => ?_⟩
    · simpa using (h1 c hc).1
    · rw [← radiusError_eq, ← radiusError_eq]
      obtain ⟨ha, hb⟩ := (admissible_iff hr c').1 hc'
      exact (h2 c hc).2.2 c' ha hb
  · rintro ⟨c, hc, hm⟩
    cases hf : findCenterSQ d s e off with
    | some c => exact ⟨c, rfl⟩
    | none =>
      obtain ⟨ha, hb⟩ := (admissible_iff hr c).1 hc
      have := (h3 hf).2 c ha hb
      rw [radiusError_eq, maxsize] at this
      norm_num at hm
      linarith

/-- Clockwise arcs: regular as soon as no candidate centre is an end of the arc. -/
theorem C36_clockwise {s e off : Pt} (ho : off ≠ (0, 0))
    (he : ¬ (|e.1 - s.1| = |off.1| ∧ |e.2 - s.2| = |off.2|)) :
    (∀ c, findCenterSQ "clockwise" s e off = some c → Admissible "clockwise" s e off c ∧
      ∀ c', Admissible "clockwise" s e off c' → mismatch s e c ≤ mismatch s e c') ∧
    ((∃ c, Admissible "clockwise" s e off c ∧ mismatch s e c = 0) →
      ∃ c, findCenterSQ "clockwise" s e off = some c ∧ mismatch s e c = 0) := by
  have hr : Regular "clockwise" s e off := by
    intro c hc
    refine ⟨?_, ?_, by simp⟩
    · rintro rfl
      simp only [sub_self, abs_zero] at hc
      apply ho
      have a := abs_eq_zero.1 hc.1.symm
      have b := abs_eq_zero.1 hc.2.symm
      exact Prod.ext a b
    · rintro rfl
      exact he hc
  obtain ⟨h1, h2⟩ := C36_center_partial hr
  refine ⟨h1, ?_⟩
  rintro ⟨c, hc, hm⟩
  obtain ⟨c', hc'⟩ := h2 ⟨c, hc, by rw [hm]; norm_num⟩
  refine ⟨c', hc', le_antisymm (hm ▸ (h1 c' hc').2 c hc) (abs_nonneg _)⟩

/-- The clockwise quarter from the y axis to the x axis around the origin is found. -/
example : ∃ c, findCenterSQ "clockwise" (0, 1) (1, 0) (0, 1) = some c ∧ mismatch (0, 1) (1, 0) c = 0 := by
  refine (C36_clockwise (by decide) (by norm_num)).2 ⟨(0, 0), ⟨by norm_num, Real.pi / 2, ?_, ?_, 1, one_pos, ?_⟩, by norm_num [mismatch]⟩
  · linarith [Real.pi_pos]
  · norm_num
  · have h : ("clockwise" = "counterclockwise") = False := by simp
    simp only [h, if_false]
    push_cast
    rw [show -((Real.pi : ℂ) / 2) * I = -(Real.pi / 2 * I) by ring, exp_neg, exp_pi_div_two_mul_I]
    apply Complex.ext <;> simp [vec, toR]

theorem sqrt2_half : Real.sqrt 2 * (Real.sqrt 2 / 2) = 1 := by
  have := Real.mul_self_sqrt (show (0 : ℝ) ≤ 2 by norm_num)
  linarith

/-- A counterclockwise quarter turn around the origin, from 315 to 45 degrees: the code takes the
mirrored centre, around which the arc travels three quarters of a turn. -/
theorem C36_ccw_violated :
    Admissible "counterclockwise" (1, -1) (1, 1) (1, 1) (0, 0) ∧
      mismatch (1, -1) (1, 1) (0, 0) = 0 ∧
      findCenterSQ "counterclockwise" (1, -1) (1, 1) (1, 1) = some (2, 0) ∧
      ¬ Admissible "counterclockwise" (1, -1) (1, 1) (1, 1) (2, 0) := by
  have hp := Real.pi_pos
  have h3 := Real.pi_gt_three
  have hs := sqrt2_half
  have hs0 : 0 < Real.sqrt 2 := by positivity
  have hc34 : Real.cos (3 * Real.pi / 4) = -(Real.sqrt 2 / 2) := by
    rw [show 3 * Real.pi / 4 = Real.pi - Real.pi / 4 by ring, Real.cos_pi_sub,
      Real.cos_pi_div_four]
  have hs34 : Real.sin (3 * Real.pi / 4) = Real.sqrt 2 / 2 := by
    rw [show 3 * Real.pi / 4 = Real.pi - Real.pi / 4 by ring, Real.sin_pi_sub,
      Real.sin_pi_div_four]
  have ht0 : theta (toR (1, -1)) (toR (2, 0)) = 5 * Real.pi / 4 := by
    have := atan2_polar (t := -(3 * Real.pi / 4)) hs0 ⟨by linarith, by linarith⟩
    rw [Real.sin_neg, Real.cos_neg, hc34, hs34, mul_neg, hs] at this
    have e : atan2 ((toR (1, -1)).2 - (toR (2, 0)).2) ((toR (1, -1)).1 - (toR (2, 0)).1) =
        -(3 * Real.pi / 4) := by
      rw [← this]; norm_num [toR]
    rw [theta, e, pmod_of_lt Real.two_pi_pos ⟨by linarith, by linarith⟩]
    ring
  have ht1 : theta (toR (1, 1)) (toR (2, 0)) = 3 * Real.pi / 4 := by
    have := atan2_polar (t := 3 * Real.pi / 4) hs0 ⟨by linarith, by linarith⟩
    rw [hc34, hs34, mul_neg, hs] at this
    have e : atan2 ((toR (1, 1)).2 - (toR (2, 0)).2) ((toR (1, 1)).1 - (toR (2, 0)).1) =
        3 * Real.pi / 4 := by
      rw [← this]; norm_num [toR]
    rw [theta, e, pmod_of_small Real.two_pi_pos ⟨by linarith, by linarith⟩]
    ring
  have hsw : sweepAngle "counterclockwise" (toR (1, -1)) (toR (1, 1)) (toR (2, 0)) =
      Real.pi / 2 := by
    simp only [sweepAngle, if_true, ht0, ht1]
    rw [abs_of_nonpos (by linarith)]
    ring
  have hv : ValidSweep "counterclockwise" (1, -1) (1, 1) (2, 0) := by
    unfold ValidSweep
    rw [hsw]
    exact ⟨by linarith, by norm_num⟩
  refine ⟨⟨by norm_num, Real.pi / 2, by linarith, by norm_num, 1, one_pos, ?_⟩,
    by norm_num [mismatch], ?_, ?_⟩
  · simp only [if_true]
    rw [ofReal_div, ofReal_ofNat, exp_pi_div_two_mul_I]
    apply Complex.ext <;> simp [vec, toR]
  · have hcand : centerCandidates (1, -1) (1, 1) = [(2, 0), (2, -2), (0, 0), (0, -2)] := by
      norm_num [centerCandidates]
    have hz : ∀ (l : List Pt), centerLoop "counterclockwise" (1, -1) (1, 1) l (some (2, 0)) 0 =
        some (2, 0) := by
      intro l
      induction l with
      | nil => rfl
      | cons x l ih =>
        rw [centerLoop, if_neg, ih]
        rintro ⟨h, -⟩
        exact absurd h (not_lt.2 (abs_nonneg _))
    have he : radiusError (1, -1) (1, 1) (2, 0) = 0 := by norm_num [radiusError, sqDistance]
    rw [findCenterSQ, hcand, centerLoop, if_pos ⟨by rw [he]; norm_num [maxsize], hv⟩, he]
    exact hz _
  · rintro ⟨-, t, h0, h1, ht⟩
    have hT : Travels "counterclockwise" (3 * Real.pi / 2) (toR (1, -1)) (toR (1, 1))
        (toR (2, 0)) := by
      refine ⟨1, one_pos, ?_⟩
      simp only [if_true]
      have : ((3 * Real.pi / 2 : ℝ) : ℂ) * I = Real.pi / 2 * I + Real.pi * I := by
        push_cast; ring
      rw [this, exp_add, exp_pi_div_two_mul_I, exp_pi_mul_I]
      apply Complex.ext <;> norm_num [vec, toR]
    have := travels_unique (toR_ne (by decide)) ⟨h0, by norm_num at h1; linarith⟩
      ⟨by linarith, by linarith⟩ ht hT
    norm_num at h1
    linarith

end Verif.Geom
