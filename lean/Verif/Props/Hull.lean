import Verif.Model.Hull
import Verif.Props.Angle
import Mathlib.Analysis.Convex.Combination
import Mathlib.Data.List.Cycle

/-! # The convex hull (C42) -/

namespace Verif.Geom

/-- Positive if `z` is left of the line from `u` to `v`. -/
def cross3 (u v z : RPt) : ℝ := (v.1 - u.1) * (z.2 - u.2) - (v.2 - u.2) * (z.1 - u.1)

theorem cross_split (a b c x : RPt) : cross3 a c x + cross3 c b x = cross3 a b x - cross3 a b c := by
  unfold cross3; ring

theorem cross_neg (a b x : RPt) : cross3 b a x = - cross3 a b x := by unfold cross3; ring

/-- `sin` of the difference of two slopes. -/
theorem cross_slope_pos (p q x : RPt) : ∃ k : ℝ, 0 ≤ k ∧
    cross3 p q x = k * Real.sin (slope p x - slope p q) ∧ (q ≠ p → x ≠ p → 0 < k) := by
  have hpos : ∀ y : RPt, y ≠ p → 0 < ‖(⟨y.1 - p.1, y.2 - p.2⟩ : ℂ)‖ := by
    intro y hy
    rw [norm_pos_iff]
    intro h0
    apply hy
    have e1 := congrArg Complex.re h0
    have e2 := congrArg Complex.im h0
    simp only [Complex.zero_re, Complex.zero_im] at e1 e2
    exact Prod.ext (by linarith) (by linarith)
  refine ⟨‖(⟨q.1 - p.1, q.2 - p.2⟩ : ℂ)‖ * ‖(⟨x.1 - p.1, x.2 - p.2⟩ : ℂ)‖, by positivity, ?_,
    fun h1 h2 => mul_pos (hpos q h1) (hpos x h2)⟩
  clear hpos
  have h1 := Complex.norm_mul_cos_arg (⟨q.1 - p.1, q.2 - p.2⟩ : ℂ)
  have h2 := Complex.norm_mul_sin_arg (⟨q.1 - p.1, q.2 - p.2⟩ : ℂ)
  have h3 := Complex.norm_mul_cos_arg (⟨x.1 - p.1, x.2 - p.2⟩ : ℂ)
  have h4 := Complex.norm_mul_sin_arg (⟨x.1 - p.1, x.2 - p.2⟩ : ℂ)
  simp only at h1 h2 h3 h4
  rw [Real.sin_sub]
  unfold cross3 slope atan2
  generalize ‖(⟨q.1 - p.1, q.2 - p.2⟩ : ℂ)‖ = n1 at *
  generalize ‖(⟨x.1 - p.1, x.2 - p.2⟩ : ℂ)‖ = n2 at *
  generalize Complex.arg ⟨q.1 - p.1, q.2 - p.2⟩ = g1 at *
  generalize Complex.arg ⟨x.1 - p.1, x.2 - p.2⟩ = g2 at *
  rw [← h1, ← h2, ← h3, ← h4]
  ring

theorem cross_slope (p q x : RPt) : ∃ k : ℝ, 0 ≤ k ∧
    cross3 p q x = k * Real.sin (slope p x - slope p q) := by
  obtain ⟨k, h1, h2, -⟩ := cross_slope_pos p q x
  exact ⟨k, h1, h2⟩

theorem slope_range (p q : RPt) : -Real.pi < slope p q ∧ slope p q ≤ Real.pi :=
  ⟨Complex.neg_pi_lt_arg _, Complex.arg_le_pi _⟩

theorem slope_eq_of_mul {p q x : RPt} {s t : ℝ} (hs : 0 < s) (ht : 0 < t)
    (h1 : s * (x.1 - p.1) = t * (q.1 - p.1)) (h2 : s * (x.2 - p.2) = t * (q.2 - p.2)) :
    slope p x = slope p q := by
  unfold slope atan2
  rw [← Complex.arg_real_mul _ hs, ← Complex.arg_real_mul (⟨q.1 - p.1, q.2 - p.2⟩ : ℂ) ht]
  congr 1
  apply Complex.ext
  · simpa using h1
  · simpa using h2

theorem wrap_spec {d : ℝ} (h1 : -(2 * Real.pi) < d) (h2 : d < 2 * Real.pi) :
    -Real.pi ≤ wrap d ∧ wrap d ≤ Real.pi ∧ Real.sin (wrap d) = Real.sin d := by
  have hpi := Real.pi_pos
  unfold wrap
  simp only
  split
  · rw [if_neg (by linarith)]
    refine ⟨by linarith, by linarith, Real.sin_add_two_pi d⟩
  · split
    · refine ⟨by linarith, by linarith, Real.sin_sub_two_pi d⟩
    · refine ⟨by linarith, by linarith, rfl⟩

theorem wrap'_spec {d : ℝ} (h1 : -Real.pi < d) (h2 : d < Real.pi) : wrap' d = d := by
  have hpi := Real.pi_pos
  unfold wrap'
  simp only
  rw [if_pos h2, if_pos (by linarith)]
  ring

theorem slopes_diff (p q r s : RPt) : -(2 * Real.pi) < slope p q - slope r s ∧
    slope p q - slope r s < 2 * Real.pi := by
  have h1 := slope_range p q
  have h2 := slope_range r s
  exact ⟨by linarith, by linarith⟩

theorem sin_of_wrap_neg {d : ℝ} (h1 : -(2 * Real.pi) < d) (h2 : d < 2 * Real.pi) (h : wrap d < 0) :
    Real.sin d ≤ 0 := by
  obtain ⟨l, u, e⟩ := wrap_spec h1 h2
  rw [← e]
  exact Real.sin_nonpos_of_nonpos_of_neg_pi_le h.le l

theorem sin_of_wrap_nonneg {d : ℝ} (h1 : -(2 * Real.pi) < d) (h2 : d < 2 * Real.pi)
    (h : 0 ≤ wrap d) : 0 ≤ Real.sin d := by
  obtain ⟨l, u, e⟩ := wrap_spec h1 h2
  rw [← e]
  exact Real.sin_nonneg_of_nonneg_of_le_pi h u

/-! ## One step of `_findhull` -/

section step
variable {a b c x : RPt}

/-- Strictly left of `a → c` is in the left set. -/
theorem inLeft_of (h : 0 < cross3 a c x) : inLeft a c x := by
  obtain ⟨k, hk, e⟩ := cross_slope a c x
  obtain ⟨d1, d2⟩ := slopes_diff a c a x
  have hs : Real.sin (slope a c - slope a x) < 0 := by
    rw [← neg_sub, Real.sin_neg]
    rw [e] at h
    have := pos_of_mul_pos_right h hk
    linarith
  constructor
  · intro he
    rw [he, sub_self, Real.sin_zero] at hs
    exact lt_irrefl _ hs
  · by_contra hn
    push Not at hn
    exact absurd (sin_of_wrap_nonneg d1 d2 hn) (not_le.2 hs)

theorem left_of_inLeft (hx : 0 < cross3 a b x) (hc : 0 < cross3 a b c) (h : inLeft a c x) :
    0 < cross3 a c x := by
  obtain ⟨k, hk, e⟩ := cross_slope a c x
  obtain ⟨d1, d2⟩ := slopes_diff a c a x
  have hs := sin_of_wrap_neg d1 d2 h.2
  have h0 : 0 ≤ cross3 a c x := by
    rw [e]
    refine mul_nonneg hk ?_
    rw [← neg_sub, Real.sin_neg]
    linarith
  rcases h0.eq_or_lt with h0 | h0
  · exfalso
    refine h.1 (slope_eq_of_mul hx hc ?_ ?_)
    · unfold cross3 at *
      linear_combination (-(b.1 - a.1)) * h0
    · unfold cross3 at *
      linear_combination (-(b.2 - a.2)) * h0
  · exact h0

theorem inRight_of (hy : cross3 a b x ≤ cross3 a b c) (hn : ¬ inLeft a c x) (h : 0 < cross3 c b x) :
    inRight a b c x := by
  have hsplit := cross_split a b c x
  have hne : slope a c ≠ slope a x := by
    intro he
    obtain ⟨k, hk, e⟩ := cross_slope a c x
    rw [he, sub_self, Real.sin_zero, mul_zero] at e
    linarith
  have hw : ¬ wrap (slope a c - slope a x) < 0 := fun hw => hn ⟨hne, hw⟩
  obtain ⟨k, hk, e⟩ := cross_slope c b x
  rw [e] at h
  have hs := pos_of_mul_pos_right h hk
  obtain ⟨d1, d2⟩ := slopes_diff c x c b
  refine ⟨hne, hw, ?_, ?_⟩
  · intro he
    rw [he, sub_self, Real.sin_zero] at hs
    exact lt_irrefl _ hs
  · by_contra hn
    push Not at hn
    rcases hn.eq_or_lt with h0 | h0
    · have := (wrap_spec d1 d2).2.2
      rw [h0, Real.sin_zero] at this
      linarith
    · have := sin_of_wrap_neg d1 d2 h0
      linarith

theorem right_of_inRight (hy : cross3 a b x ≤ cross3 a b c) (hc : 0 < cross3 a b c)
    (h : inRight a b c x) : 0 < cross3 c b x := by
  obtain ⟨h1, h2, h3, h4⟩ := h
  obtain ⟨k, hk, e⟩ := cross_slope c b x
  obtain ⟨d1, d2⟩ := slopes_diff c x c b
  have h0 : 0 ≤ cross3 c b x := by
    rw [e]
    exact mul_nonneg hk (sin_of_wrap_nonneg d1 d2 h4.le)
  rcases h0.eq_or_lt with h0 | h0
  · exfalso
    have e1 : cross3 a b c * (x.1 - c.1) = (cross3 a b c - cross3 a b x) * (b.1 - c.1) := by
      unfold cross3 at *
      linear_combination (-(b.1 - a.1)) * h0
    have e2 : cross3 a b c * (x.2 - c.2) = (cross3 a b c - cross3 a b x) * (b.2 - c.2) := by
      unfold cross3 at *
      linear_combination (-(b.2 - a.2)) * h0
    rcases hy.eq_or_lt with hy | hy
    · rw [hy, sub_self, zero_mul] at e1 e2
      have f1 : x.1 = c.1 := by
        have := (mul_eq_zero.1 e1).resolve_left hc.ne'
        linarith
      have f2 : x.2 = c.2 := by
        have := (mul_eq_zero.1 e2).resolve_left hc.ne'
        linarith
      exact h1 (by rw [Prod.ext f1 f2])
    · exact h3 (slope_eq_of_mul hc (by linarith) e1 e2)
  · exact h0

/-- The farthest corner of a triangle is never in the right set. -/
theorem not_inRight_a (hc : 0 < cross3 a b c) : ¬ inRight a b c a := by
  intro h
  have h0 : cross3 a b a = 0 := by unfold cross3; ring
  have := right_of_inRight (by rw [h0]; exact hc.le) hc h
  have e : cross3 c b a = - cross3 a b c := by unfold cross3; ring
  linarith

theorem not_inRight_b : ¬ inRight a b c b := fun h => h.2.2.1 rfl

theorem not_inLeft_b (hc : 0 < cross3 a b c) : ¬ inLeft a c b := by
  intro h
  obtain ⟨k, hk, e⟩ := cross_slope a c b
  obtain ⟨d1, d2⟩ := slopes_diff a c a b
  have hs := sin_of_wrap_neg d1 d2 h.2
  have e' : cross3 a c b = - cross3 a b c := by unfold cross3; ring
  rw [← neg_sub, Real.sin_neg] at hs
  have : 0 ≤ cross3 a c b := by
    rw [e]
    exact mul_nonneg hk (by linarith)
  linarith

/-- A point in none of the sets lies in the triangle. -/
theorem in_triangle {S : Set RPt} (hS : Convex ℝ S) (ha : a ∈ S) (hb : b ∈ S) (hc : c ∈ S)
    (hD : 0 < cross3 a b c) (h1 : 0 ≤ cross3 a b x) (h2 : cross3 a c x ≤ 0)
    (h3 : cross3 c b x ≤ 0) : x ∈ S := by
  have hsum := cross_split a b c x
  set D := cross3 a b c with hDd
  have hx : x = (-cross3 c b x / D) • a + (-cross3 a c x / D) • b + (cross3 a b x / D) • c := by
    have hD' := hD.ne'
    apply Prod.ext
    · simp only [Prod.fst_add, Prod.smul_fst, smul_eq_mul]
      field_simp
      unfold cross3 at *
      rw [hDd]
      ring
    · simp only [Prod.snd_add, Prod.smul_snd, smul_eq_mul]
      field_simp
      unfold cross3 at *
      rw [hDd]
      ring
  have key := hS.sum_mem (t := Finset.univ)
    (w := ![-cross3 c b x / D, -cross3 a c x / D, cross3 a b x / D]) (z := ![a, b, c]) ?_ ?_ ?_
  · rw [Fin.sum_univ_three] at key
    rw [hx]
    exact key
  · intro i _
    fin_cases i
    · exact div_nonneg (by linarith) hD.le
    · exact div_nonneg (by linarith) hD.le
    · exact div_nonneg h1 hD.le
  · rw [Fin.sum_univ_three]
    show -cross3 c b x / D + -cross3 a c x / D + cross3 a b x / D = 1
    rw [← add_div, ← add_div, div_eq_one_iff_eq hD.ne']
    linarith
  · intro i _
    fin_cases i
    · exact ha
    · exact hb
    · exact hc

end step

/-! ## The farthest point -/

theorem lineDistance_eq (a b x : RPt) : lineDistance a b x =
    |cross3 a b x| / Real.sqrt ((b.2 - a.2) ^ 2 + (b.1 - a.1) ^ 2) := by
  unfold lineDistance cross3
  rw [← abs_neg]
  congr 2
  ring

theorem base_pos {a b : RPt} (h : a ≠ b) : 0 < Real.sqrt ((b.2 - a.2) ^ 2 + (b.1 - a.1) ^ 2) := by
  apply Real.sqrt_pos.2
  by_contra hn
  push Not at hn
  apply h
  have h1 : (b.2 - a.2) ^ 2 = 0 := by nlinarith [sq_nonneg (b.2 - a.2), sq_nonneg (b.1 - a.1)]
  have h2 : (b.1 - a.1) ^ 2 = 0 := by nlinarith [sq_nonneg (b.2 - a.2), sq_nonneg (b.1 - a.1)]
  have h1' := pow_eq_zero_iff (two_ne_zero) |>.1 h1
  have h2' := pow_eq_zero_iff (two_ne_zero) |>.1 h2
  exact Prod.ext (by linarith) (by linarith)

theorem farthest_spec (points : List RPt) (a b : ℕ) (l : List ℕ) (hl : l ≠ []) :
    (farthest points a b l).1 ∈ l ∧
    (farthest points a b l).2 =
      lineDistance (pt points a) (pt points b) (pt points (farthest points a b l).1) ∧
    ∀ i ∈ l, lineDistance (pt points a) (pt points b) (pt points i) ≤ (farthest points a b l).2 := by
  classical
  let d := fun i => lineDistance (pt points a) (pt points b) (pt points i)
  have hd : ∀ i, 0 ≤ d i := fun i => div_nonneg (abs_nonneg _) (Real.sqrt_nonneg _)
  have gen : ∀ (l : List ℕ) (m : ℕ × ℝ),
      let r := l.foldl (fun m i => if d i > m.2 then (i, d i) else m) m
      m.2 ≤ r.2 ∧ (∀ i ∈ l, d i ≤ r.2) ∧ (r = m ∨ (r.1 ∈ l ∧ r.2 = d r.1)) := by
    intro l
    induction l with
    | nil => intro m; simp
    | cons i l ih =>
      intro m
      simp only [List.foldl_cons]
      obtain ⟨h1, h2, h3⟩ := ih (if d i > m.2 then (i, d i) else m)
      by_cases hi : d i > m.2
      · rw [if_pos hi] at h1 h2 h3 ⊢
        refine ⟨le_trans hi.le h1, ?_, ?_⟩
        · intro j hj
          rcases List.mem_cons.1 hj with rfl | hj
          · exact h1
          · exact h2 j hj
        · refine .inr ?_
          rcases h3 with h3 | ⟨h3, h4⟩
          · rw [h3]
            exact ⟨List.mem_cons_self, rfl⟩
          · exact ⟨List.mem_cons_of_mem _ h3, h4⟩
      · rw [if_neg hi] at h1 h2 h3 ⊢
        push Not at hi
        refine ⟨h1, ?_, ?_⟩
        · intro j hj
          rcases List.mem_cons.1 hj with rfl | hj
          · exact le_trans hi h1
          · exact h2 j hj
        · rcases h3 with h3 | ⟨h3, h4⟩
          · exact .inl h3
          · exact .inr ⟨List.mem_cons_of_mem _ h3, h4⟩
  obtain ⟨h1, h2, h3⟩ := gen l (0, -1)
  have h3' : (farthest points a b l) = (0, -1) ∨ ((farthest points a b l).1 ∈ l ∧
    (farthest points a b l).2 = d (farthest points a b l).1) := h3
  rcases h3' with h3 | h3
  · exfalso
    cases l with
    | nil => exact hl rfl
    | cons i l =>
      have : d i ≤ (farthest points a b (i :: l)).2 := h2 i List.mem_cons_self
      rw [h3] at this
      have := hd i
      simp only at *
      linarith
  · exact ⟨h3.1, h3.2, h2⟩

/-! ## `_findhull` -/

section find
variable {points : List RPt}

/-- All points are on the left of the line from `u` to `v`, or on it. -/
def Supp (points : List RPt) (u v : ℕ) : Prop :=
  pt points u ≠ pt points v ∧ ∀ z < points.length, 0 ≤ cross3 (pt points u) (pt points v) (pt points z)

/-- All points are on one side of a line through `a`, which `b` is strictly on - unless no point of
`idxp` is left of the line from `a` to `b`. -/
def Corner (points : List RPt) (P : Prop) (a b : ℕ) : Prop :=
  ∃ m n : ℝ, (∀ z < points.length,
      0 ≤ m * ((pt points z).1 - (pt points a).1) + n * ((pt points z).2 - (pt points a).2)) ∧
    (0 < m * ((pt points b).1 - (pt points a).1) + n * ((pt points b).2 - (pt points a).2) ∨ ¬ P)

/-- What holds when `_findhull` is called. -/
structure Calls (points : List RPt) (idxp : List ℕ) (a b : ℕ) : Prop where
  ne : pt points a ≠ pt points b
  ha : a < points.length
  hb : b < points.length
  idx : ∀ i ∈ idxp, i < points.length ∧ (0 < cross3 (pt points a) (pt points b) (pt points i) ∨
    pt points i = pt points a ∨ pt points i = pt points b)
  all : ∀ z < points.length, 0 < cross3 (pt points a) (pt points b) (pt points z) → z ∈ idxp
  cornerA : Corner points (∃ i ∈ idxp, 0 < cross3 (pt points a) (pt points b) (pt points i)) a b
  cornerB : Corner points (∃ i ∈ idxp, 0 < cross3 (pt points a) (pt points b) (pt points i)) b a

/-- What `_findhull` returns. -/
structure Returns (points : List RPt) (idxp : List ℕ) (a b : ℕ) (R : List ℕ) : Prop where
  sub : ∀ i ∈ R, i ∈ idxp
  strict : ∀ i ∈ R, 0 < cross3 (pt points a) (pt points b) (pt points i)
  nodup : (R.map (pt points)).Nodup
  chain : List.IsChain (Supp points) (b :: R ++ [a])
  hull : ∀ i ∈ idxp, pt points i ∈ convexHull ℝ {p | ∃ j, (j = a ∨ j = b ∨ j ∈ R) ∧ p = pt points j}

theorem returns_nil {idxp : List ℕ} {a b : ℕ} (hc : Calls points idxp a b)
    (hn : ∀ i ∈ idxp, ¬ 0 < cross3 (pt points a) (pt points b) (pt points i)) :
    Returns points idxp a b [] := by
  refine ⟨by simp, by simp, List.nodup_nil, ?_, ?_⟩
  · simp only [List.cons_append, List.nil_append, List.isChain_cons_cons, List.isChain_singleton,
      and_true]
    refine ⟨hc.ne.symm, fun z hz => ?_⟩
    rw [cross_neg]
    by_contra h
    push Not at h
    have h' : 0 < cross3 (pt points a) (pt points b) (pt points z) := by linarith
    exact hn z (hc.all z hz h') h'
  · intro i hi
    rcases (hc.idx i hi).2 with h | h | h
    · exact absurd h (hn i hi)
    · rw [h]
      exact subset_convexHull ℝ _ ⟨a, .inl rfl, rfl⟩
    · rw [h]
      exact subset_convexHull ℝ _ ⟨b, .inr (.inl rfl), rfl⟩

open Classical in
theorem findHull_returns (n : ℕ) : ∀ (idxp : List ℕ) (a b : ℕ), idxp.length ≤ n →
    Calls points idxp a b → Returns points idxp a b (findHull points n idxp a b) := by
  induction n with
  | zero =>
    intro idxp a b hl hc
    have : idxp = [] := List.length_eq_zero_iff.1 (Nat.le_zero.1 hl)
    subst this
    exact returns_nil hc (by simp)
  | succ n ih =>
    intro idxp a b hl hc
    simp only [findHull]
    split
    · rename_i h
      subst h
      exact returns_nil hc (by simp)
    rename_i hnil
    obtain ⟨hfm, hfd, hfmax⟩ := farthest_spec points a b idxp hnil
    have hbase := base_pos hc.ne
    split
    · rename_i h0
      refine returns_nil hc fun i hi hlt => ?_
      have := le_trans (hfmax i hi) h0
      rw [lineDistance_eq, div_le_iff₀ hbase, zero_mul] at this
      have h2 := abs_pos.2 hlt.ne'
      linarith
    rename_i h0
    push Not at h0
    generalize hfar : (farthest points a b idxp).1 = far at *
    generalize (farthest points a b idxp).2 = fd at *
    set A := pt points a with hA
    set B := pt points b with hB
    set C := pt points far with hC
    -- the farthest point is strictly left, and the others are not farther
    have hD : 0 < cross3 A B C := by
      rcases (hc.idx far hfm).2 with h | h | h
      · exact h
      · exfalso
        rw [hfd, lineDistance_eq] at h0
        rw [show C = A from h, show cross3 A B A = 0 by unfold cross3; ring] at h0
        simp at h0
      · exfalso
        rw [hfd, lineDistance_eq] at h0
        rw [show C = B from h, show cross3 A B B = 0 by unfold cross3; ring] at h0
        simp at h0
    have hY : ∀ i ∈ idxp, cross3 A B (pt points i) ≤ cross3 A B C := by
      intro i hi
      have := hfmax i hi
      rw [hfd, lineDistance_eq, lineDistance_eq, div_le_div_iff_of_pos_right hbase,
        abs_of_pos hD] at this
      exact le_trans (le_abs_self _) this
    have hYall : ∀ z < points.length, cross3 A B (pt points z) ≤ cross3 A B C := by
      intro z hz
      by_cases h : 0 < cross3 A B (pt points z)
      · exact hY z (hc.all z hz h)
      · push Not at h
        linarith
    have hfarlt := (hc.idx far hfm).1
    have hCA : C ≠ A := by
      intro h
      rw [h, show cross3 A B A = 0 by unfold cross3; ring] at hD
      exact lt_irrefl _ hD
    have hCB : C ≠ B := by
      intro h
      rw [h, show cross3 A B B = 0 by unfold cross3; ring] at hD
      exact lt_irrefl _ hD
    have hex : ∃ i ∈ idxp, 0 < cross3 A B (pt points i) := ⟨far, hfm, hD⟩
    obtain ⟨ma, na, hfa, hfa'⟩ := hc.cornerA
    obtain ⟨mb, nb, hfb, hfb'⟩ := hc.cornerB
    have hfa1 := hfa'.resolve_right (not_not.2 hex)
    have hfb1 := hfb'.resolve_right (not_not.2 hex)
    -- the two smaller problems
    generalize hl' : (idxp.filter fun i => decide (i ≠ far ∧ inLeft A C (pt points i))) = L
    generalize hr' : (idxp.filter fun i => decide (i ≠ far ∧ inRight A B C (pt points i))) = R
    have memL : ∀ i, i ∈ L ↔ i ∈ idxp ∧ i ≠ far ∧ inLeft A C (pt points i) := by
      intro i
      rw [← hl', List.mem_filter, decide_eq_true_eq]
    have memR : ∀ i, i ∈ R ↔ i ∈ idxp ∧ i ≠ far ∧ inRight A B C (pt points i) := by
      intro i
      rw [← hr', List.mem_filter, decide_eq_true_eq]
    have lenlt : ∀ (p : ℕ → Bool), p far = false → (idxp.filter p).length ≤ n := by
      intro p hp
      have h1 : (idxp.filter p).length < idxp.length := by
        rw [List.length_filter_lt_length_iff_exists]
        exact ⟨far, hfm, by simp [hp]⟩
      omega
    have lenL : L.length ≤ n := by rw [← hl']; exact lenlt _ (by simp)
    have lenR : R.length ≤ n := by rw [← hr']; exact lenlt _ (by simp)
    have combA : ∀ x : RPt, cross3 A B C * (ma * (x.1 - A.1) + na * (x.2 - A.2)) =
        cross3 A B x * (ma * (C.1 - A.1) + na * (C.2 - A.2)) -
        cross3 A C x * (ma * (B.1 - A.1) + na * (B.2 - A.2)) := by
      intro x; unfold cross3; ring
    have combB : ∀ x : RPt, cross3 A B C * (mb * (x.1 - B.1) + nb * (x.2 - B.2)) =
        cross3 A B x * (mb * (C.1 - B.1) + nb * (C.2 - B.2)) -
        cross3 C B x * (mb * (A.1 - B.1) + nb * (A.2 - B.2)) := by
      intro x; unfold cross3; ring
    have callL : Calls points L a far := by
      refine ⟨hCA.symm, hc.ha, hfarlt, ?_, ?_, ?_, ?_⟩
      · intro i hi
        obtain ⟨h1, h2, h3⟩ := (memL i).1 hi
        obtain ⟨h4, h5⟩ := hc.idx i h1
        refine ⟨h4, ?_⟩
        rcases h5 with h5 | h5 | h5
        · exact .inl (left_of_inLeft h5 hD h3)
        · exact .inr (.inl h5)
        · exact absurd (show inLeft A C B by rw [hB, ← h5]; exact h3) (not_inLeft_b hD)
      · intro z hz hp
        have hpos : 0 < cross3 A B (pt points z) := by
          by_contra hn
          push Not at hn
          have e := combA (pt points z)
          have g1 := mul_nonneg hD.le (hfa z hz)
          have g2 := mul_nonneg (neg_nonneg.2 hn) (hfa far hfarlt)
          have g3 := mul_pos hp hfa1
          simp only [← hA, ← hB, ← hC] at e g1 g2 g3
          linarith
        refine (memL z).2 ⟨hc.all z hz hpos, ?_, inLeft_of hp⟩
        rintro rfl
        rw [show cross3 (pt points a) (pt points z) (pt points z) = 0 by unfold cross3; ring] at hp
        exact lt_irrefl _ hp
      · refine ⟨ma, na, hfa, ?_⟩
        rcases (hfa far hfarlt).eq_or_lt with h | h
        · refine .inr ?_
          rintro ⟨i, hi, hp⟩
          obtain ⟨h1, -, -⟩ := (memL i).1 hi
          have e := combA (pt points i)
          have g1 := mul_nonneg hD.le (hfa i (hc.idx i h1).1)
          have g3 := mul_pos hp hfa1
          simp only [← hA, ← hB, ← hC] at e g1 g3 h
          rw [← h, mul_zero] at e
          linarith
        · exact .inl h
      · refine ⟨B.2 - A.2, -(B.1 - A.1), ?_, .inl ?_⟩
        · intro z hz
          have := hYall z hz
          unfold cross3 at this
          simp only [← hC]
          linarith
        · have := hD
          unfold cross3 at this
          simp only [← hC, ← hA]
          linarith
    have callR : Calls points R far b := by
      refine ⟨hCB, hfarlt, hc.hb, ?_, ?_, ?_, ?_⟩
      · intro i hi
        obtain ⟨h1, h2, h3⟩ := (memR i).1 hi
        exact ⟨(hc.idx i h1).1, .inl (right_of_inRight (hY i h1) hD h3)⟩
      · intro z hz hp
        have hpos : 0 < cross3 A B (pt points z) := by
          by_contra hn
          push Not at hn
          have e := combB (pt points z)
          have g1 := mul_nonneg hD.le (hfb z hz)
          have g2 := mul_nonneg (neg_nonneg.2 hn) (hfb far hfarlt)
          have g3 := mul_pos hp hfb1
          simp only [← hA, ← hB, ← hC] at e g1 g2 g3
          linarith
        have hz' := hc.all z hz hpos
        have hsplit := cross_split A B C (pt points z)
        refine (memR z).2 ⟨hz', ?_, inRight_of (hY z hz') ?_ hp⟩
        · rintro rfl
          rw [show cross3 (pt points z) (pt points b) (pt points z) = 0 by unfold cross3; ring] at hp
          exact lt_irrefl _ hp
        · intro hleft
          have h1 := left_of_inLeft hpos hD hleft
          have h2 := hY z hz'
          have hp' : 0 < cross3 C B (pt points z) := hp
          linarith
      · refine ⟨B.2 - A.2, -(B.1 - A.1), ?_, .inl ?_⟩
        · intro z hz
          have := hYall z hz
          unfold cross3 at this
          simp only [← hC]
          linarith
        · have := hD
          unfold cross3 at this
          simp only [← hC, ← hB]
          linarith
      · refine ⟨mb, nb, hfb, ?_⟩
        rcases (hfb far hfarlt).eq_or_lt with h | h
        · refine .inr ?_
          rintro ⟨i, hi, hp⟩
          obtain ⟨h1, -, -⟩ := (memR i).1 hi
          have e := combB (pt points i)
          have g1 := mul_nonneg hD.le (hfb i (hc.idx i h1).1)
          have g3 := mul_pos hp hfb1
          simp only [← hA, ← hB, ← hC] at e g1 g3 h
          rw [← h, mul_zero] at e
          linarith
        · exact .inl h
    have retL := ih L a far lenL callL
    have retR := ih R far b lenR callR
    have strictL : ∀ i ∈ findHull points n L a far, 0 < cross3 A B (pt points i) := by
      intro i hi
      have hp := retL.strict i hi
      rcases (hc.idx i ((memL i).1 (retL.sub i hi)).1).2 with h | h | h
      · exact h
      · rw [h, show cross3 (pt points a) (pt points far) (pt points a) = 0 by unfold cross3; ring] at hp
        exact absurd hp (lt_irrefl _)
      · rw [h] at hp
        have e : cross3 A C B = - cross3 A B C := by unfold cross3; ring
        have hp' : 0 < cross3 A C B := hp
        linarith
    have strictR : ∀ i ∈ findHull points n R far b, 0 < cross3 A B (pt points i) := by
      intro i hi
      have hp := retR.strict i hi
      rcases (hc.idx i ((memR i).1 (retR.sub i hi)).1).2 with h | h | h
      · exact h
      · rw [h] at hp
        have e : cross3 C B A = - cross3 A B C := by unfold cross3; ring
        have hp' : 0 < cross3 C B A := hp
        linarith
      · rw [h, show cross3 (pt points far) (pt points b) (pt points b) = 0 by unfold cross3; ring] at hp
        exact absurd hp (lt_irrefl _)
    refine ⟨?_, ?_, ?_, ?_, ?_⟩
    · intro i hi
      simp only [List.mem_append, List.mem_singleton] at hi
      rcases hi with (hi | rfl) | hi
      · exact ((memR i).1 (retR.sub i hi)).1
      · exact hfm
      · exact ((memL i).1 (retL.sub i hi)).1
    · intro i hi
      simp only [List.mem_append, List.mem_singleton] at hi
      rcases hi with (hi | rfl) | hi
      · exact strictR i hi
      · exact hD
      · exact strictL i hi
    · rw [List.map_append, List.map_append, List.nodup_append, List.nodup_append]
      refine ⟨⟨retR.nodup, List.nodup_singleton _, ?_⟩, retL.nodup, ?_⟩
      · intro p hp q hq
        obtain ⟨i, hi, rfl⟩ := List.mem_map.1 hp
        simp only [List.map_cons, List.map_nil, List.mem_singleton] at hq
        subst hq
        intro h
        have hs := retR.strict i hi
        rw [h, show cross3 (pt points far) (pt points b) (pt points far) = 0 by
          unfold cross3; ring] at hs
        exact lt_irrefl _ hs
      · intro p hp q hq hpq
        subst hpq
        obtain ⟨j, hj, hjp⟩ := List.mem_map.1 hq
        have hs := retL.strict j hj
        rcases List.mem_append.1 hp with hp | hp
        · obtain ⟨i, hi, rfl⟩ := List.mem_map.1 hp
          have hs' := retR.strict i hi
          have hsplit := cross_split A B C (pt points i)
          have hY' := hY i ((memR i).1 (retR.sub i hi)).1
          rw [hjp] at hs
          have hs1 : 0 < cross3 A C (pt points i) := hs
          have hs2 : 0 < cross3 C B (pt points i) := hs'
          linarith
        · simp only [List.map_cons, List.map_nil, List.mem_singleton] at hp
          subst hp
          rw [hjp, show cross3 (pt points a) (pt points far) (pt points far) = 0 by
            unfold cross3; ring] at hs
          exact lt_irrefl _ hs
    · have e : b :: (findHull points n R far b ++ [far] ++ findHull points n L a far) ++ [a] =
          (b :: findHull points n R far b) ++ far :: (findHull points n L a far ++ [a]) := by simp
      rw [e, List.isChain_split]
      exact ⟨retR.chain, retL.chain⟩
    · intro i hi
      have sub1 : convexHull ℝ {p | ∃ j, (j = a ∨ j = far ∨ j ∈ findHull points n L a far) ∧
          p = pt points j} ⊆ convexHull ℝ {p | ∃ j, (j = a ∨ j = b ∨
            j ∈ findHull points n R far b ++ [far] ++ findHull points n L a far) ∧
              p = pt points j} := by
        apply convexHull_mono
        rintro p ⟨j, hj, rfl⟩
        refine ⟨j, ?_, rfl⟩
        simp only [List.mem_append, List.mem_singleton]
        tauto
      have sub2 : convexHull ℝ {p | ∃ j, (j = far ∨ j = b ∨ j ∈ findHull points n R far b) ∧
          p = pt points j} ⊆ convexHull ℝ {p | ∃ j, (j = a ∨ j = b ∨
            j ∈ findHull points n R far b ++ [far] ++ findHull points n L a far) ∧
              p = pt points j} := by
        apply convexHull_mono
        rintro p ⟨j, hj, rfl⟩
        refine ⟨j, ?_, rfl⟩
        simp only [List.mem_append, List.mem_singleton]
        tauto
      by_cases hif : i = far
      · subst hif
        exact subset_convexHull ℝ _ ⟨i, .inr (.inr (by simp)), rfl⟩
      by_cases hiL : i ∈ L
      · exact sub1 (retL.hull i hiL)
      by_cases hiR : i ∈ R
      · exact sub2 (retR.hull i hiR)
      have hnL : ¬ inLeft A C (pt points i) := fun h => hiL ((memL i).2 ⟨hi, hif, h⟩)
      have hnR : ¬ inRight A B C (pt points i) := fun h => hiR ((memR i).2 ⟨hi, hif, h⟩)
      rcases (hc.idx i hi).2 with h | h | h
      · refine in_triangle (a := A) (b := B) (c := C) (convex_convexHull ℝ _)
          (subset_convexHull ℝ _ ⟨a, .inl rfl, rfl⟩)
          (subset_convexHull ℝ _ ⟨b, .inr (.inl rfl), rfl⟩)
          (subset_convexHull ℝ _ ⟨far, .inr (.inr (by simp)), rfl⟩) hD h.le ?_ ?_
        · by_contra hp
          push Not at hp
          exact hnL (inLeft_of hp)
        · by_contra hp
          push Not at hp
          exact hnR (inRight_of (hY i hi) hnL hp)
      · rw [h]
        exact subset_convexHull ℝ _ ⟨a, .inl rfl, rfl⟩
      · rw [h]
        exact subset_convexHull ℝ _ ⟨b, .inr (.inl rfl), rfl⟩

end find

/-! ## The whole polygon before `_optimize` -/

/-- The convex hull of some of the points. -/
def hullOf (points : List RPt) (H : List ℕ) : Set RPt :=
  convexHull ℝ {p | ∃ j ∈ H, p = pt points j}

/-- A polygon with all points on the left of all of its edges. -/
structure Ring (points : List RPt) (H : List ℕ) : Prop where
  lt : ∀ i ∈ H, i < points.length
  nodup : (H.map (pt points)).Nodup
  chain : Cycle.Chain (Supp points) (H : Cycle ℕ)
  hull : ∀ z < points.length, pt points z ∈ hullOf points H

theorem minX_spec (points : List RPt) (h : points ≠ []) : minX points < points.length ∧
    ∀ z < points.length, (pt points (minX points)).1 ≤ (pt points z).1 := by
  have gen : ∀ (l : List ℕ) (m : ℕ), m < points.length → (∀ i ∈ l, i < points.length) →
      let r := l.foldl (fun m i => if (pt points i).1 < (pt points m).1 then i else m) m
      r < points.length ∧ (pt points r).1 ≤ (pt points m).1 ∧
        ∀ i ∈ l, (pt points r).1 ≤ (pt points i).1 := by
    intro l
    induction l with
    | nil => intro m hm _; exact ⟨hm, le_rfl, by simp⟩
    | cons i l ih =>
      intro m hm hl
      simp only [List.foldl_cons]
      split
      · rename_i hi
        obtain ⟨h1, h2, h3⟩ := ih i (hl i (by simp)) (fun j hj => hl j (by simp [hj]))
        refine ⟨h1, le_trans h2 hi.le, ?_⟩
        intro j hj
        rcases List.mem_cons.1 hj with rfl | hj
        · exact h2
        · exact h3 j hj
      · rename_i hi
        push Not at hi
        obtain ⟨h1, h2, h3⟩ := ih m hm (fun j hj => hl j (by simp [hj]))
        refine ⟨h1, h2, ?_⟩
        intro j hj
        rcases List.mem_cons.1 hj with rfl | hj
        · exact le_trans h2 hi
        · exact h3 j hj
  have hpos : 0 < points.length := List.length_pos_iff.2 h
  obtain ⟨h1, -, h3⟩ := gen (List.range points.length) 0 hpos (by simp)
  exact ⟨h1, fun z hz => h3 z (by simpa using hz)⟩

theorem maxX_spec (points : List RPt) (h : points ≠ []) : maxX points < points.length ∧
    ∀ z < points.length, (pt points z).1 ≤ (pt points (maxX points)).1 := by
  have gen : ∀ (l : List ℕ) (m : ℕ), m < points.length → (∀ i ∈ l, i < points.length) →
      let r := l.foldl (fun m i => if (pt points i).1 > (pt points m).1 then i else m) m
      r < points.length ∧ (pt points m).1 ≤ (pt points r).1 ∧
        ∀ i ∈ l, (pt points i).1 ≤ (pt points r).1 := by
    intro l
    induction l with
    | nil => intro m hm _; exact ⟨hm, le_rfl, by simp⟩
    | cons i l ih =>
      intro m hm hl
      simp only [List.foldl_cons]
      split
      · rename_i hi
        obtain ⟨h1, h2, h3⟩ := ih i (hl i (by simp)) (fun j hj => hl j (by simp [hj]))
        refine ⟨h1, le_trans (le_of_lt hi) h2, ?_⟩
        intro j hj
        rcases List.mem_cons.1 hj with rfl | hj
        · exact h2
        · exact h3 j hj
      · rename_i hi
        push Not at hi
        obtain ⟨h1, h2, h3⟩ := ih m hm (fun j hj => hl j (by simp [hj]))
        refine ⟨h1, h2, ?_⟩
        intro j hj
        rcases List.mem_cons.1 hj with rfl | hj
        · exact le_trans hi h2
        · exact h3 j hj
  have hpos : 0 < points.length := List.length_pos_iff.2 h
  obtain ⟨h1, -, h3⟩ := gen (List.range points.length) 0 hpos (by simp)
  exact ⟨h1, fun z hz => h3 z (by simpa using hz)⟩

/-- The two are different exactly if not all points have the same x. -/
theorem minX_ne_maxX (points : List RPt) (h : points ≠ []) :
    minX points ≠ maxX points ↔ (pt points (minX points)).1 < (pt points (maxX points)).1 := by
  obtain ⟨l1, h1⟩ := minX_spec points h
  obtain ⟨l2, h2⟩ := maxX_spec points h
  constructor
  · intro hne
    by_contra hn
    push Not at hn
    apply hne
    have hall : ∀ z < points.length, (pt points z).1 = (pt points 0).1 := by
      intro z hz
      have := h1 z hz
      have := h2 z hz
      have := h1 0 (List.length_pos_iff.2 h)
      have := h2 0 (List.length_pos_iff.2 h)
      linarith
    have e1 : ∀ (l : List ℕ), (∀ i ∈ l, i < points.length) →
        l.foldl (fun m i => if (pt points i).1 < (pt points m).1 then i else m) 0 = 0 := by
      intro l
      induction l with
      | nil => exact fun _ => rfl
      | cons i l ih =>
        intro hl
        rw [List.foldl_cons, if_neg (by rw [hall i (hl i (by simp))]; exact lt_irrefl _)]
        exact ih fun j hj => hl j (by simp [hj])
    have e2 : ∀ (l : List ℕ), (∀ i ∈ l, i < points.length) →
        l.foldl (fun m i => if (pt points i).1 > (pt points m).1 then i else m) 0 = 0 := by
      intro l
      induction l with
      | nil => exact fun _ => rfl
      | cons i l ih =>
        intro hl
        rw [List.foldl_cons, if_neg (by rw [hall i (hl i (by simp))]; exact lt_irrefl _)]
        exact ih fun j hj => hl j (by simp [hj])
    unfold minX maxX
    rw [e1 _ (by simp), e2 _ (by simp)]
  · intro hlt he
    rw [he] at hlt
    exact lt_irrefl _ hlt

theorem between_mem {S : Set RPt} (hS : Convex ℝ S) {a b x : RPt} (ha : a ∈ S) (hb : b ∈ S)
    (hab : a.1 < b.1) (h0 : cross3 a b x = 0) (h1 : a.1 ≤ x.1) (h2 : x.1 ≤ b.1) : x ∈ S := by
  have hpos : 0 < b.1 - a.1 := by linarith
  have hx : x = ((b.1 - x.1) / (b.1 - a.1)) • a + ((x.1 - a.1) / (b.1 - a.1)) • b := by
    have := hpos.ne'
    unfold cross3 at h0
    apply Prod.ext
    · simp only [Prod.fst_add, Prod.smul_fst, smul_eq_mul]
      field_simp
      ring
    · simp only [Prod.snd_add, Prod.smul_snd, smul_eq_mul]
      field_simp
      linear_combination h0
  rw [hx]
  refine hS ha hb (div_nonneg (by linarith) hpos.le) (div_nonneg (by linarith) hpos.le) ?_
  rw [← add_div, div_eq_one_iff_eq hpos.ne']
  ring

/-- The classification of the points at the top level. -/
theorem side_spec {a b p : RPt} (hab : a.1 < b.1) (hp : a.1 ≤ p.1) :
    (0 < cross3 a b p → wrap' (slope a p - slope a b) > 0) ∧
    (cross3 a b p < 0 → wrap' (slope a p - slope a b) < 0) ∧
    (wrap' (slope a p - slope a b) > 0 → 0 < cross3 a b p ∨ p = a) ∧
    (wrap' (slope a p - slope a b) < 0 → cross3 a b p < 0 ∨ p = a) := by
  have hpi := Real.pi_pos
  have s1 : |slope a b| < Real.pi / 2 := by
    unfold slope atan2
    rw [Complex.abs_arg_lt_pi_div_two_iff]
    exact .inl (by simpa using hab)
  have s2 : |slope a p| ≤ Real.pi / 2 := by
    unfold slope atan2
    rw [Complex.abs_arg_le_pi_div_two_iff]
    simpa using hp
  rw [abs_lt] at s1
  rw [abs_le] at s2
  have d1 : -Real.pi < slope a p - slope a b := by linarith
  have d2 : slope a p - slope a b < Real.pi := by linarith
  rw [wrap'_spec d1 d2]
  obtain ⟨k, hk, e, hk'⟩ := cross_slope_pos a b p
  have hba : b ≠ a := fun h => by rw [h] at hab; exact lt_irrefl _ hab
  generalize slope a p - slope a b = d at *
  refine ⟨?_, ?_, ?_, ?_⟩
  · intro h
    rw [e] at h
    have hs := pos_of_mul_pos_right h hk
    by_contra hn
    push Not at hn
    have := Real.sin_nonpos_of_nonpos_of_neg_pi_le hn d1.le
    linarith
  · intro h
    rw [e] at h
    have hs : Real.sin d < 0 := by
      by_contra hn
      push Not at hn
      have := mul_nonneg hk hn
      linarith
    by_contra hn
    push Not at hn
    have := Real.sin_nonneg_of_nonneg_of_le_pi hn d2.le
    linarith
  · intro h
    by_cases hpa : p = a
    · exact .inr hpa
    · refine .inl ?_
      rw [e]
      exact mul_pos (hk' hba hpa) (Real.sin_pos_of_pos_of_lt_pi h d2)
  · intro h
    by_cases hpa : p = a
    · exact .inr hpa
    · refine .inl ?_
      rw [e]
      exact mul_neg_of_pos_of_neg (hk' hba hpa) (Real.sin_neg_of_neg_of_neg_pi_lt h d1)

open Classical in
theorem rawHull_ring {points : List RPt} (h : points ≠ []) (hne : minX points ≠ maxX points) :
    Ring points (rawHull points) := by
  have hab := (minX_ne_maxX points h).1 hne
  obtain ⟨hlo, hmin⟩ := minX_spec points h
  obtain ⟨hhi, hmax⟩ := maxX_spec points h
  unfold rawHull
  simp only
  generalize minX points = lo at *
  generalize maxX points = hi at *
  set A := pt points lo with hA
  set B := pt points hi with hB
  generalize hl' : (((List.range points.length).filter fun i => decide (¬ (i = lo ∨ i = hi))).filter
    fun i => decide (wrap' (slope A (pt points i) - slope A B) > 0)) = L
  generalize hr' : (((List.range points.length).filter fun i => decide (¬ (i = lo ∨ i = hi))).filter
    fun i => decide (wrap' (slope A (pt points i) - slope A B) < 0)) = R
  have memL : ∀ i, i ∈ L ↔ i < points.length ∧ ¬ (i = lo ∨ i = hi) ∧
      wrap' (slope A (pt points i) - slope A B) > 0 := by
    intro i
    rw [← hl', List.mem_filter, List.mem_filter, decide_eq_true_eq, decide_eq_true_eq,
      List.mem_range, and_assoc]
  have memR : ∀ i, i ∈ R ↔ i < points.length ∧ ¬ (i = lo ∨ i = hi) ∧
      wrap' (slope A (pt points i) - slope A B) < 0 := by
    intro i
    rw [← hr', List.mem_filter, List.mem_filter, decide_eq_true_eq, decide_eq_true_eq,
      List.mem_range, and_assoc]
  have lenL : L.length ≤ points.length := by
    rw [← hl']
    refine le_trans (List.length_filter_le _ _) (le_trans (List.length_filter_le _ _) ?_)
    simp
  have lenR : R.length ≤ points.length := by
    rw [← hr']
    refine le_trans (List.length_filter_le _ _) (le_trans (List.length_filter_le _ _) ?_)
    simp
  have hABne : A ≠ B := fun he => by rw [he] at hab; exact lt_irrefl _ hab
  have notlo : ∀ z, cross3 A B (pt points z) ≠ 0 → ¬ (z = lo ∨ z = hi) := by
    rintro z hz (rfl | rfl)
    · exact hz (by rw [← hA]; unfold cross3; ring)
    · exact hz (by rw [← hB]; unfold cross3; ring)
  have callL : Calls points L lo hi := by
    refine ⟨hABne, hlo, hhi, ?_, ?_, ?_, ?_⟩
    · intro i hi'
      obtain ⟨h1, h2, h3⟩ := (memL i).1 hi'
      refine ⟨h1, ?_⟩
      rcases (side_spec hab (hmin i h1)).2.2.1 h3 with h | h
      · exact .inl h
      · exact .inr (.inl h)
    · intro z hz hp
      exact (memL z).2 ⟨hz, notlo z hp.ne', (side_spec hab (hmin z hz)).1 hp⟩
    · refine ⟨1, 0, fun z hz => ?_, .inl ?_⟩
      · have := hmin z hz
        linarith
      · linarith
    · refine ⟨-1, 0, fun z hz => ?_, .inl ?_⟩
      · have := hmax z hz
        linarith
      · linarith
  have callR : Calls points R hi lo := by
    refine ⟨hABne.symm, hhi, hlo, ?_, ?_, ?_, ?_⟩
    · intro i hi'
      obtain ⟨h1, h2, h3⟩ := (memR i).1 hi'
      refine ⟨h1, ?_⟩
      rcases (side_spec hab (hmin i h1)).2.2.2 h3 with h | h
      · refine .inl ?_
        rw [cross_neg]
        have : cross3 (pt points lo) (pt points hi) (pt points i) < 0 := h
        linarith
      · exact .inr (.inr h)
    · intro z hz hp
      rw [cross_neg] at hp
      have hp' : cross3 A B (pt points z) < 0 := by
        have : 0 < - cross3 A B (pt points z) := hp
        linarith
      exact (memR z).2 ⟨hz, notlo z hp'.ne, (side_spec hab (hmin z hz)).2.1 hp'⟩
    · refine ⟨-1, 0, fun z hz => ?_, .inl ?_⟩
      · have := hmax z hz
        linarith
      · linarith
    · refine ⟨1, 0, fun z hz => ?_, .inl ?_⟩
      · have := hmin z hz
        linarith
      · linarith
  have retL := findHull_returns points.length L lo hi lenL callL
  have retR := findHull_returns points.length R hi lo lenR callR
  generalize findHull points points.length L lo hi = HL at *
  generalize findHull points points.length R hi lo = HR at *
  have strictR : ∀ i ∈ HR, cross3 A B (pt points i) < 0 := by
    intro i hi'
    have := retR.strict i hi'
    rw [cross_neg] at this
    have h' : 0 < - cross3 A B (pt points i) := this
    linarith
  have strictL : ∀ i ∈ HL, 0 < cross3 A B (pt points i) := retL.strict
  have zA : cross3 A B A = 0 := by unfold cross3; ring
  have zB : cross3 A B B = 0 := by unfold cross3; ring
  refine ⟨?_, ?_, ?_, ?_⟩
  · intro i hi'
    simp only [List.mem_append, List.mem_singleton] at hi'
    rcases hi' with ((rfl | h) | rfl) | h
    · exact hlo
    · exact ((memR i).1 (retR.sub i h)).1
    · exact hhi
    · exact ((memL i).1 (retL.sub i h)).1
  · simp only [List.map_append, List.nodup_append, List.map_cons, List.map_nil, List.mem_append,
      List.mem_singleton, List.nodup_singleton, List.mem_map, true_and]
    refine ⟨⟨⟨retR.nodup, ?_⟩, ?_⟩, retL.nodup, ?_⟩
    · rintro p rfl q ⟨i, hi', rfl⟩ he
      have := strictR i hi'
      rw [← he, zA] at this
      exact lt_irrefl _ this
    · rintro p (rfl | ⟨i, hi', rfl⟩) q rfl he
      · exact hABne he
      · have := strictR i hi'
        rw [he, zB] at this
        exact lt_irrefl _ this
    · rintro p ((rfl | ⟨i, hi', rfl⟩) | rfl) q ⟨j, hj, rfl⟩ he
      · have := strictL j hj
        rw [← he, zA] at this
        exact lt_irrefl _ this
      · have h1 := strictL j hj
        have h2 := strictR i hi'
        rw [he] at h2
        linarith
      · have := strictL j hj
        rw [← he, zB] at this
        exact lt_irrefl _ this
  · have e : [lo] ++ HR ++ [hi] ++ HL = lo :: (HR ++ hi :: HL) := by simp
    rw [e, Cycle.chain_coe_cons]
    have e2 : lo :: (HR ++ hi :: HL ++ [lo]) = (lo :: HR) ++ hi :: (HL ++ [lo]) := by simp
    rw [e2, List.isChain_split]
    exact ⟨retR.chain, retL.chain⟩
  · intro z hz
    have sub1 : convexHull ℝ {p | ∃ j, (j = lo ∨ j = hi ∨ j ∈ HL) ∧ p = pt points j} ⊆
        hullOf points ([lo] ++ HR ++ [hi] ++ HL) := by
      apply convexHull_mono
      rintro p ⟨j, hj, rfl⟩
      refine ⟨j, ?_, rfl⟩
      simp only [List.mem_append, List.mem_singleton]
      tauto
    have sub2 : convexHull ℝ {p | ∃ j, (j = hi ∨ j = lo ∨ j ∈ HR) ∧ p = pt points j} ⊆
        hullOf points ([lo] ++ HR ++ [hi] ++ HL) := by
      apply convexHull_mono
      rintro p ⟨j, hj, rfl⟩
      refine ⟨j, ?_, rfl⟩
      simp only [List.mem_append, List.mem_singleton]
      tauto
    by_cases hzL : z ∈ L
    · exact sub1 (retL.hull z hzL)
    by_cases hzR : z ∈ R
    · exact sub2 (retR.hull z hzR)
    refine between_mem (a := A) (b := B) (convex_convexHull ℝ _)
      (subset_convexHull ℝ _ ⟨lo, by simp, rfl⟩) (subset_convexHull ℝ _ ⟨hi, by simp, rfl⟩) hab ?_
      (hmin z hz) (hmax z hz)
    rcases lt_trichotomy (cross3 A B (pt points z)) 0 with h | h | h
    · exact absurd ((memR z).2 ⟨hz, notlo z h.ne, (side_spec hab (hmin z hz)).2.1 h⟩) hzR
    · exact h
    · exact absurd ((memL z).2 ⟨hz, notlo z h.ne', (side_spec hab (hmin z hz)).1 h⟩) hzL

/-! ## Leaving out the middle points of collinear triplets -/

/-- Three of the points are not on one line. -/
def Planar (points : List RPt) : Prop := ∃ p ∈ points, ∃ q ∈ points, ∃ r ∈ points, cross3 p q r ≠ 0

theorem pt_mem {points : List RPt} {i : ℕ} (h : i < points.length) : pt points i ∈ points := by
  unfold pt
  rw [List.getD_eq_getElem?_getD, List.getElem?_eq_getElem h]
  exact List.getElem_mem h

theorem exists_pt {points : List RPt} {p : RPt} (h : p ∈ points) :
    ∃ i < points.length, pt points i = p := by
  obtain ⟨i, hi, rfl⟩ := List.getElem_of_mem h
  exact ⟨i, hi, by unfold pt; rw [List.getD_eq_getElem?_getD, List.getElem?_eq_getElem hi]; rfl⟩

/-- Points on the line through two different points are collinear. -/
theorem cross_collinear {u v p q r : RPt} (huv : u ≠ v) (hp : cross3 u v p = 0)
    (hq : cross3 u v q = 0) (hr : cross3 u v r = 0) : cross3 p q r = 0 := by
  unfold cross3 at *
  by_cases h1 : v.1 - u.1 = 0
  · have h2 : v.2 - u.2 ≠ 0 := fun h2 => huv (Prod.ext (by linarith) (by linarith))
    apply mul_left_cancel₀ h2
    have a1 : q.1 - p.1 = 0 := by
      apply mul_left_cancel₀ h2
      rw [h1] at hp hq
      linarith
    have a2 : r.1 - p.1 = 0 := by
      apply mul_left_cancel₀ h2
      rw [h1] at hp hr
      linarith
    rw [a1, a2]
    ring
  · apply mul_left_cancel₀ h1
    linear_combination (q.1 - p.1) * (hr - hp) - (r.1 - p.1) * (hq - hp)

theorem not_all_on_line {points : List RPt} (hp : Planar points) {u v : RPt} (huv : u ≠ v) :
    ∃ z < points.length, cross3 u v (pt points z) ≠ 0 := by
  by_contra hn
  push Not at hn
  obtain ⟨p, hp, q, hq, r, hr, h⟩ := hp
  obtain ⟨i, hi, rfl⟩ := exists_pt hp
  obtain ⟨j, hj, rfl⟩ := exists_pt hq
  obtain ⟨k, hk, rfl⟩ := exists_pt hr
  exact h (cross_collinear huv (hn i hi) (hn j hj) (hn k hk))

theorem Ring.three {points : List RPt} {H : List ℕ} (h : Ring points H) (hp : Planar points) :
    3 ≤ H.length := by
  match H, h with
  | [], h =>
    obtain ⟨p, hp, -⟩ := hp
    obtain ⟨i, hi, rfl⟩ := exists_pt hp
    have := h.hull i hi
    simp [hullOf] at this
  | [u], h =>
    have := h.chain
    rw [Cycle.chain_coe_cons] at this
    simp only [List.nil_append, List.isChain_cons_cons] at this
    exact absurd rfl this.1.1
  | [u, v], h =>
    have := h.chain
    rw [Cycle.chain_coe_cons] at this
    simp only [List.cons_append, List.nil_append, List.isChain_cons_cons] at this
    obtain ⟨⟨h1, h2⟩, ⟨h3, h4⟩, -⟩ := this
    obtain ⟨z, hz, hne⟩ := not_all_on_line hp h1
    have a1 := h2 z hz
    have a2 := h4 z hz
    rw [cross_neg] at a2
    exact absurd (le_antisymm (by linarith) a1) hne
  | _ :: _ :: _ :: _, _ => simp

theorem Ring.nodup' {points : List RPt} {H : List ℕ} (h : Ring points H) : H.Nodup :=
  List.Nodup.of_map _ h.nodup

theorem Ring.rotated {points : List RPt} {H K : List ℕ} (h : Ring points H) (hr : H ~r K) :
    Ring points K := by
  refine ⟨fun i hi => h.lt i (hr.mem_iff.2 hi), (hr.perm.map _).nodup_iff.1 h.nodup, ?_, ?_⟩
  · have e : (H : Cycle ℕ) = (K : Cycle ℕ) := Cycle.coe_eq_coe.2 hr
    exact e ▸ h.chain
  · intro z hz
    have e : hullOf points K = hullOf points H := by
      unfold hullOf
      congr 1
      ext p
      simp only [Set.mem_ofPred_eq]
      exact exists_congr fun j => and_congr_left fun _ => hr.mem_iff.symm
    rw [e]
    exact h.hull z hz

/-- Two edges in a row on one line: the middle point is between the others. -/
theorem Ring.skip {points : List RPt} {p t q : ℕ} {m : List ℕ} (h : Ring points (p :: t :: q :: m))
    (hp : Planar points) (hc : cross3 (pt points p) (pt points t) (pt points q) = 0) :
    Ring points (p :: q :: m) := by
  have hch := h.chain
  rw [Cycle.chain_coe_cons] at hch
  simp only [List.cons_append, List.isChain_cons_cons] at hch
  obtain ⟨⟨n1, s1⟩, ⟨n2, s2⟩, hrest⟩ := hch
  -- the second edge is a multiple of the first
  set P := pt points p
  set T := pt points t
  set Q := pt points q
  obtain ⟨k, hk1, hk2⟩ : ∃ k : ℝ, Q.1 - T.1 = k * (T.1 - P.1) ∧ Q.2 - T.2 = k * (T.2 - P.2) := by
    unfold cross3 at hc
    by_cases h1 : T.1 - P.1 = 0
    · have h2 : T.2 - P.2 ≠ 0 := fun h2 => n1 (Prod.ext (by linarith) (by linarith))
      refine ⟨(Q.2 - T.2) / (T.2 - P.2), ?_, ?_⟩
      · rw [h1, mul_zero]
        rw [h1, zero_mul] at hc
        have : (T.2 - P.2) * (Q.1 - P.1) = 0 := by linarith
        rcases mul_eq_zero.1 this with h | h
        · exact absurd h h2
        · linarith
      · field_simp
    · refine ⟨(Q.1 - T.1) / (T.1 - P.1), ?_, ?_⟩
      · field_simp
      · field_simp
        linear_combination hc
  have hkpos : 0 < k := by
    by_contra hn
    push Not at hn
    rcases hn.lt_or_eq with hneg | rfl
    · obtain ⟨z, hz, hne⟩ := not_all_on_line hp n1
      have a1 := s1 z hz
      have a2 := s2 z hz
      have e : cross3 T Q (pt points z) = k * cross3 P T (pt points z) := by
        unfold cross3
        rw [hk1, hk2]
        ring
      have e' : cross3 (pt points t) (pt points q) (pt points z) = k * cross3 P T (pt points z) := e
      rw [e'] at a2
      have : cross3 P T (pt points z) ≤ 0 := by
        by_contra hh
        push Not at hh
        have := mul_neg_of_neg_of_pos hneg hh
        linarith
      exact hne (le_antisymm this a1)
    · exact n2 (Prod.ext (by simpa using (by linarith : T.1 = Q.1)) (by simpa using (by linarith : T.2 = Q.2)))
  have hk' : 0 < 1 + k := by linarith
  have hPQ : Supp points p q := by
    constructor
    · intro he
      have he' : P = Q := he
      apply n1
      rw [← he'] at hk1 hk2
      have b1 : (1 + k) * (T.1 - P.1) = 0 := by linarith
      have b2 : (1 + k) * (T.2 - P.2) = 0 := by linarith
      rcases mul_eq_zero.1 b1 with h | h
      · linarith
      rcases mul_eq_zero.1 b2 with h' | h'
      · linarith
      exact Prod.ext (by linarith) (by linarith)
    · intro z hz
      have e : cross3 P Q (pt points z) = (1 + k) * cross3 P T (pt points z) := by
        have q1 : Q.1 = T.1 + k * (T.1 - P.1) := by linarith
        have q2 : Q.2 = T.2 + k * (T.2 - P.2) := by linarith
        unfold cross3
        rw [q1, q2]
        ring
      have e' : cross3 (pt points p) (pt points q) (pt points z) = (1 + k) * cross3 P T (pt points z) := e
      rw [e']
      exact mul_nonneg hk'.le (s1 z hz)
  have hT : T ∈ hullOf points (p :: q :: m) := by
    have eT : T = (k / (1 + k)) • P + (1 / (1 + k)) • Q := by
      apply Prod.ext
      · simp only [Prod.fst_add, Prod.smul_fst, smul_eq_mul]
        field_simp
        linarith
      · simp only [Prod.snd_add, Prod.smul_snd, smul_eq_mul]
        field_simp
        linarith
    rw [eT]
    have hP : P ∈ hullOf points (p :: q :: m) := subset_convexHull ℝ _ ⟨p, by simp, rfl⟩
    have hQ : Q ∈ hullOf points (p :: q :: m) := subset_convexHull ℝ _ ⟨q, by simp, rfl⟩
    refine convex_convexHull ℝ _ hP hQ (by positivity) (by positivity) ?_
    field_simp
    ring
  refine ⟨fun i hi => h.lt i (by simp only [List.mem_cons] at hi ⊢; tauto), ?_, ?_, ?_⟩
  · have := h.nodup
    simp only [List.map_cons, List.nodup_cons, List.mem_cons, not_or] at this ⊢
    tauto
  · rw [Cycle.chain_coe_cons]
    simp only [List.cons_append, List.isChain_cons_cons]
    exact ⟨hPQ, hrest⟩
  · intro z hz
    have hsub : hullOf points (p :: t :: q :: m) ⊆ hullOf points (p :: q :: m) := by
      refine convexHull_min ?_ (convex_convexHull ℝ _)
      rintro x ⟨j, hj, rfl⟩
      simp only [List.mem_cons] at hj
      rcases hj with rfl | rfl | hj
      · exact subset_convexHull ℝ _ ⟨_, by simp, rfl⟩
      · exact hT
      · exact subset_convexHull ℝ _ ⟨j, by simp only [List.mem_cons]; tauto, rfl⟩
    exact hsub (h.hull z hz)

theorem isRotated_filter {H K : List ℕ} (h : H ~r K) (f : ℕ → Bool) : H.filter f ~r K.filter f := by
  obtain ⟨n, rfl⟩ := h
  induction n generalizing H with
  | zero => rw [List.rotate_zero]
  | succ n ih =>
    cases H with
    | nil => simp
    | cons x H =>
      rw [List.rotate_cons_succ]
      refine List.IsRotated.trans ?_ (ih (H := H ++ [x]))
      rw [List.filter_append, List.filter_cons]
      by_cases hf : f x = true
      · simp only [hf, if_true, List.filter_cons_of_pos, List.filter_nil]
        exact ⟨1, by simp⟩
      · simp only [hf, List.filter_nil, List.filter_cons, Bool.false_eq_true, if_false, List.append_nil]
        exact List.IsRotated.refl _

theorem isRotated_erase {H K : List ℕ} (hn : H.Nodup) (h : H ~r K) (t : ℕ) :
    H.erase t ~r K.erase t := by
  rw [hn.erase_eq_filter, (h.perm.nodup_iff.1 hn).erase_eq_filter]
  exact isRotated_filter h _

/-- Two rotations of a list without duplicates which begin with the same element are the same. -/
theorem rotated_unique {u : ℕ} {x y : List ℕ} (hn : (u :: x).Nodup) (h : u :: x ~r u :: y) : x = y := by
  obtain ⟨n, hn'⟩ := h
  have hlen : 0 < (u :: x).length := by simp
  rw [← List.rotate_mod] at hn'
  have hlt := Nat.mod_lt n hlen
  generalize n % (u :: x).length = k at *
  have h0 : ((u :: x).rotate k)[0]'(by simp) = u := by simp [hn']
  rw [List.getElem_rotate] at h0
  have : (u :: x)[(0 + k) % (u :: x).length]'(Nat.mod_lt _ hlen) = (u :: x)[0] := by simpa using h0
  have hk := (hn.getElem_inj_iff).1 this
  rw [Nat.zero_add, Nat.mod_eq_of_lt hlt] at hk
  subst hk
  simpa using hn'

theorem cross_trans_left {p t r s : RPt} (htr : t ≠ r) (h1 : cross3 p t r = 0) (h2 : cross3 t r s = 0) :
    cross3 p r s = 0 := by
  refine cross_collinear htr ?_ ?_ h2
  · unfold cross3 at *; linarith
  · unfold cross3; ring

theorem cross_trans_right {p t r s : RPt} (htr : t ≠ r) (h1 : cross3 p t r = 0)
    (h2 : cross3 t r s = 0) : cross3 p t s = 0 := by
  refine cross_collinear htr ?_ ?_ h2
  · unfold cross3 at *; linarith
  · unfold cross3; ring

/-- `t` is the middle of three consecutive vertices on one line. -/
def Middle (points : List RPt) (H : List ℕ) (t : ℕ) : Prop :=
  ∃ p q m, H ~r p :: t :: q :: m ∧ cross3 (pt points p) (pt points t) (pt points q) = 0

theorem erase_all {points : List RPt} (hp : Planar points) (T : List ℕ) :
    ∀ {H : List ℕ}, Ring points H → (∀ t ∈ T, t ∈ H → Middle points H t) →
      Ring points (T.foldl List.erase H) := by
  induction T with
  | nil => exact fun h _ => h
  | cons t T ih =>
    intro H h hT
    rw [List.foldl_cons]
    by_cases ht : t ∈ H
    swap
    · rw [List.erase_of_not_mem ht]
      exact ih h fun s hs => hT s (by simp [hs])
    obtain ⟨p, q, m, hrot, hc⟩ := hT t (by simp) ht
    have hR := h.rotated hrot
    have hskip := hR.skip hp hc
    have hnK := hR.nodup'
    have hpt : p ≠ t := by
      simp only [List.nodup_cons, List.mem_cons, not_or] at hnK
      exact hnK.1.1
    have hrot' : H.erase t ~r p :: q :: m := by
      have := isRotated_erase h.nodup' hrot t
      rwa [List.erase_cons_tail (by simpa using hpt), List.erase_cons_head] at this
    have hH' : Ring points (H.erase t) := hskip.rotated hrot'.symm
    refine ih hH' ?_
    intro s hs hsH
    have hsH' : s ∈ H := List.mem_of_mem_erase hsH
    have hst : s ≠ t := fun he => by
      rw [he] at hsH
      exact (h.nodup'.not_mem_erase) hsH
    obtain ⟨q1, q3, l, hrs, hcs⟩ := hT s (by simp [hs]) hsH'
    have hRs := h.rotated hrs
    have hnS := hRs.nodup'
    have h3 := hskip.three hp
    have ne12 : ∀ {i j : ℕ}, i < points.length → j < points.length → i ∈ H → j ∈ H → i ≠ j →
        pt points i ≠ pt points j := fun hi hj hiH hjH hij he =>
      hij (List.inj_on_of_nodup_map h.nodup hiH hjH he)
    have hptne : pt points s ≠ pt points t := ne12 (h.lt s hsH') (h.lt t ht) hsH' ht hst
    by_cases c1 : q1 = t
    · -- the point before `s` goes
      subst c1
      have r1 : q1 :: q :: (m ++ [p]) ~r q1 :: s :: q3 :: l := by
        refine List.IsRotated.trans ?_ hrs
        refine List.IsRotated.trans ?_ hrot.symm
        exact List.IsRotated.symm ⟨1, by simp⟩
      have hu := rotated_unique (((h.rotated hrs).rotated r1.symm).nodup') r1
      obtain ⟨rfl, hm⟩ := List.cons.inj hu
      cases m with
      | nil => simp at h3
      | cons a m' =>
        rw [List.cons_append] at hm
        obtain ⟨rfl, -⟩ := List.cons.inj hm
        exact ⟨p, a, m', hrot', cross_trans_left hptne.symm hc hcs⟩
    · by_cases c3 : q3 = t
      · subst c3
        have r1 : q3 :: q :: (m ++ [p]) ~r q3 :: (l ++ [q1, s]) := by
          refine List.IsRotated.trans ?_ (List.IsRotated.trans hrot.symm (hrs.trans ⟨2, by simp⟩))
          exact List.IsRotated.symm ⟨1, by simp⟩
        have hu := rotated_unique (((h.rotated hrot).rotated ⟨1, by simp⟩).nodup' :
          (q3 :: q :: (m ++ [p])).Nodup) r1
        have hu' : (q :: m) ++ [p] = (l ++ [q1]) ++ [s] := by simpa using hu
        obtain ⟨hu1, hu2⟩ := List.append_inj' hu' rfl
        obtain rfl : p = s := by simpa using hu2
        cases l with
        | nil =>
          simp only [List.nil_append, List.cons.injEq] at hu1
          rw [hu1.2] at h3
          simp at h3
        | cons b l' =>
          rw [List.cons_append] at hu1
          obtain ⟨rfl, hm⟩ := List.cons.inj hu1
          refine ⟨q1, q, l', ?_, cross_trans_right hptne hcs hc⟩
          rw [hm] at hrot'
          refine hrot'.trans ?_
          exact List.IsRotated.symm ⟨1, by simp⟩
      · refine ⟨q1, q3, l.erase t, ?_, hcs⟩
        have := isRotated_erase h.nodup' hrs t
        rwa [List.erase_cons_tail (by simpa using c1), List.erase_cons_tail (by simpa using hst),
          List.erase_cons_tail (by simpa using c3)] at this

theorem redundant_middle {points : List RPt} {H : List ℕ} (h3 : 3 ≤ H.length) :
    ∀ t ∈ redundant H points, Middle points H t := by
  intro t ht
  unfold redundant at ht
  rw [List.mem_flatMap] at ht
  obtain ⟨i, hi, ht⟩ := ht
  rw [List.mem_range] at hi
  split at ht
  swap
  · simp at ht
  rename_i hc
  rw [List.mem_singleton] at ht
  have g : ∀ j, j < 3 → ∃ hj : j < (H.rotate i).length,
      (H.rotate i)[j] = H.getD ((i + j) % H.length) 0 := by
    intro j hj
    have hj' : j < (H.rotate i).length := by rw [List.length_rotate]; omega
    refine ⟨hj', ?_⟩
    rw [List.getElem_rotate, List.getD_eq_getElem?_getD,
      List.getElem?_eq_getElem (Nat.mod_lt _ (by omega))]
    simp only [Nat.add_comm j i, Option.getD_some]
  match hK : H.rotate i, g with
  | [], g => obtain ⟨hj, -⟩ := g 0 (by omega); simp at hj
  | [_], g => obtain ⟨hj, -⟩ := g 1 (by omega); simp at hj
  | [_, _], g => obtain ⟨hj, -⟩ := g 2 (by omega); simp at hj
  | p :: u :: q :: m, g =>
    obtain ⟨_, e0⟩ := g 0 (by omega)
    obtain ⟨_, e1⟩ := g 1 (by omega)
    obtain ⟨_, e2⟩ := g 2 (by omega)
    simp only [List.getElem_cons_zero, List.getElem_cons_succ, Nat.add_zero] at e0 e1 e2
    rw [Nat.mod_eq_of_lt hi] at e0
    rw [← e1] at ht
    rw [← e0, ← e1, ← e2] at hc
    subst ht
    refine ⟨p, q, m, ⟨i, hK⟩, ?_⟩
    unfold collinearTest at hc
    unfold cross3
    linear_combination -hc

theorem optimize_ring {points : List RPt} {H : List ℕ} (hp : Planar points) (h : Ring points H) :
    Ring points (optimize H points) :=
  erase_all hp _ h fun t ht _ => redundant_middle (h.three hp) t ht

/-! ## The claim -/

theorem convexHullPts_some {points hull : List RPt} (h : convexHullPts points = some hull) :
    3 ≤ points.length ∧ minX points ≠ maxX points ∧
      hull = (optimize (rawHull points) points).map (pt points) := by
  unfold convexHullPts convexHullQh at h
  split at h
  · simp at h
  · split at h
    · simp at h
    · rename_i h1 h2
      exact ⟨by omega, h2, by simpa using h.symm⟩

theorem Ring.edge {points : List RPt} {H : List ℕ} (h : Ring points H) (i : ℕ) (hi : i < H.length) :
    Supp points (H[i]) (H[(i + 1) % H.length]'(Nat.mod_lt _ (by omega))) := by
  have hr := h.rotated ⟨i, rfl⟩
  have hch := hr.chain
  have e0 : (H.rotate i)[0]'(by rw [List.length_rotate]; omega) = H[i] := by
    rw [List.getElem_rotate]
    simp only [Nat.zero_add, Nat.mod_eq_of_lt hi]
  match hK : H.rotate i with
  | [] =>
    have := congrArg List.length hK
    rw [List.length_rotate] at this
    simp at this
    subst this
    simp at hi
  | [u] =>
    have hl := congrArg List.length hK
    rw [List.length_rotate] at hl
    simp at hl
    rw [hK, Cycle.chain_coe_cons] at hch
    simp only [List.nil_append, List.isChain_cons_cons] at hch
    exact absurd rfl hch.1.1
  | u :: v :: l =>
    have hl := congrArg List.length hK
    rw [List.length_rotate] at hl
    simp only [List.length_cons] at hl
    have e1 : (H.rotate i)[1]'(by rw [List.length_rotate]; omega) =
        H[(i + 1) % H.length]'(Nat.mod_lt _ (by omega)) := by
      rw [List.getElem_rotate]
      simp only [Nat.add_comm 1 i]
    simp only [hK, List.getElem_cons_zero, List.getElem_cons_succ] at e0 e1
    rw [hK, Cycle.chain_coe_cons] at hch
    simp only [List.cons_append, List.isChain_cons_cons] at hch
    rw [← e0, ← e1]
    exact hch.1

/-- C42, points which are not all on one line: the vertices are different input points, at least three;
every input point is in the convex hull of the vertices; and no input point is on the right of an edge
(the vertices run counterclockwise once around all the points). -/
theorem C42_hull_partial {points hull : List RPt} (hp : Planar points)
    (h : convexHullPts points = some hull) :
    3 ≤ hull.length ∧ hull.Nodup ∧ (∀ v ∈ hull, v ∈ points) ∧
    (∀ p ∈ points, p ∈ convexHull ℝ {v | v ∈ hull}) ∧
    (∀ (i : ℕ) (hi : i < hull.length), ∀ p ∈ points,
      0 ≤ cross3 hull[i] (hull[(i + 1) % hull.length]'(Nat.mod_lt _ (by omega))) p) := by
  obtain ⟨h3, hne, rfl⟩ := convexHullPts_some h
  have hnil : points ≠ [] := by rintro rfl; simp at h3
  have hR := optimize_ring hp (rawHull_ring hnil hne)
  generalize optimize (rawHull points) points = H at *
  refine ⟨by simpa using hR.three hp, hR.nodup, ?_, ?_, ?_⟩
  · intro v hv
    obtain ⟨i, hi, rfl⟩ := List.mem_map.1 hv
    exact pt_mem (hR.lt i hi)
  · intro p hp'
    obtain ⟨z, hz, rfl⟩ := exists_pt hp'
    have := hR.hull z hz
    unfold hullOf at this
    convert this using 2
    ext v
    simp only [Set.mem_ofPred_eq, List.mem_map]
    exact exists_congr fun j => and_congr_right fun _ => eq_comm
  · intro i hi p hp'
    obtain ⟨z, hz, rfl⟩ := exists_pt hp'
    rw [List.length_map] at hi
    have := (hR.edge i hi).2 z hz
    simpa using this

/-- C42: a hull is returned exactly if there are at least three points and not all have the same x;
otherwise `ConvexHull_qh` raises "not a planar shape". -/
theorem C42_defined (points : List RPt) : convexHullPts points ≠ none ↔
    3 ≤ points.length ∧ ∃ p ∈ points, ∃ q ∈ points, p.1 ≠ q.1 := by
  unfold convexHullPts convexHullQh
  by_cases h3 : points.length < 3
  · rw [if_pos h3]
    simp only [Option.map_none, ne_eq, not_true_eq_false, false_iff, not_and]
    intro h
    omega
  · have hnil : points ≠ [] := by rintro rfl; simp at h3
    have hne := minX_ne_maxX points hnil
    obtain ⟨l1, h1⟩ := minX_spec points hnil
    obtain ⟨l2, h2⟩ := maxX_spec points hnil
    rw [if_neg h3]
    by_cases he : minX points = maxX points
    · rw [if_pos he]
      simp only [Option.map_none, ne_eq, not_true_eq_false, false_iff, not_and, not_exists,
        not_not]
      intro _ p hp q hq
      obtain ⟨i, hi, rfl⟩ := exists_pt hp
      obtain ⟨j, hj, rfl⟩ := exists_pt hq
      have a1 := h1 i hi
      have a2 := h1 j hj
      have a3 := h2 i hi
      have a4 := h2 j hj
      rw [he] at a1 a2
      linarith
    · rw [if_neg he]
      simp only [Option.map_some, ne_eq, reduceCtorEq, not_false_eq_true, true_iff]
      exact ⟨by omega, _, pt_mem l1, _, pt_mem l2, ((hne).1 he).ne⟩

/-- Points which are not all on one line always have a hull. -/
theorem C42_planar_defined {points : List RPt} (hp : Planar points) : convexHullPts points ≠ none := by
  rw [C42_defined]
  obtain ⟨p, hp, q, hq, r, hr, h⟩ := hp
  constructor
  · match points with
    | [] => simp at hp
    | [a] =>
      rw [List.mem_singleton] at hp hq hr
      subst hp hq hr
      exact absurd (by unfold cross3; ring) h
    | [a, b] =>
      exfalso
      apply h
      simp only [List.mem_cons, List.not_mem_nil, or_false] at hp hq hr
      rcases hp with rfl | rfl <;> rcases hq with rfl | rfl <;> rcases hr with rfl | rfl <;>
        (unfold cross3; ring)
    | _ :: _ :: _ :: _ => simp
  · by_contra hn
    push Not at hn
    apply h
    unfold cross3
    rw [hn q hq p hp, hn r hr p hp]
    ring

open Classical in
theorem findHull_flat {points : List RPt} (hp : ¬ Planar points) (n : ℕ) {idxp : List ℕ} {a b : ℕ}
    (ha : a < points.length) (hb : b < points.length) (hi : ∀ i ∈ idxp, i < points.length) :
    findHull points n idxp a b = [] := by
  cases n with
  | zero => rfl
  | succ n =>
    unfold findHull
    by_cases hnil : idxp = []
    · rw [if_pos hnil]
    · rw [if_neg hnil]
      simp only
      rw [if_pos]
      have hd : ∀ i ∈ idxp, lineDistance (pt points a) (pt points b) (pt points i) = 0 := by
        intro i hi'
        have : cross3 (pt points a) (pt points b) (pt points i) = 0 := by
          by_contra hne
          exact hp ⟨_, pt_mem ha, _, pt_mem hb, _, pt_mem (hi i hi'), hne⟩
        unfold lineDistance
        unfold cross3 at this
        rw [show (pt points b).2 - (pt points a).2 = (pt points b).2 - (pt points a).2 from rfl,
          show ((pt points b).2 - (pt points a).2) * (pt points i).1
            - ((pt points b).1 - (pt points a).1) * (pt points i).2
            + (pt points b).1 * (pt points a).2 - (pt points a).1 * (pt points b).2 = 0 by linarith]
        simp
      have gen : ∀ (l : List ℕ) (m : ℕ × ℝ), m.2 ≤ 0 →
          (∀ i ∈ l, lineDistance (pt points a) (pt points b) (pt points i) = 0) →
          (l.foldl (fun m i =>
            if lineDistance (pt points a) (pt points b) (pt points i) > m.2 then
              (i, lineDistance (pt points a) (pt points b) (pt points i)) else m) m).2 ≤ 0 := by
        intro l
        induction l with
        | nil => exact fun m hm _ => hm
        | cons i l ih =>
          intro m hm hl
          rw [List.foldl_cons]
          apply ih
          · split
            · rw [hl i (by simp)]
            · exact hm
          · exact fun j hj => hl j (by simp [hj])
      exact gen idxp (0, -1) (by norm_num) hd

open Classical in
/-- C42 fails for points on one line, unless it is vertical: the hull has no vertices at all. -/
theorem C42_collinear_violated {points : List RPt} (hp : ¬ Planar points) (h3 : 3 ≤ points.length)
    (hx : ∃ p ∈ points, ∃ q ∈ points, p.1 ≠ q.1) : convexHullPts points = some [] := by
  have hdef := (C42_defined points).2 ⟨h3, hx⟩
  obtain ⟨hull, hh⟩ := Option.ne_none_iff_exists'.1 hdef
  obtain ⟨-, hne, rfl⟩ := convexHullPts_some hh
  rw [hh]
  have hnil : points ≠ [] := by rintro rfl; simp at h3
  obtain ⟨l1, h1⟩ := minX_spec points hnil
  obtain ⟨l2, h2⟩ := maxX_spec points hnil
  have hraw : rawHull points = [minX points, maxX points] := by
    unfold rawHull
    simp only
    rw [findHull_flat hp _ l2 l1, findHull_flat hp _ l1 l2]
    · rfl
    · intro i hi
      exact List.mem_range.1 (List.mem_of_mem_filter (List.mem_of_mem_filter hi))
    · intro i hi
      exact List.mem_range.1 (List.mem_of_mem_filter (List.mem_of_mem_filter hi))
  rw [hraw]
  have hred : redundant [minX points, maxX points] points = [maxX points, minX points] := by
    unfold redundant
    have e : List.range [minX points, maxX points].length = [0, 1] := rfl
    rw [e]
    simp only [List.flatMap_cons, List.flatMap_nil, List.append_nil, List.length_cons,
      List.length_nil]
    norm_num
    unfold collinearTest
    rw [if_pos (by ring), if_pos (by ring)]
    rfl
  unfold optimize
  rw [hred]
  simp [hne]

example : convexHullPts [(0, 0), (1, 0), (2, 0)] = some [] := by
  apply C42_collinear_violated
  · rintro ⟨p, hp, q, hq, r, hr, h⟩
    apply h
    simp only [List.mem_cons, List.not_mem_nil, or_false] at hp hq hr
    rcases hp with rfl | rfl | rfl <;> rcases hq with rfl | rfl | rfl <;>
      rcases hr with rfl | rfl | rfl <;> (unfold cross3; norm_num)
  · simp
  · exact ⟨(0, 0), by simp, (1, 0), by simp, by norm_num⟩

/-- A square with a point in the middle, a point on an edge and a repeated corner. -/
example : Planar [(0, 0), (2, 0), (1, 1), (2, 2), (1, 0), (0, 2), (2, 2)] :=
  ⟨(0, 0), by simp, (2, 0), by simp, (1, 1), by simp, by unfold cross3; norm_num⟩

end Verif.Geom
