import Verif.Model.Vertices
import Verif.Spec.Shapes
import Verif.Props.Hull
import Mathlib.Analysis.Convex.Combination
import Mathlib.Tactic.IntervalCases

/-! # C62: the corners of a primitive span its area -/

namespace Verif.Geom

open Verif.Py

set_option linter.unnecessarySeqFocus false

/-- The area with the given corners. -/
def span (vs : List RPt) : Set RPt := convexHull ℝ {v | v ∈ vs}

/-- The corners run once around: no corner is on the left of an edge while another one is on the right of
it, for all edges in the same sense. -/
def Around (vs : List RPt) : Prop :=
  (∀ (i : ℕ) (hi : i < vs.length), ∀ p ∈ vs,
    0 ≤ cross3 vs[i] (vs[(i + 1) % vs.length]'(Nat.mod_lt _ (by omega))) p) ∨
  (∀ (i : ℕ) (hi : i < vs.length), ∀ p ∈ vs,
    cross3 vs[i] (vs[(i + 1) % vs.length]'(Nat.mod_lt _ (by omega))) p ≤ 0)

/-! ## Turning and moving -/

/-- Turning and moving, as an affine map. -/
noncomputable def turnMap (c : RPt) (rot : ℝ) : RPt →ᵃ[ℝ] RPt where
  toFun p := (c.1 + (Real.cos (radians rot) * p.1 - Real.sin (radians rot) * p.2),
    c.2 + (Real.sin (radians rot) * p.1 + Real.cos (radians rot) * p.2))
  linear :=
    { toFun := fun p => (Real.cos (radians rot) * p.1 - Real.sin (radians rot) * p.2,
        Real.sin (radians rot) * p.1 + Real.cos (radians rot) * p.2)
      map_add' := by
        intro p q
        ext <;> simp <;> ring
      map_smul' := by
        intro k p
        ext <;> simp <;> ring }
  map_vadd' := by
    intro p v
    ext <;> simp <;> ring

theorem placed_eq (c : RPt) (rot : ℝ) (S : Set RPt) : placed c rot S = turnMap c rot '' S := by
  ext q
  constructor
  · rintro ⟨p, hp, rfl⟩
    exact ⟨p, hp, rfl⟩
  · rintro ⟨p, hp, rfl⟩
    exact ⟨p, hp, rfl⟩

theorem placed_convexHull (c : RPt) (rot : ℝ) (S : Set RPt) :
    placed c rot (convexHull ℝ S) = convexHull ℝ (placed c rot S) := by
  rw [placed_eq, placed_eq, AffineMap.image_convexHull]

/-- Corners turned about the origin after they were moved to `pos`. -/
theorem span_spin (pos : RPt) (rot : ℝ) (base : List RPt) :
    span ((base.map fun b => (pos.1 + b.1, pos.2 + b.2)).map (spin rot)) =
      placed (spin rot pos) rot (span base) := by
  unfold span
  rw [placed_convexHull]
  congr 1
  ext q
  simp only [Set.mem_ofPred_eq, List.mem_map, placed, exists_exists_and_eq_and]
  apply exists_congr
  intro b
  apply and_congr_right
  intro _
  rw [eq_comm]
  have : spin rot (pos.1 + b.1, pos.2 + b.2) =
      ((spin rot pos).1 + (Real.cos (radians rot) * b.1 - Real.sin (radians rot) * b.2),
        (spin rot pos).2 + (Real.sin (radians rot) * b.1 + Real.cos (radians rot) * b.2)) := by
    unfold spin cosD sinD
    ext <;> simp <;> ring
  rw [this]

theorem spin_fixed (rot : ℝ) (pos : RPt) : spin rot pos = pos ↔ pos = (0, 0) ∨ cosD rot = 1 := by
  have hsq : cosD rot ^ 2 + sinD rot ^ 2 = 1 := Real.cos_sq_add_sin_sq _
  unfold spin
  constructor
  · intro h
    have h1 := congrArg Prod.fst h
    have h2 := congrArg Prod.snd h
    simp only at h1 h2
    by_cases hc : cosD rot = 1
    · exact .inr hc
    · left
      have key : 2 * (1 - cosD rot) * (pos.1 ^ 2 + pos.2 ^ 2) = 0 := by
        have e : (pos.1 * cosD rot - pos.2 * sinD rot - pos.1) ^ 2 +
            (pos.1 * sinD rot + pos.2 * cosD rot - pos.2) ^ 2 = 0 := by rw [h1, h2]; ring
        linear_combination e - (pos.1 ^ 2 + pos.2 ^ 2) * hsq
      have hp : pos.1 ^ 2 + pos.2 ^ 2 = 0 := by
        rcases mul_eq_zero.1 key with h | h
        · exact absurd (by linarith) hc
        · exact h
      have a1 : pos.1 ^ 2 = 0 := by nlinarith [sq_nonneg pos.1, sq_nonneg pos.2]
      have a2 : pos.2 ^ 2 = 0 := by nlinarith [sq_nonneg pos.1, sq_nonneg pos.2]
      exact Prod.ext (pow_eq_zero_iff two_ne_zero |>.1 a1) (pow_eq_zero_iff two_ne_zero |>.1 a2)
  · rintro (rfl | hc)
    · simp
    · have hs : sinD rot = 0 := by
        rw [hc] at hsq
        exact pow_eq_zero_iff two_ne_zero |>.1 (by linarith)
      rw [hc, hs]
      ext <;> simp

/-- A bounded set moved by something else than zero is another set. -/
theorem placed_inj {S : Set RPt} {M : ℝ} (hM : ∀ p ∈ S, |p.1| ≤ M ∧ |p.2| ≤ M) (hne : S.Nonempty)
    {a b : RPt} {rot : ℝ} (h : placed a rot S = placed b rot S) : a = b := by
  set T := placed (0, 0) rot S with hT
  have hmem : ∀ (c q : RPt), q ∈ placed c rot S ↔ (q.1 - c.1, q.2 - c.2) ∈ T := by
    intro c q
    simp only [hT, placed, Set.mem_ofPred_eq]
    apply exists_congr
    intro p
    apply and_congr_right
    intro _
    constructor
    · rintro rfl
      ext <;> simp
    · intro e
      have e1 := congrArg Prod.fst e
      have e2 := congrArg Prod.snd e
      simp only at e1 e2
      ext
      · simp only; linarith
      · simp only; linarith
  have hstep : ∀ q ∈ T, (q.1 + (a.1 - b.1), q.2 + (a.2 - b.2)) ∈ T := by
    intro q hq
    have : (q.1 + a.1, q.2 + a.2) ∈ placed a rot S := by
      rw [hmem]
      simpa using hq
    rw [h, hmem] at this
    convert this using 2 <;> ring
  have hbound : ∀ q ∈ T, |q.1| ≤ 2 * M ∧ |q.2| ≤ 2 * M := by
    rintro q ⟨p, hp, rfl⟩
    obtain ⟨h1, h2⟩ := hM p hp
    have hc := Real.abs_cos_le_one (radians rot)
    have hs := Real.abs_sin_le_one (radians rot)
    have m : ∀ u v : ℝ, |u| ≤ 1 → |v| ≤ M → |u * v| ≤ M := by
      intro u v hu hv
      rw [abs_mul]
      calc |u| * |v| ≤ 1 * |v| := by gcongr
        _ ≤ M := by linarith
    constructor
    · simp only [zero_add]
      refine (abs_sub _ _).trans ?_
      linarith [m _ _ hc h1, m _ _ hs h2]
    · simp only [zero_add]
      refine (abs_add_le _ _).trans ?_
      linarith [m _ _ hs h1, m _ _ hc h2]
  obtain ⟨p, hp⟩ := hne
  have hiter : ∀ n : ℕ, ∃ q ∈ T, q.1 = (turnMap (0, 0) rot p).1 + n * (a.1 - b.1) ∧
      q.2 = (turnMap (0, 0) rot p).2 + n * (a.2 - b.2) := by
    intro n
    induction n with
    | zero => exact ⟨_, ⟨p, hp, rfl⟩, by simp [turnMap], by simp [turnMap]⟩
    | succ n ih =>
      obtain ⟨q, hq, e1, e2⟩ := ih
      refine ⟨_, hstep q hq, ?_, ?_⟩ <;> simp only [e1, e2] <;> push_cast <;> ring
  have zero_of : ∀ (x d : ℝ), (∀ n : ℕ, |x + n * d| ≤ 2 * M) → d = 0 := by
    intro x d hn
    by_contra hd
    obtain ⟨n, hn'⟩ := exists_nat_gt ((2 * M + |x|) / |d|)
    have hd' : 0 < |d| := abs_pos.2 hd
    rw [div_lt_iff₀ hd'] at hn'
    have h1 := hn n
    have h2 : |(n : ℝ) * d| ≤ |x + n * d| + |x| := by
      have := abs_sub (x + n * d) x
      simpa using this
    rw [abs_mul, Nat.abs_cast] at h2
    linarith
  have d1 := zero_of _ _ fun n => by
    obtain ⟨q, hq, e1, -⟩ := hiter n
    rw [← e1]
    exact (hbound q hq).1
  have d2 := zero_of _ _ fun n => by
    obtain ⟨q, hq, -, e2⟩ := hiter n
    rw [← e2]
    exact (hbound q hq).2
  exact Prod.ext (by linarith) (by linarith)

/-- A shape whose corners are turned about the origin instead of its centre. -/
theorem span_spin_iff {S : Set RPt} {M : ℝ} (hM : ∀ p ∈ S, |p.1| ≤ M ∧ |p.2| ≤ M) (hne : S.Nonempty)
    {base : List RPt} (hb : span base = S) (pos : RPt) (rot : ℝ) :
    span ((base.map fun b => (pos.1 + b.1, pos.2 + b.2)).map (spin rot)) = placed pos rot S ↔
      pos = (0, 0) ∨ cosD rot = 1 := by
  rw [span_spin, hb, ← spin_fixed]
  exact ⟨fun h => placed_inj hM hne h, fun h => by rw [h]⟩

/-! ## Rectangles, diamonds and chamfered rectangles -/

/-- A point between two points of a convex set that have the same height. -/
theorem level_mem {S : Set RPt} (hS : Convex ℝ S) {x y u v : ℝ} (hu : (u, y) ∈ S) (hv : (v, y) ∈ S)
    (h1 : u ≤ x) (h2 : x ≤ v) : (x, y) ∈ S := by
  rcases h1.eq_or_lt with rfl | h1'
  · exact hu
  · exact between_mem hS hu hv (by simp only; linarith) (by unfold cross3; simp) h1 h2

/-- A point between two points of a convex set that are above each other. -/
theorem plumb_mem {S : Set RPt} (hS : Convex ℝ S) {x y u v : ℝ} (hu : (x, u) ∈ S) (hv : (x, v) ∈ S)
    (h1 : u ≤ y) (h2 : y ≤ v) : (x, y) ∈ S := by
  rcases h1.eq_or_lt with rfl | h1'
  · exact hu
  · have hpos : 0 < v - u := by linarith
    have hx : ((x, y) : RPt) = ((v - y) / (v - u)) • ((x, u) : RPt) + ((y - u) / (v - u)) • ((x, v) : RPt) := by
      have := hpos.ne'
      apply Prod.ext
      · simp only [Prod.fst_add, Prod.smul_fst, smul_eq_mul]
        field_simp
        ring
      · simp only [Prod.snd_add, Prod.smul_snd, smul_eq_mul]
        field_simp
        ring
    rw [hx]
    refine hS hu hv (div_nonneg (by linarith) hpos.le) (div_nonneg (by linarith) hpos.le) ?_
    rw [← add_div, div_eq_one_iff_eq hpos.ne']
    ring

/-- The rectangle around the origin without the corners cut off at `a` (upper right), `b` (upper left), `c`
(lower left) and `d` (lower right). -/
def cutRect (W H a b c d : ℝ) : Set RPt :=
  {p | |p.1| ≤ W ∧ |p.2| ≤ H ∧ p.1 + p.2 ≤ W + H - a ∧ -p.1 + p.2 ≤ W + H - b ∧
    -p.1 - p.2 ≤ W + H - c ∧ p.1 - p.2 ≤ W + H - d}

theorem cutRect_convex (W H a b c d : ℝ) : Convex ℝ (cutRect W H a b c d) := by
  intro p hp q hq s t hs ht hst
  obtain ⟨p1, p2, p3, p4, p5, p6⟩ := hp
  obtain ⟨q1, q2, q3, q4, q5, q6⟩ := hq
  rw [abs_le] at p1 p2 q1 q2
  have ht' : t = 1 - s := by linarith
  subst ht'
  have comb : ∀ (f g k : ℝ), f ≤ k → g ≤ k → s * f + (1 - s) * g ≤ k := by
    intro f g k hf hg
    nlinarith [mul_nonneg hs (sub_nonneg.2 hf), mul_nonneg ht (sub_nonneg.2 hg)]
  refine ⟨abs_le.2 ⟨?_, ?_⟩, abs_le.2 ⟨?_, ?_⟩, ?_, ?_, ?_, ?_⟩ <;>
    simp only [Prod.fst_add, Prod.snd_add, Prod.smul_fst, Prod.smul_snd, smul_eq_mul]
  · linarith [comb (-p.1) (-q.1) W (by linarith) (by linarith)]
  · exact comb _ _ _ p1.2 q1.2
  · linarith [comb (-p.2) (-q.2) H (by linarith) (by linarith)]
  · exact comb _ _ _ p2.2 q2.2
  · linarith [comb _ _ _ p3 q3]
  · linarith [comb _ _ _ p4 q4]
  · linarith [comb _ _ _ p5 q5]
  · linarith [comb _ _ _ p6 q6]

/-- The corners of such a rectangle span it. -/
theorem cutRect_span {W H a b c d : ℝ} (ha : 0 ≤ a) (hb : 0 ≤ b) (hc : 0 ≤ c) (hd : 0 ≤ d)
    (hab : a + b ≤ 2 * W) (hcd : c + d ≤ 2 * W) (had : a + d ≤ 2 * H) (hbc : b + c ≤ 2 * H)
    {V : Set RPt} (hV : V = {(W - a, H), (W, H - a), (-W + b, H), (-W, H - b), (-W + c, -H), (-W, -H + c),
      (W - d, -H), (W, -H + d)}) : convexHull ℝ V = cutRect W H a b c d := by
  apply Set.Subset.antisymm
  · apply convexHull_min _ (cutRect_convex ..)
    rw [hV]
    intro v hv
    simp only [Set.mem_insert_iff, Set.mem_singleton_iff] at hv
    rcases hv with rfl | rfl | rfl | rfl | rfl | rfl | rfl | rfl <;>
      refine ⟨abs_le.2 ⟨?_, ?_⟩, abs_le.2 ⟨?_, ?_⟩, ?_, ?_, ?_, ?_⟩ <;> simp only <;> linarith
  · rintro ⟨x, y⟩ ⟨h1, h2, h3, h4, h5, h6⟩
    simp only at h1 h2 h3 h4 h5 h6
    rw [abs_le] at h1 h2
    have hS := convex_convexHull ℝ V
    have mem : ∀ v ∈ V, v ∈ convexHull ℝ V := fun v hv => subset_convexHull ℝ V hv
    have m1 := mem (W - a, H) (by simp [hV])
    have m2 := mem (W, H - a) (by simp [hV])
    have m3 := mem (-W + b, H) (by simp [hV])
    have m4 := mem (-W, H - b) (by simp [hV])
    have m5 := mem (-W + c, -H) (by simp [hV])
    have m6 := mem (-W, -H + c) (by simp [hV])
    have m7 := mem (W - d, -H) (by simp [hV])
    have m8 := mem (W, -H + d) (by simp [hV])
    have right : ∃ X, x ≤ X ∧ (X, y) ∈ convexHull ℝ V := by
      by_cases hy : H - a ≤ y
      · refine ⟨W + H - a - y, by linarith, ?_⟩
        rcases ha.eq_or_lt with rfl | ha'
        · have : y = H := by linarith
          subst this
          convert m1 using 2
          ring
        · exact between_mem hS m1 m2 (by simp only; linarith) (by unfold cross3; simp only; ring)
            (by simp only; linarith) (by simp only; linarith)
      · by_cases hy' : y ≤ -H + d
        · refine ⟨W + H - d + y, by linarith, ?_⟩
          rcases hd.eq_or_lt with rfl | hd'
          · have : y = -H := by linarith
            subst this
            convert m7 using 2
            ring
          · exact between_mem hS m7 m8 (by simp only; linarith) (by unfold cross3; simp only; ring)
              (by simp only; linarith) (by simp only; linarith)
        · exact ⟨W, h1.2, plumb_mem hS m8 m2 (by linarith) (by linarith)⟩
    have left : ∃ X, X ≤ x ∧ (X, y) ∈ convexHull ℝ V := by
      by_cases hy : H - b ≤ y
      · refine ⟨-(W + H - b - y), by linarith, ?_⟩
        rcases hb.eq_or_lt with rfl | hb'
        · have : y = H := by linarith
          subst this
          convert m3 using 2
          ring
        · exact between_mem hS m4 m3 (by simp only; linarith) (by unfold cross3; simp only; ring)
            (by simp only; linarith) (by simp only; linarith)
      · by_cases hy' : y ≤ -H + c
        · refine ⟨-(W + H - c + y), by linarith, ?_⟩
          rcases hc.eq_or_lt with rfl | hc'
          · have : y = -H := by linarith
            subst this
            convert m5 using 2
            ring
          · exact between_mem hS m6 m5 (by simp only; linarith) (by unfold cross3; simp only; ring)
              (by simp only; linarith) (by simp only; linarith)
        · exact ⟨-W, h1.1, plumb_mem hS m6 m4 (by linarith) (by linarith)⟩
    obtain ⟨X, hX, mX⟩ := right
    obtain ⟨Y, hY, mY⟩ := left
    exact level_mem hS mY mX hY hX

theorem cutRect_zero (w h : ℝ) : cutRect (w / 2) (h / 2) 0 0 0 0 = slab w h := by
  ext p
  simp only [cutRect, slab, Set.mem_ofPred_eq]
  constructor
  · exact fun h => ⟨h.1, h.2.1⟩
  · rintro ⟨h1, h2⟩
    refine ⟨h1, h2, ?_⟩
    rw [abs_le] at h1 h2
    refine ⟨?_, ?_, ?_, ?_⟩ <;> linarith

/-- The corners of a rectangle around the origin span it. -/
theorem slab_span {w h : ℝ} (hw : 0 ≤ w) (hh : 0 ≤ h) :
    span [(-(w / 2), -(h / 2)), (-(w / 2), h / 2), (w / 2, h / 2), (w / 2, -(h / 2))] = slab w h := by
  rw [← cutRect_zero]
  unfold span
  apply cutRect_span <;> try linarith
  ext v
  simp only [Set.mem_ofPred_eq, List.mem_cons, List.not_mem_nil, or_false, Set.mem_insert_iff,
    Set.mem_singleton_iff, sub_zero, add_zero]
  tauto

theorem slab_bound (w h : ℝ) : ∀ p ∈ slab w h, |p.1| ≤ |w| + |h| ∧ |p.2| ≤ |w| + |h| := by
  rintro p ⟨h1, h2⟩
  have := le_abs_self w
  have := le_abs_self h
  have := abs_nonneg w
  have := abs_nonneg h
  constructor <;> linarith

theorem rect_eq (pos : RPt) (w h rot : ℝ) : rectVertices pos w h rot =
    ([(-(w / 2), -(h / 2)), (-(w / 2), h / 2), (w / 2, h / 2), (w / 2, -(h / 2))].map
      fun b : RPt => (pos.1 + b.1, pos.2 + b.2)).map (spin rot) := by
  unfold rectVertices
  simp [sub_eq_add_neg]

/-- **C62 for rectangles**: the corners span the rectangle, turned about its centre, exactly if it is not
turned or its centre is the origin: they are turned about the origin. -/
theorem C62_rectangle_iff (pos : RPt) {w h : ℝ} (hw : 0 ≤ w) (hh : 0 ≤ h) (rot : ℝ) :
    span (rectVertices pos w h rot) = placed pos rot (slab w h) ↔ pos = (0, 0) ∨ cosD rot = 1 := by
  rw [rect_eq]
  refine span_spin_iff (slab_bound w h) ⟨(0, 0), ?_⟩ (slab_span hw hh) pos rot
  exact ⟨by simpa using by linarith, by simpa using by linarith⟩


theorem cosD_90 : cosD 90 = 0 := by
  unfold cosD
  rw [show radians 90 = Real.pi / 2 by unfold radians; ring]
  exact Real.cos_pi_div_two

/-- A rectangle at (5, 1), lying: its corners are right.  The same standing upright: they are somewhere
else. -/
example : span (rectVertices (5, 1) 4 2 0) = placed (5, 1) 0 (slab 4 2) ∧
    span (rectVertices (5, 1) 4 2 90) ≠ placed (5, 1) 90 (slab 4 2) := by
  refine ⟨(C62_rectangle_iff _ (by norm_num) (by norm_num) 0).2 (.inr ?_), fun h => ?_⟩
  · simp [cosD, radians]
  · rcases (C62_rectangle_iff _ (by norm_num) (by norm_num) 90).1 h with h | h
    · simp at h
    · rw [cosD_90] at h
      norm_num at h

/-- A slanted point between two points of a convex set. -/
theorem mix_mem {S : Set RPt} (hS : Convex ℝ S) {p q : RPt} (hp : p ∈ S) (hq : q ∈ S) {t : ℝ} (h0 : 0 ≤ t)
    (h1 : t ≤ 1) : ((1 - t) * p.1 + t * q.1, (1 - t) * p.2 + t * q.2) ∈ S := by
  have := hS hp hq (by linarith : (0 : ℝ) ≤ 1 - t) h0 (by ring)
  convert this using 1
  ext <;> simp

/-- The corners of a diamond around the origin span it. -/
theorem rhombus_span {w h : ℝ} (hw : 0 ≤ w) :
    span [(0, h / 2), (w / 2, 0), (0, -(h / 2)), (-(w / 2), 0)] = rhombus w h := by
  apply Set.Subset.antisymm
  · apply convexHull_min
    · intro p hp
      simp only [Set.mem_ofPred_eq, List.mem_cons, List.not_mem_nil, or_false] at hp
      rcases hp with rfl | rfl | rfl | rfl
      · exact ⟨0, 1, by simp, by simp⟩
      · exact ⟨1, 0, by simp, by simp⟩
      · exact ⟨0, -1, by simp, by simp⟩
      · exact ⟨-1, 0, by simp, by simp⟩
    · rintro p ⟨u, v, huv, rfl⟩ q ⟨u', v', huv', rfl⟩ s t hs ht hst
      refine ⟨s * u + t * u', s * v + t * v', ?_, ?_⟩
      · have e1 := abs_add_le (s * u) (t * u')
        have e2 := abs_add_le (s * v) (t * v')
        rw [abs_mul, abs_mul, abs_of_nonneg hs, abs_of_nonneg ht] at e1 e2
        nlinarith
      · ext <;> simp <;> ring
  · rintro p ⟨u, v, huv, rfl⟩
    have hS : Convex ℝ (span [(0, h / 2), (w / 2, 0), (0, -(h / 2)), (-(w / 2), 0)]) := convex_convexHull ℝ _
    have mem : ∀ q ∈ [((0 : ℝ), h / 2), (w / 2, 0), (0, -(h / 2)), (-(w / 2), 0)],
        q ∈ span [(0, h / 2), (w / 2, 0), (0, -(h / 2)), (-(w / 2), 0)] :=
      fun q hq => subset_convexHull ℝ _ hq
    have m1 := mem (0, h / 2) (by simp)
    have m2 := mem (w / 2, 0) (by simp)
    have m3 := mem (0, -(h / 2)) (by simp)
    have m4 := mem (-(w / 2), 0) (by simp)
    generalize span [(0, h / 2), (w / 2, 0), (0, -(h / 2)), (-(w / 2), 0)] = T at *
    have hv1 : |v| ≤ 1 := by linarith [abs_nonneg u]
    have hu := abs_le.1 (show |u| ≤ 1 - |v| by linarith)
    have right : (w / 2 * (1 - |v|), h / 2 * v) ∈ T := by
      rcases abs_cases v with ⟨e, -⟩ | ⟨e, -⟩
      · rw [e] at hv1 ⊢
        convert mix_mem hS m2 m1 (t := v) (by rw [← e]; exact abs_nonneg v) hv1 using 2 <;> simp <;> ring
      · rw [e] at hv1 ⊢
        convert mix_mem hS m2 m3 (t := -v) (by rw [← e]; exact abs_nonneg v) hv1 using 2 <;> simp <;> ring
    have left : (-(w / 2 * (1 - |v|)), h / 2 * v) ∈ T := by
      rcases abs_cases v with ⟨e, -⟩ | ⟨e, -⟩
      · rw [e] at hv1 ⊢
        convert mix_mem hS m4 m1 (t := v) (by rw [← e]; exact abs_nonneg v) hv1 using 2 <;> simp <;> ring
      · rw [e] at hv1 ⊢
        convert mix_mem hS m4 m3 (t := -v) (by rw [← e]; exact abs_nonneg v) hv1 using 2 <;> simp <;> ring
    exact level_mem hS left right (by nlinarith) (by nlinarith)

theorem rhombus_bound (w h : ℝ) : ∀ p ∈ rhombus w h, |p.1| ≤ |w| + |h| ∧ |p.2| ≤ |w| + |h| := by
  rintro p ⟨u, v, huv, rfl⟩
  have hu := abs_nonneg u
  have hv := abs_nonneg v
  have hw := abs_nonneg w
  have hh := abs_nonneg h
  simp only [abs_mul, abs_div, abs_two]
  constructor <;> nlinarith

theorem diamond_eq (pos : RPt) (w h rot : ℝ) : diamondVertices pos w h rot =
    ([(0, h / 2), (w / 2, 0), (0, -(h / 2)), (-(w / 2), 0)].map
      fun b : RPt => (pos.1 + b.1, pos.2 + b.2)).map (spin rot) := by
  unfold diamondVertices
  simp [sub_eq_add_neg]

/-- **C62 for diamonds.** -/
theorem C62_diamond_iff (pos : RPt) {w h : ℝ} (hw : 0 ≤ w) (rot : ℝ) :
    span (diamondVertices pos w h rot) = placed pos rot (rhombus w h) ↔ pos = (0, 0) ∨ cosD rot = 1 := by
  rw [diamond_eq]
  exact span_spin_iff (rhombus_bound w h) ⟨(0, 0), 0, 0, by simp, by simp⟩ (rhombus_span hw) pos rot

/-- The rectangle of the given size around the origin with the corners named by `corners` (upper right, upper
left, lower left, lower right) cut off at the distance `c`. -/
def chamfered (w h c : ℝ) (corners : Fin 4 → Bool) : Set RPt :=
  {p | p ∈ slab w h ∧ (corners 0 → p.1 + p.2 ≤ w / 2 + h / 2 - c) ∧
    (corners 1 → -p.1 + p.2 ≤ w / 2 + h / 2 - c) ∧ (corners 2 → -p.1 - p.2 ≤ w / 2 + h / 2 - c) ∧
    (corners 3 → p.1 - p.2 ≤ w / 2 + h / 2 - c)}

/-- The corners of a chamfered rectangle around the origin, as the code lists them. -/
noncomputable def chamferBase (w h c : ℝ) (k : Fin 4 → Bool) : List RPt :=
  chamferCorner c 0 (w / 2, h / 2) (k 0) ++ chamferCorner c 1 (-(w / 2), h / 2) (k 1) ++
    chamferCorner c 2 (-(w / 2), -(h / 2)) (k 2) ++ chamferCorner c 3 (w / 2, -(h / 2)) (k 3)

theorem chamferCorner_move (c : ℝ) (i : ℕ) (a b x y : ℝ) (k : Bool) :
    chamferCorner c i (x + a, y + b) k =
      (chamferCorner c i (a, b) k).map fun q : RPt => (x + q.1, y + q.2) := by
  unfold chamferCorner
  simp only
  split
  · split
    · simp; constructor <;> ring
    split
    · simp; constructor <;> ring
    split
    · simp; constructor <;> ring
    split
    · simp; constructor <;> ring
    · rfl
  · rfl

theorem chamfer_eq (pos : RPt) (w h c : ℝ) (k : Fin 4 → Bool) (rot : ℝ) :
    chamferVertices pos w h c (List.ofFn k) rot =
    ((chamferBase w h c k).map fun b : RPt => (pos.1 + b.1, pos.2 + b.2)).map (spin rot) := by
  unfold chamferVertices chamferBase
  have e : (List.ofFn k) = [k 0, k 1, k 2, k 3] := by simp [List.ofFn_succ]
  rw [e]
  simp only [List.zip_cons_cons, List.zip_nil_right, List.zipIdx_cons, List.zipIdx_nil, List.flatMap_cons,
    List.flatMap_nil, List.append_nil, sub_eq_add_neg, chamferCorner_move, List.map_append, List.append_assoc,
    zero_add, Nat.reduceAdd]

theorem chamfered_span {w h c : ℝ} (hc : 0 ≤ c) (hw : 2 * c ≤ w) (hh : 2 * c ≤ h) (k : Fin 4 → Bool) :
    span (chamferBase w h c k) = chamfered w h c k := by
  have e : chamfered w h c k = cutRect (w / 2) (h / 2) (if k 0 then c else 0) (if k 1 then c else 0)
      (if k 2 then c else 0) (if k 3 then c else 0) := by
    ext p
    simp only [chamfered, cutRect, slab, Set.mem_ofPred_eq, and_assoc]
    apply and_congr_right
    intro h1
    apply and_congr_right
    intro h2
    rw [abs_le] at h1 h2
    have aux : ∀ (b : Bool) (f : ℝ), f ≤ w / 2 + h / 2 →
        ((b = true → f ≤ w / 2 + h / 2 - c) ↔ f ≤ w / 2 + h / 2 - (if b then c else 0)) := by
      intro b f hf
      cases b
      · simpa using hf
      · simp
    rw [aux _ _ (by linarith), aux _ _ (by linarith), aux _ _ (by linarith), aux _ _ (by linarith)]
  rw [e]
  unfold span
  have hif : ∀ b : Bool, 0 ≤ (if b then c else 0) ∧ (if b then c else 0) ≤ c := by
    intro b
    cases b <;> simp [hc]
  have h0 := hif (k 0)
  have h1 := hif (k 1)
  have h2 := hif (k 2)
  have h3 := hif (k 3)
  apply cutRect_span h0.1 h1.1 h2.1 h3.1 (by linarith) (by linarith) (by linarith) (by linarith)
  ext v
  simp only [chamferBase, List.mem_append, Set.mem_ofPred_eq, Set.mem_insert_iff, Set.mem_singleton_iff]
  have c0 : v ∈ chamferCorner c 0 (w / 2, h / 2) (k 0) ↔
      v = (w / 2 - (if k 0 then c else 0), h / 2) ∨ v = (w / 2, h / 2 - (if k 0 then c else 0)) := by
    cases k 0 <;> simp [chamferCorner]
  have c1 : v ∈ chamferCorner c 1 (-(w / 2), h / 2) (k 1) ↔
      v = (-(w / 2) + (if k 1 then c else 0), h / 2) ∨ v = (-(w / 2), h / 2 - (if k 1 then c else 0)) := by
    cases k 1 <;> simp [chamferCorner]
  have c2 : v ∈ chamferCorner c 2 (-(w / 2), -(h / 2)) (k 2) ↔
      v = (-(w / 2) + (if k 2 then c else 0), -(h / 2)) ∨
        v = (-(w / 2), -(h / 2) + (if k 2 then c else 0)) := by
    cases k 2 <;> simp [chamferCorner]
  have c3 : v ∈ chamferCorner c 3 (w / 2, -(h / 2)) (k 3) ↔
      v = (w / 2 - (if k 3 then c else 0), -(h / 2)) ∨ v = (w / 2, -(h / 2) + (if k 3 then c else 0)) := by
    cases k 3 <;> simp [chamferCorner]
  rw [c0, c1, c2, c3]
  simp only [or_assoc]

/-- **C62 for chamfered rectangles** (chamfers that do not overlap). -/
theorem C62_chamfer_iff (pos : RPt) {w h c : ℝ} (hc : 0 ≤ c) (hw : 2 * c ≤ w) (hh : 2 * c ≤ h)
    (k : Fin 4 → Bool) (rot : ℝ) :
    span (chamferVertices pos w h c (List.ofFn k) rot) = placed pos rot (chamfered w h c k) ↔
      pos = (0, 0) ∨ cosD rot = 1 := by
  rw [chamfer_eq]
  refine span_spin_iff (M := |w| + |h|) (fun p hp => slab_bound w h p hp.1) ⟨(0, 0), ?_⟩
    (chamfered_span hc hw hh k) pos rot
  refine ⟨⟨?_, ?_⟩, ?_, ?_, ?_, ?_⟩ <;> simp <;> (try intro _) <;> linarith


/-- A rectangle with its upper corners cut off, at the origin and upright. -/
example : span (chamferVertices (0, 0) 4 2 1 (List.ofFn ![true, true, false, false]) 90) =
    placed (0, 0) 90 (chamfered 4 2 1 ![true, true, false, false]) :=
  (C62_chamfer_iff _ (by norm_num) (by norm_num) (by norm_num) _ _).2 (.inl rfl)

/-! ## The order of the corners -/

theorem cross3_spin (rot : ℝ) (x : RPt) (u v z : RPt) :
    cross3 (spin rot (x.1 + u.1, x.2 + u.2)) (spin rot (x.1 + v.1, x.2 + v.2))
      (spin rot (x.1 + z.1, x.2 + z.2)) = cross3 u v z := by
  have hsq : cosD rot ^ 2 + sinD rot ^ 2 = 1 := Real.cos_sq_add_sin_sq _
  unfold cross3 spin
  simp only
  linear_combination ((v.1 - u.1) * (z.2 - u.2) - (v.2 - u.2) * (z.1 - u.1)) * hsq

/-- The order of the corners does not depend on place and rotation. -/
theorem around_spin (x : RPt) (rot : ℝ) (base : List RPt) :
    Around ((base.map fun b => (x.1 + b.1, x.2 + b.2)).map (spin rot)) ↔ Around base := by
  unfold Around
  simp only [List.map_map, List.length_map, List.getElem_map, List.mem_map, forall_exists_index, and_imp,
    forall_apply_eq_imp_iff₂, Function.comp_apply, cross3_spin]

/-- **C62 for rectangles**: the corners run around it. -/
theorem C62_rectangle_around (pos : RPt) {w h : ℝ} (hw : 0 ≤ w) (hh : 0 ≤ h) (rot : ℝ) :
    Around (rectVertices pos w h rot) := by
  rw [rect_eq, around_spin]
  have := mul_nonneg hw hh
  right
  intro i hi p hp
  simp only [List.length_cons, List.length_nil] at hi
  simp only [List.mem_cons, List.not_mem_nil, or_false] at hp
  interval_cases i <;> rcases hp with rfl | rfl | rfl | rfl <;> simp [cross3] <;> nlinarith

/-- **C62 for diamonds**: the corners run around it. -/
theorem C62_diamond_around (pos : RPt) {w h : ℝ} (hw : 0 ≤ w) (hh : 0 ≤ h) (rot : ℝ) :
    Around (diamondVertices pos w h rot) := by
  rw [diamond_eq, around_spin]
  have := mul_nonneg hw hh
  right
  intro i hi p hp
  simp only [List.length_cons, List.length_nil] at hi
  simp only [List.mem_cons, List.not_mem_nil, or_false] at hp
  interval_cases i <;> rcases hp with rfl | rfl | rfl | rfl <;> simp [cross3] <;> nlinarith

/-- **C62 fails for the order of the corners of chamfered rectangles**: if the upper right corner is cut off,
its two corners are listed the wrong way round, and the outline crosses itself. -/
theorem C62_chamfer_order_violated (pos : RPt) {w h c : ℝ} (hc : 0 < c) (hw : 2 * c < w) (hh : 2 * c < h)
    (k : Fin 4 → Bool) (hk : k 0 = true) (rot : ℝ) :
    ¬ Around (chamferVertices pos w h c (List.ofFn k) rot) := by
  rw [chamfer_eq, around_spin]
  obtain ⟨a, rest, ha, hrest⟩ : ∃ a rest, a < w / 2 - c ∧ chamferCorner c 1 (-(w / 2), h / 2) (k 1) =
      (a, h / 2) :: rest := by
    cases k 1
    · exact ⟨-(w / 2), [], by linarith, by simp [chamferCorner]⟩
    · exact ⟨-(w / 2) + c, [(-(w / 2), h / 2 - c)], by linarith, by simp [chamferCorner]⟩
  obtain ⟨b, rest', hb, hrest'⟩ : ∃ b rest', b ≤ -(w / 2) + c ∧ chamferCorner c 2 (-(w / 2), -(h / 2)) (k 2) =
      (b, -(h / 2)) :: rest' := by
    cases k 2
    · exact ⟨-(w / 2), [], by linarith, by simp [chamferCorner]⟩
    · exact ⟨-(w / 2) + c, [(-(w / 2), -(h / 2) + c)], by linarith, by simp [chamferCorner]⟩
  have e : ∃ more, chamferBase w h c k = (w / 2 - c, h / 2) :: (w / 2, h / 2 - c) :: (a, h / 2) :: more ∧
      (b, -(h / 2)) ∈ more := by
    refine ⟨rest ++ ((b, -(h / 2)) :: rest') ++ chamferCorner c 3 (w / 2, -(h / 2)) (k 3), ?_, by simp⟩
    unfold chamferBase
    rw [hrest, hrest', hk]
    simp [chamferCorner]
  obtain ⟨more, e, hm⟩ := e
  rw [e]
  rintro (hA | hA)
  · have := hA 1 (by simp) (w / 2 - c, h / 2) (by simp)
    simp [cross3, Nat.mod_eq_of_lt] at this
    nlinarith
  · have := hA 1 (by simp) (b, -(h / 2)) (by simp [hm])
    simp [cross3, Nat.mod_eq_of_lt] at this
    nlinarith [mul_pos hc hc]

/-! ## Regular polygons -/

/-- **C62 for polygons**: the corners span the regular polygon, turned about its centre. -/
theorem C62_polygon (pos : RPt) {n : ℕ} (hn : n ≠ 0) (r rot : ℝ) :
    ∃ vs, polygonVertices pos n r rot = .ok vs ∧ vs.length = n ∧ span vs = placed pos rot (regular n r) := by
  refine ⟨_, if_neg hn, by simp, ?_⟩
  unfold regular span
  rw [placed_convexHull]
  congr 1
  have hn' : (n : ℝ) ≠ 0 := Nat.cast_ne_zero.2 hn
  ext q
  simp only [Set.mem_ofPred_eq, List.mem_map, List.mem_range, placed]
  constructor
  · rintro ⟨i, hi, rfl⟩
    refine ⟨_, ⟨i, hi, rfl⟩, ?_⟩
    have e : radians (rot + 360 / (n : ℝ) * i) = radians rot + 2 * Real.pi * i / n := by
      unfold radians
      field_simp
      ring
    unfold rotatePoint
    simp only [e, Real.cos_add, Real.sin_add]
    ext <;> simp <;> ring
  · rintro ⟨p, ⟨i, hi, rfl⟩, rfl⟩
    refine ⟨i, hi, ?_⟩
    have e : radians (rot + 360 / (n : ℝ) * i) = radians rot + 2 * Real.pi * i / n := by
      unfold radians
      field_simp
      ring
    unfold rotatePoint
    simp only [e, Real.cos_add, Real.sin_add]
    ext <;> simp <;> ring

/-- Three points of a circle. -/
theorem cross3_circle (c : RPt) (r α β γ : ℝ) :
    cross3 (onCircle c r (2 * α)) (onCircle c r (2 * β)) (onCircle c r (2 * γ)) =
      4 * r ^ 2 * (Real.sin (β - α) * Real.sin (γ - β) * Real.sin (γ - α)) := by
  have e : cross3 (onCircle c r (2 * α)) (onCircle c r (2 * β)) (onCircle c r (2 * γ)) =
      r ^ 2 * (Real.sin (2 * β - 2 * α) + Real.sin (2 * γ - 2 * β) - Real.sin (2 * γ - 2 * α)) := by
    unfold cross3 onCircle
    simp only [Real.sin_sub]
    ring
  rw [e]
  obtain ⟨x, hx⟩ : ∃ x, x = β - α := ⟨_, rfl⟩
  obtain ⟨y, hy⟩ : ∃ y, y = γ - β := ⟨_, rfl⟩
  rw [show 2 * β - 2 * α = 2 * x by rw [hx]; ring, show 2 * γ - 2 * β = 2 * y by rw [hy]; ring,
    show 2 * γ - 2 * α = 2 * (x + y) by rw [hx, hy]; ring, show γ - α = x + y by rw [hx, hy]; ring,
    ← hx, ← hy]
  have cx := Real.sin_sq_add_cos_sq x
  have cy := Real.sin_sq_add_cos_sq y
  rw [Real.sin_two_mul (x + y), Real.sin_two_mul, Real.sin_two_mul, Real.sin_add, Real.cos_add]
  generalize Real.sin x = a at *
  generalize Real.sin y = b at *
  generalize Real.cos x = a' at *
  generalize Real.cos y = b' at *
  linear_combination (-2 * r ^ 2 * b * b') * cx + (-2 * r ^ 2 * a * a') * cy

/-- **C62 for polygons**: the corners run around it. -/
theorem C62_polygon_around (pos : RPt) {n : ℕ} (r rot : ℝ) {vs : List RPt}
    (h : polygonVertices pos n r rot = .ok vs) : Around vs := by
  unfold polygonVertices at h
  split at h
  · cases h
  rename_i hn
  injection h with h
  have hn0 : 0 < n := Nat.pos_of_ne_zero hn
  have hn' : (0 : ℝ) < n := Nat.cast_pos.2 hn0
  set f : ℕ → RPt := fun i => onCircle pos r (2 * (radians rot / 2 + Real.pi * i / n)) with hf
  have hv : vs = (List.range n).map f := by
    rw [← h]
    apply List.map_congr_left
    intro i _
    have e : radians (rot + 360 / (n : ℝ) * i) = 2 * (radians rot / 2 + Real.pi * i / n) := by
      unfold radians
      field_simp
      ring
    simp only [rotatePoint, e, hf, onCircle]
    ext <;> simp <;> ring
  have hlen : vs.length = n := by rw [hv]; simp
  have hget : ∀ (i : ℕ) (hi : i < vs.length), vs[i] = f i := by
    intro i hi
    simp [hv]
  have hper : f n = f 0 := by
    simp only [hf, onCircle]
    have e : 2 * (radians rot / 2 + Real.pi * (n : ℝ) / n) =
        2 * (radians rot / 2 + Real.pi * ((0 : ℕ) : ℝ) / n) + 2 * Real.pi := by
      field_simp
      simp
      ring
    rw [e, Real.cos_add_two_pi, Real.sin_add_two_pi]
  left
  intro i hi p hp
  rw [hv, List.mem_map] at hp
  obtain ⟨j, hj, rfl⟩ := hp
  rw [List.mem_range] at hj
  rw [hget, hget]
  have hnext : f ((i + 1) % vs.length) = f (i + 1) := by
    rw [hlen] at hi ⊢
    rcases Nat.lt_or_ge (i + 1) n with h1 | h1
    · rw [Nat.mod_eq_of_lt h1]
    · have : i + 1 = n := by omega
      rw [this, Nat.mod_self, hper]
  rw [hnext]
  simp only [hf, cross3_circle]
  have hpi := Real.pi_pos
  have s1 : 0 ≤ Real.sin (radians rot / 2 + Real.pi * ((i + 1 : ℕ) : ℝ) / n -
      (radians rot / 2 + Real.pi * (i : ℝ) / n)) := by
    have e : radians rot / 2 + Real.pi * ((i + 1 : ℕ) : ℝ) / n - (radians rot / 2 + Real.pi * (i : ℝ) / n) =
        Real.pi / n := by
      push_cast
      field_simp
      ring
    rw [e]
    apply Real.sin_nonneg_of_nonneg_of_le_pi (by positivity)
    apply div_le_self hpi.le
    exact_mod_cast hn0
  have e2 : radians rot / 2 + Real.pi * (j : ℝ) / n - (radians rot / 2 + Real.pi * ((i + 1 : ℕ) : ℝ) / n) =
      Real.pi * (((j : ℝ) - i - 1) / n) := by
    push_cast
    field_simp
    ring
  have e3 : radians rot / 2 + Real.pi * (j : ℝ) / n - (radians rot / 2 + Real.pi * (i : ℝ) / n) =
      Real.pi * (((j : ℝ) - i) / n) := by
    field_simp
    ring
  rw [e2, e3]
  have hi' : i < n := by rw [← hlen]; exact hi
  have hin : (i : ℝ) + 1 ≤ n := by exact_mod_cast hi'
  have hjn : (j : ℝ) + 1 ≤ n := by exact_mod_cast hj
  have hi0 : (0 : ℝ) ≤ i := Nat.cast_nonneg i
  have hj0 : (0 : ℝ) ≤ j := Nat.cast_nonneg j
  rw [mul_assoc (Real.sin _)]
  refine mul_nonneg (by positivity) (mul_nonneg s1 ?_)
  rcases Nat.lt_or_ge i j with hij | hij
  · have hij' : (i : ℝ) + 1 ≤ j := by exact_mod_cast hij
    apply mul_nonneg <;> apply Real.sin_nonneg_of_nonneg_of_le_pi
    · exact mul_nonneg hpi.le (div_nonneg (by linarith) hn'.le)
    · exact mul_le_of_le_one_right hpi.le ((div_le_one hn').2 (by linarith))
    · exact mul_nonneg hpi.le (div_nonneg (by linarith) hn'.le)
    · exact mul_le_of_le_one_right hpi.le ((div_le_one hn').2 (by linarith))
  · have hij' : (j : ℝ) ≤ i := by exact_mod_cast hij
    apply mul_nonneg_of_nonpos_of_nonpos <;> apply Real.sin_nonpos_of_nonpos_of_neg_pi_le
    · exact mul_nonpos_of_nonneg_of_nonpos hpi.le (div_nonpos_of_nonpos_of_nonneg (by linarith) hn'.le)
    · have : -1 ≤ ((j : ℝ) - i - 1) / n := by rw [le_div_iff₀ hn']; linarith
      nlinarith
    · exact mul_nonpos_of_nonneg_of_nonpos hpi.le (div_nonpos_of_nonpos_of_nonneg (by linarith) hn'.le)
    · have : -1 ≤ ((j : ℝ) - i) / n := by rw [le_div_iff₀ hn']; linarith
      nlinarith

/-! ## Lines drawn with a rectangle -/

theorem straight_eq (s e : RPt) : straight s e = convexHull ℝ {s, e} := by
  rw [convexHull_pair, segment_eq_image']
  ext q
  simp only [straight, Set.mem_ofPred_eq, Set.mem_image, Set.mem_Icc, and_assoc]
  apply exists_congr
  intro t
  apply and_congr_right
  intro _
  apply and_congr_right
  intro _
  rw [eq_comm]
  have : s + t • (e - s) = (s.1 + t * (e.1 - s.1), s.2 + t * (e.2 - s.2)) := by ext <;> simp
  rw [this]

open Pointwise in
theorem swept_eq (A B : Set RPt) : swept A B = A + B := by
  ext q
  simp only [swept, Set.mem_ofPred_eq, Set.mem_add]
  constructor
  · rintro ⟨c, hc, p, hp, rfl⟩
    exact ⟨c, hc, p, hp, rfl⟩
  · rintro ⟨c, hc, p, hp, rfl⟩
    exact ⟨c, hc, p, hp, rfl⟩

open Pointwise in
/-- The corners at both ends span the area swept. -/
theorem endCorners_span (s e : RPt) {w h : ℝ} (hw : 0 ≤ w) (hh : 0 ≤ h) :
    span (endCorners s e w h) = swept (straight s e) (slab w h) := by
  rw [swept_eq, straight_eq, ← slab_span hw hh]
  unfold span
  rw [← convexHull_add]
  congr 1
  ext q
  simp only [endCorners, Set.mem_add, Set.mem_ofPred_eq, List.mem_cons, List.not_mem_nil, or_false,
    Set.mem_insert_iff, Set.mem_singleton_iff]
  constructor
  · rintro (rfl | rfl | rfl | rfl | rfl | rfl | rfl | rfl)
    · exact ⟨s, .inl rfl, (-(w / 2), -(h / 2)), by simp, (by ext <;> simp <;> ring)⟩
    · exact ⟨s, .inl rfl, (w / 2, -(h / 2)), by simp, (by ext <;> simp <;> ring)⟩
    · exact ⟨s, .inl rfl, (-(w / 2), h / 2), by simp, (by ext <;> simp <;> ring)⟩
    · exact ⟨s, .inl rfl, (w / 2, h / 2), by simp, by ext <;> simp⟩
    · exact ⟨e, .inr rfl, (-(w / 2), -(h / 2)), by simp, (by ext <;> simp <;> ring)⟩
    · exact ⟨e, .inr rfl, (w / 2, -(h / 2)), by simp, (by ext <;> simp <;> ring)⟩
    · exact ⟨e, .inr rfl, (-(w / 2), h / 2), by simp, (by ext <;> simp <;> ring)⟩
    · exact ⟨e, .inr rfl, (w / 2, h / 2), by simp, by ext <;> simp⟩
  · rintro ⟨x, (rfl | rfl), y, (rfl | rfl | rfl | rfl), rfl⟩
    · left; ext <;> simp <;> ring
    · right; right; left; ext <;> simp <;> ring
    · right; right; right; left; ext <;> simp
    · right; left; ext <;> simp <;> ring
    · right; right; right; right; left; ext <;> simp <;> ring
    · right; right; right; right; right; right; left; ext <;> simp <;> ring
    · right; right; right; right; right; right; right; ext <;> simp
    · right; right; right; right; right; left; ext <;> simp <;> ring

/-- The area swept by the rectangle is more than a line. -/
def Thick (s e : RPt) (w h : ℝ) : Prop := 0 < w ∧ 0 < h ∨ 0 < w ∧ s.2 ≠ e.2 ∨ 0 < h ∧ s.1 ≠ e.1

theorem planar_of_thick {s e : RPt} {w h : ℝ} (ht : Thick s e w h) : Planar (endCorners s e w h) := by
  rcases ht with ⟨hw, hh⟩ | ⟨hw, hne⟩ | ⟨hh, hne⟩
  · refine ⟨(s.1 - w / 2, s.2 - h / 2), by simp [endCorners], (s.1 + w / 2, s.2 - h / 2),
      by simp [endCorners], (s.1 - w / 2, s.2 + h / 2), by simp [endCorners], ?_⟩
    have : cross3 (s.1 - w / 2, s.2 - h / 2) (s.1 + w / 2, s.2 - h / 2) (s.1 - w / 2, s.2 + h / 2) = w * h := by
      unfold cross3; simp only; ring
    rw [this]
    positivity
  · refine ⟨(s.1 - w / 2, s.2 - h / 2), by simp [endCorners], (s.1 + w / 2, s.2 - h / 2),
      by simp [endCorners], (e.1 - w / 2, e.2 - h / 2), by simp [endCorners], ?_⟩
    have : cross3 (s.1 - w / 2, s.2 - h / 2) (s.1 + w / 2, s.2 - h / 2) (e.1 - w / 2, e.2 - h / 2) =
        w * (e.2 - s.2) := by
      unfold cross3; simp only; ring
    rw [this]
    exact mul_ne_zero hw.ne' (sub_ne_zero.2 hne.symm)
  · refine ⟨(s.1 - w / 2, s.2 - h / 2), by simp [endCorners], (s.1 - w / 2, s.2 + h / 2),
      by simp [endCorners], (e.1 - w / 2, e.2 - h / 2), by simp [endCorners], ?_⟩
    have : cross3 (s.1 - w / 2, s.2 - h / 2) (s.1 - w / 2, s.2 + h / 2) (e.1 - w / 2, e.2 - h / 2) =
        -(h * (e.1 - s.1)) := by
      unfold cross3; simp only; ring
    rw [this]
    exact neg_ne_zero.2 (mul_ne_zero hh.ne' (sub_ne_zero.2 hne.symm))

/-- **C62 for lines drawn with a rectangle that is not rotated** (and an area that is more than a line): the
vertices span the area swept by the rectangle and run around it.  Missing: rotated rectangles, areas without
thickness and polygons, for which the claim fails (see below). -/
theorem C62_line_partial (s e : RPt) {w h : ℝ} (hw : 0 ≤ w) (hh : 0 ≤ h) (ht : Thick s e w h) :
    ∃ vs, lineVertices s e (.rectangle w h 0) = .ok (some vs) ∧
      span vs = swept (straight s e) (placed (0, 0) 0 (slab w h)) ∧ Around vs ∧ vs.Nodup := by
  have hp := planar_of_thick ht
  obtain ⟨vs, hvs⟩ := Option.ne_none_iff_exists'.1 (C42_planar_defined hp)
  obtain ⟨h3, hnd, hin, hhull, hcross⟩ := C42_hull_partial hp hvs
  refine ⟨vs, by simp [lineVertices, hvs], ?_, .inl ?_, hnd⟩
  · have e0 : placed (0, 0) 0 (slab w h) = slab w h := by
      ext q
      simp [placed, radians]
    rw [e0, ← endCorners_span s e hw hh]
    apply Set.Subset.antisymm
    · exact convexHull_mono hin
    · exact convexHull_min hhull (convex_convexHull ℝ _)
  · exact fun i hi p hp => hcross i hi p (hin p hp)

/-- A horizontal track drawn with a square of 0.2: a rectangle with rectangular ends. -/
example : ∃ vs, lineVertices (0, 0) (3, 1) (.rectangle (1 / 5) (1 / 5) 0) = .ok (some vs) ∧
    span vs = swept (straight (0, 0) (3, 1)) (placed (0, 0) 0 (slab (1 / 5) (1 / 5))) ∧ Around vs ∧ vs.Nodup :=
  C62_line_partial _ _ (by norm_num) (by norm_num) (.inl ⟨by norm_num, by norm_num⟩)

theorem lineVertices_mem {s e : RPt} {w h rot : ℝ} {vs : List RPt}
    (hv : lineVertices s e (.rectangle w h rot) = .ok (some vs)) : ∀ v ∈ vs, v ∈ endCorners s e w h := by
  have hc : convexHullPts (endCorners s e w h) = some vs := by
    simp only [lineVertices] at hv
    cases hl : convexHullPts (endCorners s e w h) with
    | none => rw [hl] at hv; cases hv
    | some l =>
      rw [hl] at hv
      simpa using hv
  by_cases hp : Planar (endCorners s e w h)
  · exact (C42_hull_partial hp hc).2.2.1
  · have hd : convexHullPts (endCorners s e w h) ≠ none := by rw [hc]; simp
    rw [C42_defined] at hd
    rw [C42_collinear_violated hp hd.1 hd.2] at hc
    injection hc with hc
    subst hc
    simp

/-- **C62 fails for rotated apertures**: the rotation of the rectangle is ignored.  A rectangle that is wider
than high and stands upright (90 degrees) covers less than it should. -/
theorem C62_line_rotated_violated (s e : RPt) {w h : ℝ} (hh : 0 ≤ h) (hwh : h < w) (vs : List RPt)
    (hv : lineVertices s e (.rectangle w h 90) = .ok (some vs)) :
    span vs ≠ swept (straight s e) (placed (0, 0) 90 (slab w h)) := by
  have hw : 0 ≤ w := by linarith
  have hin := lineVertices_mem hv
  intro heq
  have hsub : span vs ⊆ swept (straight s e) (slab w h) := by
    rw [← endCorners_span s e hw hh]
    exact convexHull_mono hin
  have c90 : Real.cos (radians 90) = 0 := by
    rw [show radians 90 = Real.pi / 2 by unfold radians; ring]
    exact Real.cos_pi_div_two
  have s90 : Real.sin (radians 90) = 1 := by
    rw [show radians 90 = Real.pi / 2 by unfold radians; ring]
    exact Real.sin_pi_div_two
  have key : ∀ x : RPt, x ∈ straight s e → (∀ y ∈ straight s e, y.2 ≤ x.2) → False := by
    intro x hx hmax
    have hmem : (x.1, x.2 + w / 2) ∈ span vs := by
      rw [heq]
      refine ⟨x, hx, (0, w / 2), ⟨(w / 2, 0), ⟨?_, ?_⟩, ?_⟩, by simp⟩
      · simp only; rw [abs_of_nonneg (by linarith)]
      · simp only [abs_zero]; linarith
      · rw [c90, s90]; simp
    obtain ⟨y, hy, p, ⟨-, hp2⟩, hxy⟩ := hsub hmem
    have e2 := congrArg Prod.snd hxy
    simp only at e2
    have := hmax y hy
    have := (abs_le.1 hp2).2
    linarith
  rcases le_total s.2 e.2 with hse | hse
  · refine key e ⟨1, by norm_num, le_refl _, by simp⟩ ?_
    rintro y ⟨t, h0, h1, rfl⟩
    simp only
    nlinarith
  · refine key s ⟨0, le_refl _, by norm_num, by simp⟩ ?_
    rintro y ⟨t, h0, h1, rfl⟩
    simp only
    nlinarith

/-- **C62 fails for areas without thickness**: there are no vertices at all or an exception. -/
theorem C62_line_thin_violated (s e : RPt) {w h : ℝ} (hw : 0 ≤ w) (hh : 0 ≤ h) (ht : ¬ Thick s e w h) (rot : ℝ) :
    lineVertices s e (.rectangle w h rot) = .error .exception ∨
      lineVertices s e (.rectangle w h rot) = .ok (some []) := by
  have hp : ¬ Planar (endCorners s e w h) := by
    unfold Thick at ht
    push Not at ht
    obtain ⟨t1, t2, t3⟩ := ht
    rintro ⟨p, hp, q, hq, r, hr, hne⟩
    apply hne
    simp only [endCorners, List.mem_cons, List.not_mem_nil, or_false] at hp hq hr
    rcases hw.eq_or_lt with rfl | hw'
    · rcases hh.eq_or_lt with rfl | hh'
      · have x1 : ∀ v : RPt, (v = (s.1 - 0 / 2, s.2 - 0 / 2) ∨ v = (s.1 + 0 / 2, s.2 - 0 / 2) ∨
            v = (s.1 - 0 / 2, s.2 + 0 / 2) ∨ v = (s.1 + 0 / 2, s.2 + 0 / 2) ∨
            v = (e.1 - 0 / 2, e.2 - 0 / 2) ∨ v = (e.1 + 0 / 2, e.2 - 0 / 2) ∨
            v = (e.1 - 0 / 2, e.2 + 0 / 2) ∨ v = (e.1 + 0 / 2, e.2 + 0 / 2)) → v = s ∨ v = e := by
          rintro v (rfl | rfl | rfl | rfl | rfl | rfl | rfl | rfl) <;> simp
        have hp' := x1 p hp
        have hq' := x1 q hq
        have hr' := x1 r hr
        rcases hp' with rfl | rfl <;> rcases hq' with rfl | rfl <;> rcases hr' with rfl | rfl <;>
          (unfold cross3; ring)
      · have hx := t3 hh'
        have x1 : ∀ v : RPt, (v = (s.1 - 0 / 2, s.2 - h / 2) ∨ v = (s.1 + 0 / 2, s.2 - h / 2) ∨
            v = (s.1 - 0 / 2, s.2 + h / 2) ∨ v = (s.1 + 0 / 2, s.2 + h / 2) ∨
            v = (e.1 - 0 / 2, e.2 - h / 2) ∨ v = (e.1 + 0 / 2, e.2 - h / 2) ∨
            v = (e.1 - 0 / 2, e.2 + h / 2) ∨ v = (e.1 + 0 / 2, e.2 + h / 2)) → v.1 = s.1 := by
          rintro v (rfl | rfl | rfl | rfl | rfl | rfl | rfl | rfl) <;> simp [hx]
        unfold cross3
        rw [x1 p hp, x1 q hq, x1 r hr]
        ring
    · have hh' : h = 0 := le_antisymm (t1 hw') hh
      subst hh'
      have hy := t2 hw'
      have x1 : ∀ v : RPt, (v = (s.1 - w / 2, s.2 - 0 / 2) ∨ v = (s.1 + w / 2, s.2 - 0 / 2) ∨
          v = (s.1 - w / 2, s.2 + 0 / 2) ∨ v = (s.1 + w / 2, s.2 + 0 / 2) ∨
          v = (e.1 - w / 2, e.2 - 0 / 2) ∨ v = (e.1 + w / 2, e.2 - 0 / 2) ∨
          v = (e.1 - w / 2, e.2 + 0 / 2) ∨ v = (e.1 + w / 2, e.2 + 0 / 2)) → v.2 = s.2 := by
        rintro v (rfl | rfl | rfl | rfl | rfl | rfl | rfl | rfl) <;> simp [hy]
      unfold cross3
      rw [x1 p hp, x1 q hq, x1 r hr]
      ring
  by_cases hx : ∃ p ∈ endCorners s e w h, ∃ q ∈ endCorners s e w h, p.1 ≠ q.1
  · right
    simp [lineVertices, C42_collinear_violated hp (by simp [endCorners]) hx]
  · left
    have : convexHullPts (endCorners s e w h) = none := by
      by_contra hne
      exact hx ((C42_defined _).1 hne).2
    simp [lineVertices, this]

/-- A horizontal line drawn with a rectangle of height 0. -/
example : ¬ Thick (0, 0) (3, 0) 1 0 := by
  unfold Thick
  norm_num

/-- **C62 fails for lines drawn with polygons**: asking for the vertices always raises. -/
theorem C62_line_polygon_violated (s e : RPt) {n : ℕ} (hn : 2 ≤ n) (r rot : ℝ) :
    lineVertices s e (.polygon n r rot) = .error .typeError := by
  simp only [lineVertices]
  rw [if_neg (by omega), if_neg (by omega)]

/-! ## Segments -/

/-- The edges of a polygon: from each corner to the next. -/
def edges (vs : List RPt) : List (RPt × RPt) := vs.zip (vs.rotate 1)

/-- **C62**: the segments contain every edge of the polygon, in one of its directions.  Missing: they should
be the edges only, which fails. -/
theorem C62_segments_partial {vs : List RPt} (h2 : 2 ≤ vs.length) :
    ∃ l, segments (some vs) = some l ∧ ∀ a ∈ edges vs, a ∈ l ∨ (a.2, a.1) ∈ l := by
  have comb : ∀ (l : List RPt) (i j : ℕ) (hij : i < j) (hj : j < l.length), (l[i], l[j]) ∈ combinations2 l := by
    intro l
    induction l with
    | nil => intro i j _ hj; simp at hj
    | cons v l ih =>
      intro i j hij hj
      obtain ⟨j, rfl⟩ : ∃ k, j = k + 1 := ⟨j - 1, by omega⟩
      simp only [List.length_cons] at hj
      cases i with
      | zero =>
        refine List.mem_append_left _ (List.mem_map.2 ⟨_, List.getElem_mem (by omega : j < l.length), ?_⟩)
        simp
      | succ i =>
        refine List.mem_append_right _ ?_
        simpa using ih i j (by omega) (by omega)
  obtain ⟨v, l, rfl⟩ : ∃ v l, vs = v :: l := by
    cases vs with
    | nil => simp at h2
    | cons v l => exact ⟨v, l, rfl⟩
  refine ⟨_, rfl, ?_⟩
  intro a ha
  obtain ⟨i, hi, he⟩ := List.getElem_of_mem ha
  have hl : i < (v :: l).length := by
    have : (edges (v :: l)).length = (v :: l).length := by simp [edges]
    omega
  have e : a = ((v :: l)[i], (v :: l)[(i + 1) % (v :: l).length]'(Nat.mod_lt _ (by omega))) := by
    rw [← he]
    refine (List.getElem_zip ..).trans ?_
    rw [List.getElem_rotate]
  rw [e]
  rcases Nat.lt_or_ge (i + 1) (v :: l).length with h1 | h1
  · left
    simp only [Nat.mod_eq_of_lt h1]
    exact comb _ i (i + 1) (by omega) h1
  · right
    have hi' : i + 1 = (v :: l).length := by omega
    simp only [hi', Nat.mod_self]
    exact comb _ 0 i (by omega) hl

/-- **C62 fails for segments**: those of a rectangle contain its diagonal. -/
theorem C62_segments_violated (pos : RPt) {w h : ℝ} (hw : 0 < w) (hh : 0 < h) :
    ∃ l, segments (some (rectVertices pos w h 0)) = some l ∧
      ((pos.1 - w / 2, pos.2 - h / 2), (pos.1 + w / 2, pos.2 + h / 2)) ∈ l ∧
      ∀ a ∈ edges (rectVertices pos w h 0), a ≠ ((pos.1 - w / 2, pos.2 - h / 2), (pos.1 + w / 2, pos.2 + h / 2)) := by
  have e : rectVertices pos w h 0 = [(pos.1 - w / 2, pos.2 - h / 2), (pos.1 - w / 2, pos.2 + h / 2),
      (pos.1 + w / 2, pos.2 + h / 2), (pos.1 + w / 2, pos.2 - h / 2)] := by
    simp [rectVertices, spin, cosD, sinD, radians]
  rw [e]
  refine ⟨_, rfl, by simp [combinations2], ?_⟩
  intro a ha he
  have h1 : ∀ x y z : ℝ, 0 < z → x - z / 2 ≠ y + z / 2 ∨ x ≠ y := by
    intro x y z hz
    by_cases hxy : x = y
    · left; rw [hxy]; intro h; linarith
    · exact .inr hxy
  subst he
  simp only [edges, List.rotate_cons_succ, List.rotate_zero, List.cons_append, List.nil_append,
    List.zip_cons_cons, List.zip_nil_right, List.mem_cons, List.not_mem_nil, or_false, Prod.mk.injEq] at ha
  rcases ha with ha | ha | ha | ha <;> obtain ⟨⟨a1, a2⟩, a3, a4⟩ := ha <;> linarith

end Verif.Geom
