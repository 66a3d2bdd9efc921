import Verif.Spec.Winding
import Verif.Props.Vertices

/-! # The area inside a closed path

It lies in what the corners span, and is all of it if the corners run around a convex polygon. -/

namespace Verif.Geom

theorem steps_mem {v : RPt} {l : List RPt} {e : RPt × RPt} (h : e ∈ steps v l) : e.1 ∈ v :: l ∧ e.2 ∈ l := by
  induction l generalizing v with
  | nil => cases h
  | cons w l ih =>
    rcases List.mem_cons.mp h with rfl | h
    · simp
    · obtain ⟨h1, h2⟩ := ih h
      exact ⟨List.mem_cons_of_mem _ h1, List.mem_cons_of_mem _ h2⟩

theorem loop_mem {vs : List RPt} {e : RPt × RPt} (h : e ∈ loop vs) : e.1 ∈ vs ∧ e.2 ∈ vs := by
  cases vs with
  | nil => cases h
  | cons v l =>
    obtain ⟨h1, h2⟩ := steps_mem h
    simp only [List.mem_cons, List.mem_append, List.not_mem_nil, or_false] at h1 h2 ⊢
    tauto

theorem steps_start {v : RPt} {l : List RPt} {w : RPt} : ∀ u ∈ v :: l, ∃ e ∈ steps v (l ++ [w]), e.1 = u := by
  induction l generalizing v with
  | nil => intro u hu; exact ⟨(v, w), by simp [steps], (List.mem_singleton.mp hu).symm⟩
  | cons x l ih =>
    intro u hu
    rcases List.mem_cons.mp hu with rfl | hu
    · exact ⟨(u, x), by simp [steps], rfl⟩
    · obtain ⟨e, he, h⟩ := ih u hu
      exact ⟨e, List.mem_cons_of_mem _ he, h⟩

theorem loop_start {vs : List RPt} {u : RPt} (h : u ∈ vs) : ∃ e ∈ loop vs, e.1 = u := by
  cases vs with
  | nil => cases h
  | cons v l => exact steps_start u h

theorem steps_sum (g : RPt → ℤ) (l : List RPt) : ∀ v w, ((steps v (l ++ [w])).map fun e => g e.2 - g e.1).sum = g w - g v := by
  induction l with
  | nil => intro v w; simp [steps]
  | cons x l ih =>
    intro v w
    simp only [List.cons_append, steps, List.map_cons, List.sum_cons, ih]
    ring

theorem loop_sum (g : RPt → ℤ) (vs : List RPt) : ((loop vs).map fun e => g e.2 - g e.1).sum = 0 := by
  cases vs with
  | nil => rfl
  | cons v l => rw [loop, steps_sum]; ring

/-- A path from a point without a property to one with it has a line where it begins to hold. -/
theorem steps_change {P : RPt → Prop} {l : List RPt} : ∀ {v w : RPt}, ¬ P v → w ∈ l → P w →
    ∃ e ∈ steps v l, ¬ P e.1 ∧ P e.2 := by
  induction l with
  | nil => simp
  | cons x l ih =>
    intro v w hv hw hP
    by_cases hx : P x
    · exact ⟨(v, x), by simp [steps], hv, hx⟩
    · rcases List.mem_cons.mp hw with rfl | hw
      · exact absurd hP hx
      · obtain ⟨e, he, h⟩ := ih hx hw hP
        exact ⟨e, List.mem_cons_of_mem _ he, h⟩

theorem steps_append (l : List RPt) : ∀ v w l', steps v (l ++ w :: l') = steps v (l ++ [w]) ++ steps w l' := by
  induction l with
  | nil => intro v w l'; simp [steps]
  | cons x l ih => intro v w l'; simp [steps, ih x w l']

theorem loop_change {P : RPt → Prop} {vs : List RPt} {u w : RPt} (hu : u ∈ vs) (hw : w ∈ vs) (h : ¬ P u) (h' : P w) :
    ∃ e ∈ loop vs, ¬ P e.1 ∧ P e.2 := by
  cases vs with
  | nil => cases hu
  | cons v l =>
    by_cases hv : P v
    · have hne : u ≠ v := by rintro rfl; exact h hv
      obtain ⟨l1, l2, rfl⟩ := List.append_of_mem ((List.mem_cons.mp hu).resolve_left hne)
      obtain ⟨e, he, hE⟩ := steps_change (l := l2 ++ [v]) h (List.mem_append_right _ (by simp)) hv
      refine ⟨e, ?_, hE⟩
      rw [loop, List.append_assoc, List.cons_append, steps_append]
      exact List.mem_append_right _ he
    · have hne : w ≠ v := by rintro rfl; exact hv h'
      exact steps_change hv (List.mem_append_left _ ((List.mem_cons.mp hw).resolve_left hne)) h'

/-! ## Where a line crosses -/

/-- The line passes the height of `p`. -/
def Spans (e : RPt × RPt) (p : RPt) : Prop := (e.1.2 ≤ p.2 ∧ p.2 < e.2.2) ∨ (e.2.2 ≤ p.2 ∧ p.2 < e.1.2)

theorem cross_point {e : RPt × RPt} {p : RPt} (h : Spans e p) :
    ∃ q ∈ segment ℝ e.1 e.2, q.2 = p.2 ∧ cross3 e.1 e.2 p = (e.2.2 - e.1.2) * (q.1 - p.1) := by
  obtain ⟨⟨a1, a2⟩, b1, b2⟩ := e
  obtain ⟨x, y⟩ := p
  simp only [Spans] at h ⊢
  have hd : b2 - a2 ≠ 0 := by
    intro h0
    rcases h with h | h <;> linarith
  refine ⟨(a1 + (y - a2) / (b2 - a2) * (b1 - a1), y), ?_, rfl, ?_⟩
  · rw [segment_eq_image]
    refine ⟨(y - a2) / (b2 - a2), ?_, ?_⟩
    · rcases h with h | h
      · have : 0 < b2 - a2 := by linarith
        exact ⟨div_nonneg (by linarith) this.le, by rw [div_le_one this]; linarith⟩
      · have : b2 - a2 < 0 := by linarith
        exact ⟨div_nonneg_of_nonpos (by linarith) this.le, by rw [div_le_one_of_neg this]; linarith⟩
    · simp only [Prod.smul_mk, Prod.mk_add_mk, smul_eq_mul, Prod.mk.injEq]
      constructor
      · ring
      · field_simp
        ring
  · simp only [cross3]
    field_simp
    ring

open Classical in
/-- Whether a point is above another. -/
noncomputable def above (p v : RPt) : ℤ := if p.2 < v.2 then 1 else 0

theorem crossing_eq {e : RPt × RPt} {p : RPt} (h : Spans e p → 0 < cross3 e.1 e.2 p * (e.2.2 - e.1.2)) :
    crossing e p = above p e.2 - above p e.1 := by
  unfold crossing above
  simp only [Spans] at h
  by_cases h1 : e.1.2 ≤ p.2 ∧ p.2 < e.2.2
  · have := h (.inl h1)
    have hc : 0 < cross3 e.1 e.2 p := by
      have hd : 0 < e.2.2 - e.1.2 := by linarith [h1.1, h1.2]
      exact (pos_iff_pos_of_mul_pos this).mpr hd
    unfold cross3 at hc
    rw [if_pos ⟨h1.1, h1.2, hc⟩, if_pos h1.2, if_neg (not_lt.mpr h1.1)]
    rfl
  · by_cases h2 : e.2.2 ≤ p.2 ∧ p.2 < e.1.2
    · have := h (.inr h2)
      have hc : cross3 e.1 e.2 p < 0 := by
        have hd : e.2.2 - e.1.2 < 0 := by linarith [h2.1, h2.2]
        exact (neg_iff_neg_of_mul_pos this).mpr hd
      unfold cross3 at hc
      rw [if_neg (fun h => h1 ⟨h.1, h.2.1⟩), if_pos ⟨h2.1, h2.2, hc⟩, if_neg (not_lt.mpr h2.1), if_pos h2.2]
      rfl
    · rw [if_neg (fun h => h1 ⟨h.1, h.2.1⟩), if_neg (fun h => h2 ⟨h.1, h.2.1⟩)]
      by_cases h3 : p.2 < e.1.2
      · have h4 : p.2 < e.2.2 := by
          by_contra h4
          exact h2 ⟨not_lt.mp h4, h3⟩
        rw [if_pos h4, if_pos h3]
        rfl
      · have h4 : ¬ p.2 < e.2.2 := fun h4 => h1 ⟨not_lt.mp h3, h4⟩
        rw [if_neg h4, if_neg h3]
        rfl

theorem crossing_zero {e : RPt × RPt} {p : RPt} (h : Spans e p → cross3 e.1 e.2 p * (e.2.2 - e.1.2) ≤ 0) :
    crossing e p = 0 := by
  unfold crossing
  simp only [Spans] at h
  rw [if_neg, if_neg]
  · rintro ⟨h1, h2, h3⟩
    have := h (.inr ⟨h1, h2⟩)
    unfold cross3 at this
    have hd : e.2.2 - e.1.2 < 0 := by linarith
    nlinarith [mul_pos_of_neg_of_neg h3 hd]
  · rintro ⟨h1, h2, h3⟩
    have := h (.inl ⟨h1, h2⟩)
    unfold cross3 at this
    have hd : 0 < e.2.2 - e.1.2 := by linarith
    nlinarith [mul_pos h3 hd]

theorem spans_ne {e : RPt × RPt} {p : RPt} (h : Spans e p) : 0 < (e.2.2 - e.1.2) ^ 2 := by
  have : e.2.2 - e.1.2 ≠ 0 := by
    intro h0
    rcases h with h | h <;> linarith [h.1, h.2]
  positivity

/-! ## The area lies in what the corners span -/

theorem segment_span {vs : List RPt} {e : RPt × RPt} (h : e ∈ loop vs) : segment ℝ e.1 e.2 ⊆ span vs := by
  obtain ⟨h1, h2⟩ := loop_mem h
  exact (convex_convexHull ℝ _).segment_subset (subset_convexHull ℝ _ h1) (subset_convexHull ℝ _ h2)

theorem inside_span (vs : List RPt) : inside vs ⊆ span vs := by
  rintro p (⟨e, he, hp⟩ | hw)
  · exact segment_span he hp
  by_contra hp
  apply hw
  unfold winding
  have hcase : (∀ e ∈ loop vs, Spans e p → cross3 e.1 e.2 p * (e.2.2 - e.1.2) ≤ 0) ∨
      (∀ e ∈ loop vs, Spans e p → 0 < cross3 e.1 e.2 p * (e.2.2 - e.1.2)) := by
    by_contra hcon
    push Not at hcon
    obtain ⟨⟨e, he, hs, h1⟩, e', he', hs', h2⟩ := hcon
    obtain ⟨q, hq, hq2, hc⟩ := cross_point hs
    obtain ⟨q', hq', hq2', hc'⟩ := cross_point hs'
    rw [hc] at h1
    rw [hc'] at h2
    have hx : 0 < q.1 - p.1 := by
      have := spans_ne hs
      by_contra hx
      nlinarith
    have hx' : q'.1 - p.1 ≤ 0 := by
      have := spans_ne hs'
      by_contra hx'
      nlinarith
    apply hp
    refine (convex_convexHull ℝ _).segment_subset (segment_span he' hq') (segment_span he hq) ?_
    rw [segment_eq_image]
    have hd : 0 < q.1 - q'.1 := by linarith
    refine ⟨(p.1 - q'.1) / (q.1 - q'.1), ⟨div_nonneg (by linarith) hd.le, by rw [div_le_one hd]; linarith⟩, ?_⟩
    ext
    · simp only [Prod.fst_add, Prod.smul_fst, smul_eq_mul]
      field_simp
      ring
    · simp only [Prod.snd_add, Prod.smul_snd, smul_eq_mul, hq2, hq2']
      ring
  rcases hcase with h | h
  · rw [List.map_congr_left (g := fun _ => (0 : ℤ)) fun e he => crossing_zero (h e he)]
    simp
  · rw [List.map_congr_left (g := fun e => above p e.2 - above p e.1) fun e he => crossing_eq (h e he)]
    exact loop_sum (above p) vs

/-! ## Convex polygons -/

theorem left_convex (a b : RPt) : Convex ℝ {q : RPt | 0 ≤ cross3 a b q} := by
  intro p hp q hq s t hs ht hst
  simp only [Set.mem_ofPred_eq, cross3, Prod.fst_add, Prod.snd_add, Prod.smul_fst, Prod.smul_snd, smul_eq_mul] at *
  have ht' : t = 1 - s := by linarith
  subst ht'
  nlinarith [mul_nonneg hs hp, mul_nonneg ht hq]

theorem right_convex (a b : RPt) : Convex ℝ {q : RPt | cross3 a b q ≤ 0} := by
  have := left_convex b a
  simp only [cross_neg a b, Left.nonneg_neg_iff] at this
  exact this

theorem span_low {vs : List RPt} {p : RPt} (h : p ∈ span vs) : ∃ v ∈ vs, v.2 ≤ p.2 := by
  by_contra hcon
  push Not at hcon
  have hc : Convex ℝ {q : RPt | p.2 < q.2} := by
    intro a ha b hb s t hs ht hst
    simp only [Set.mem_ofPred_eq, Prod.snd_add, Prod.smul_snd, smul_eq_mul] at *
    have ht' : t = 1 - s := by linarith
    subst ht'
    rcases hs.eq_or_lt with rfl | hs
    · linarith
    · nlinarith [mul_lt_mul_of_pos_left ha hs, mul_le_mul_of_nonneg_left hb.le ht]
  exact lt_irrefl p.2 (convexHull_min (t := {q : RPt | p.2 < q.2}) hcon hc h)

theorem span_top {vs : List RPt} {p : RPt} (h : p ∈ span vs) (ht : ∀ v ∈ vs, v.2 ≤ p.2) :
    (∃ a ∈ vs, a.2 = p.2 ∧ a.1 ≤ p.1) ∧ ∃ b ∈ vs, b.2 = p.2 ∧ p.1 ≤ b.1 := by
  classical
  have hset : {v | v ∈ vs} = ((vs.toFinset : Finset RPt) : Set RPt) := by ext; simp
  unfold span at h
  rw [hset, Finset.mem_convexHull'] at h
  obtain ⟨w, hw0, hw1, hw⟩ := h
  have h1 : ∑ v ∈ vs.toFinset, w v * v.1 = p.1 := by
    have := congrArg Prod.fst hw
    simpa [Prod.fst_sum] using this
  have h2 : ∑ v ∈ vs.toFinset, w v * v.2 = p.2 := by
    have := congrArg Prod.snd hw
    simpa [Prod.snd_sum] using this
  have hz : ∀ v ∈ vs.toFinset, w v * (p.2 - v.2) = 0 := by
    have hs : ∑ v ∈ vs.toFinset, w v * (p.2 - v.2) = 0 := by
      simp only [mul_sub, Finset.sum_sub_distrib, ← Finset.sum_mul, hw1, h2]
      ring
    exact (Finset.sum_eq_zero_iff_of_nonneg fun v hv =>
      mul_nonneg (hw0 v hv) (sub_nonneg.mpr (ht v (by simpa using hv)))).mp hs
  have hx : ∑ v ∈ vs.toFinset, w v * (v.1 - p.1) = 0 := by
    simp only [mul_sub, Finset.sum_sub_distrib, ← Finset.sum_mul, hw1, h1]
    ring
  obtain ⟨v0, hv0, hpos⟩ : ∃ v ∈ vs.toFinset, 0 < w v := by
    by_contra hcon
    push Not at hcon
    have : ∑ v ∈ vs.toFinset, w v ≤ 0 := Finset.sum_nonpos hcon
    linarith
  have key : ∀ v ∈ vs.toFinset, 0 < w v → v.2 = p.2 := by
    intro v hv hp
    have := hz v hv
    rcases mul_eq_zero.mp this with h | h
    · linarith
    · linarith
  constructor
  · by_contra hcon
    push Not at hcon
    have : 0 < ∑ v ∈ vs.toFinset, w v * (v.1 - p.1) := by
      apply Finset.sum_pos' _ ⟨v0, hv0, _⟩
      · intro v hv
        rcases (hw0 v hv).eq_or_lt with h0 | h0
        · rw [← h0]; simp
        · exact mul_nonneg h0.le (sub_nonneg.mpr (hcon v (by simpa using hv) (key v hv h0)).le)
      · exact mul_pos hpos (sub_pos.mpr (hcon v0 (by simpa using hv0) (key v0 hv0 hpos)))
    linarith
  · by_contra hcon
    push Not at hcon
    have : ∑ v ∈ vs.toFinset, w v * (v.1 - p.1) < 0 := by
      apply Finset.sum_neg' _ ⟨v0, hv0, _⟩
      · intro v hv
        rcases (hw0 v hv).eq_or_lt with h0 | h0
        · rw [← h0]; simp
        · exact mul_nonpos_of_nonneg_of_nonpos h0.le (sub_nonpos.mpr (hcon v (by simpa using hv) (key v hv h0)).le)
      · exact mul_neg_of_pos_of_neg hpos (sub_neg.mpr (hcon v0 (by simpa using hv0) (key v0 hv0 hpos)))
    linarith

theorem flat_segment {a b p : RPt} (h1 : a.2 = p.2) (h2 : b.2 = p.2) (h3 : a.1 ≤ p.1) (h4 : p.1 ≤ b.1) :
    p ∈ segment ℝ a b := by
  rw [segment_eq_image]
  rcases (h3.trans h4).eq_or_lt with h | h
  · refine ⟨0, by simp, ?_⟩
    ext
    · simp; linarith
    · simp [h1]
  · have hd : 0 < b.1 - a.1 := by linarith
    refine ⟨(p.1 - a.1) / (b.1 - a.1), ⟨div_nonneg (by linarith) hd.le, by rw [div_le_one hd]; linarith⟩, ?_⟩
    ext
    · simp only [Prod.fst_add, Prod.smul_fst, smul_eq_mul]
      field_simp
      ring
    · simp only [Prod.snd_add, Prod.smul_snd, smul_eq_mul, h1, h2]
      ring

theorem off_edge {e : RPt × RPt} {p : RPt} (hs : Spans e p) (hp : p ∉ segment ℝ e.1 e.2) : cross3 e.1 e.2 p ≠ 0 := by
  intro h0
  obtain ⟨q, hq, hq2, hc⟩ := cross_point hs
  rw [h0] at hc
  have hd := spans_ne hs
  rcases mul_eq_zero.mp hc.symm with h | h
  · rw [h] at hd; norm_num at hd
  · have : q = p := Prod.ext (by linarith) hq2
    exact hp (this ▸ hq)

/-- All corners on the left of all lines. -/
theorem span_inside_left {vs : List RPt} (h : ∀ e ∈ loop vs, ∀ q ∈ vs, 0 ≤ cross3 e.1 e.2 q) : span vs ⊆ inside vs := by
  intro p hp
  by_contra hcon
  simp only [inside, Set.mem_ofPred_eq, not_or, not_exists, not_and, not_not] at hcon
  obtain ⟨hoff, hw⟩ := hcon
  have hl : ∀ e ∈ loop vs, 0 ≤ cross3 e.1 e.2 p := fun e he => convexHull_min (h e he) (left_convex _ _) hp
  obtain ⟨lo, hlo, hlo2⟩ := span_low hp
  by_cases htop : ∀ v ∈ vs, v.2 ≤ p.2
  · obtain ⟨⟨a, ha, ha2, ha1⟩, b, hb, hb2, hb1⟩ := span_top hp htop
    rcases hb1.eq_or_lt with hb1 | hb1
    · obtain ⟨e, he, rfl⟩ := loop_start hb
      have : p = e.1 := Prod.ext hb1 hb2.symm
      exact hoff e he (this ▸ left_mem_segment ℝ _ _)
    · obtain ⟨e, he, h1, h2⟩ := loop_change (P := fun v => ¬ (v.2 = p.2 ∧ p.1 < v.1)) hb ha (not_not.mpr ⟨hb2, hb1⟩)
        (fun h => absurd h.2 (not_lt.mpr ha1))
      obtain ⟨h1, h1'⟩ := not_not.mp h1
      have hy := (htop e.2 (loop_mem he).2)
      rcases hy.eq_or_lt with hy | hy
      · have hx : e.2.1 ≤ p.1 := not_lt.mp fun hx => h2 ⟨hy, hx⟩
        have := flat_segment hy h1 hx h1'.le
        rw [segment_symm] at this
        exact hoff e he this
      · have := h e he a ha
        simp only [cross3, ha2, h1] at this
        nlinarith
  · push Not at htop
    obtain ⟨hi, hhi, hhi2⟩ := htop
    obtain ⟨e, he, h1, h2⟩ := loop_change (P := fun v => p.2 < v.2) hlo hhi (not_lt.mpr hlo2) hhi2
    have hnn : ∀ x ∈ (loop vs).map (crossing · p), 0 ≤ x := by
      intro x hx
      obtain ⟨e, he, rfl⟩ := List.mem_map.mp hx
      have := hl e he
      unfold cross3 at this
      simp only [crossing]
      split_ifs with k1 k2
      · norm_num
      · linarith [k2.2.2]
      · norm_num
    have h1e : crossing e p = 1 := by
      have hc := lt_of_le_of_ne (hl e he) (off_edge (.inl ⟨not_lt.mp h1, h2⟩) (hoff e he)).symm
      unfold cross3 at hc
      unfold crossing
      rw [if_pos ⟨not_lt.mp h1, h2, hc⟩]
    have := List.single_le_sum hnn _ (List.mem_map_of_mem (f := (crossing · p)) he)
    unfold winding at hw
    rw [hw, h1e] at this
    norm_num at this

/-- All corners on the right of all lines. -/
theorem span_inside_right {vs : List RPt} (h : ∀ e ∈ loop vs, ∀ q ∈ vs, cross3 e.1 e.2 q ≤ 0) : span vs ⊆ inside vs := by
  intro p hp
  by_contra hcon
  simp only [inside, Set.mem_ofPred_eq, not_or, not_exists, not_and, not_not] at hcon
  obtain ⟨hoff, hw⟩ := hcon
  have hl : ∀ e ∈ loop vs, cross3 e.1 e.2 p ≤ 0 := fun e he => convexHull_min (h e he) (right_convex _ _) hp
  obtain ⟨lo, hlo, hlo2⟩ := span_low hp
  by_cases htop : ∀ v ∈ vs, v.2 ≤ p.2
  · obtain ⟨⟨a, ha, ha2, ha1⟩, b, hb, hb2, hb1⟩ := span_top hp htop
    rcases ha1.eq_or_lt with ha1 | ha1
    · obtain ⟨e, he, rfl⟩ := loop_start ha
      have : p = e.1 := Prod.ext ha1.symm ha2.symm
      exact hoff e he (this ▸ left_mem_segment ℝ _ _)
    · obtain ⟨e, he, h1, h2⟩ := loop_change (P := fun v => ¬ (v.2 = p.2 ∧ v.1 < p.1)) ha hb (not_not.mpr ⟨ha2, ha1⟩)
        (fun h => absurd h.2 (not_lt.mpr hb1))
      obtain ⟨h1, h1'⟩ := not_not.mp h1
      have hy := (htop e.2 (loop_mem he).2)
      rcases hy.eq_or_lt with hy | hy
      · have hx : p.1 ≤ e.2.1 := not_lt.mp fun hx => h2 ⟨hy, hx⟩
        exact hoff e he (flat_segment h1 hy h1'.le hx)
      · have := h e he b hb
        simp only [cross3, hb2, h1] at this
        nlinarith
  · push Not at htop
    obtain ⟨hi, hhi, hhi2⟩ := htop
    obtain ⟨e, he, h1, h2⟩ := loop_change (P := fun v => ¬ p.2 < v.2) hhi hlo (not_not.mpr hhi2) (not_lt.mpr hlo2)
    have hnn : ∀ x ∈ (loop vs).map (fun e => - crossing e p), 0 ≤ x := by
      intro x hx
      obtain ⟨e, he, rfl⟩ := List.mem_map.mp hx
      have := hl e he
      unfold cross3 at this
      simp only [crossing]
      split_ifs with k1 k2
      · linarith [k1.2.2]
      · norm_num
      · norm_num
    have h1e : crossing e p = -1 := by
      have hs : Spans e p := .inr ⟨not_lt.mp h2, not_not.mp h1⟩
      have hc := lt_of_le_of_ne (hl e he) (off_edge hs (hoff e he))
      unfold cross3 at hc
      unfold crossing
      rw [if_neg (fun k => absurd k.2.1 h2), if_pos ⟨not_lt.mp h2, not_not.mp h1, hc⟩]
    have := List.single_le_sum hnn _ (List.mem_map_of_mem (f := fun e => - crossing e p) he)
    have hsum : ((loop vs).map fun e => - crossing e p).sum = - winding vs p := by
      unfold winding
      rw [List.sum_neg, List.map_map]
      rfl
    rw [hsum, hw, h1e] at this
    norm_num at this

/-! ## Paths from the last corner -/

theorem steps_index {l : List RPt} : ∀ {v : RPt} {e : RPt × RPt}, e ∈ steps v l →
    ∃ (i : ℕ) (hi : i < l.length), e = ((v :: l)[i]'(by simp; omega), l[i]) := by
  induction l with
  | nil => intro v e h; cases h
  | cons w l ih =>
    intro v e h
    rcases List.mem_cons.mp h with rfl | h
    · exact ⟨0, by simp, rfl⟩
    · obtain ⟨i, hi, he⟩ := ih h
      exact ⟨i + 1, by simp; omega, by simpa using he⟩

theorem loop_last {vs : List RPt} (hne : vs ≠ []) {e : RPt × RPt} (h : e ∈ loop (vs.getLast hne :: vs)) :
    e.1 = e.2 ∨ ∃ (i : ℕ) (hi : i < vs.length), e = (vs[i], vs[(i + 1) % vs.length]'(Nat.mod_lt _ (by omega))) := by
  obtain ⟨i, hi, rfl⟩ := steps_index h
  have hn : 0 < vs.length := List.length_pos_of_ne_nil hne
  simp only [List.length_append, List.length_singleton] at hi
  rcases Nat.lt_or_ge i vs.length with h1 | h1
  · right
    rcases i with _ | i
    · refine ⟨vs.length - 1, by omega, ?_⟩
      have : (vs.length - 1 + 1) % vs.length = 0 := by rw [Nat.sub_add_cancel hn, Nat.mod_self]
      simp only [this, List.getElem_cons_zero, List.getLast_eq_getElem, List.getElem_append_left h1]
    · refine ⟨i, by omega, ?_⟩
      have : (i + 1) % vs.length = i + 1 := Nat.mod_eq_of_lt h1
      simp only [this, List.getElem_cons_succ, List.getElem_append_left h1,
        List.getElem_append_left (show i < vs.length by omega)]
  · left
    have : i = vs.length := by omega
    subst this
    have h2 : vs.length = (vs.length - 1) + 1 := by omega
    simp only [List.getElem_append_right (le_refl vs.length), Nat.sub_self, List.getElem_singleton]
    rw [List.getElem_cons]
    simp only [hn.ne', dif_neg, not_false_eq_true]
    rw [List.getElem_append_left (by omega), List.getLast_eq_getElem]

theorem span_last {vs : List RPt} (hne : vs ≠ []) : span (vs.getLast hne :: vs) = span vs := by
  unfold span
  congr 1
  ext v
  simp only [List.mem_cons, Set.mem_ofPred_eq, or_iff_right_iff_imp]
  rintro rfl
  exact List.getLast_mem hne

/-- The closed path along the corners of a convex polygon goes around what they span. -/
theorem inside_around {vs : List RPt} (hne : vs ≠ []) (h : Around vs) : inside (vs.getLast hne :: vs) = span vs := by
  apply Set.Subset.antisymm
  · rw [← span_last hne]
    exact inside_span _
  · rw [← span_last hne]
    have hmem : ∀ q ∈ vs.getLast hne :: vs, q ∈ vs := by
      intro q hq
      rcases List.mem_cons.mp hq with rfl | hq
      · exact List.getLast_mem hne
      · exact hq
    rcases h with h | h
    · apply span_inside_left
      intro e he q hq
      rcases loop_last hne he with h1 | ⟨i, hi, rfl⟩
      · rw [h1, cross3]; simp
      · exact h i hi q (hmem q hq)
    · apply span_inside_right
      intro e he q hq
      rcases loop_last hne he with h1 | ⟨i, hi, rfl⟩
      · rw [h1, cross3]; simp
      · exact h i hi q (hmem q hq)

/-! ## Moving and scaling -/

theorem steps_map (f : RPt → RPt) (l : List RPt) : ∀ v, steps (f v) (l.map f) = (steps v l).map (Prod.map f f) := by
  induction l with
  | nil => intro v; rfl
  | cons w l ih => intro v; simp [steps, ih w]

theorem loop_map (f : RPt → RPt) (vs : List RPt) : loop (vs.map f) = (loop vs).map (Prod.map f f) := by
  cases vs with
  | nil => rfl
  | cons v l =>
    rw [List.map_cons, loop, loop, ← steps_map]
    simp

/-- The area is scaled and moved with its corners. -/
theorem inside_map {s : ℝ} (hs : 0 < s) (c : RPt) (vs : List RPt) (p : RPt) :
    (s * p.1 + c.1, s * p.2 + c.2) ∈ inside (vs.map fun v => (s * v.1 + c.1, s * v.2 + c.2)) ↔ p ∈ inside vs := by
  have hcr : ∀ e : RPt × RPt, crossing (Prod.map (fun v : RPt => (s * v.1 + c.1, s * v.2 + c.2))
      (fun v : RPt => (s * v.1 + c.1, s * v.2 + c.2)) e) (s * p.1 + c.1, s * p.2 + c.2) = crossing e p := by
    rintro ⟨⟨a1, a2⟩, b1, b2⟩
    simp only [crossing, Prod.map]
    have e1 : (s * b1 + c.1 - (s * a1 + c.1)) * (s * p.2 + c.2 - (s * a2 + c.2)) -
        (s * b2 + c.2 - (s * a2 + c.2)) * (s * p.1 + c.1 - (s * a1 + c.1)) =
        s ^ 2 * ((b1 - a1) * (p.2 - a2) - (b2 - a2) * (p.1 - a1)) := by ring
    have hs2 : 0 < s ^ 2 := by positivity
    have hneg : ∀ x : ℝ, s ^ 2 * x < 0 ↔ x < 0 := fun x =>
      ⟨fun h => by by_contra hx; nlinarith [mul_nonneg hs2.le (not_lt.mp hx)], mul_neg_of_pos_of_neg hs2⟩
    simp only [e1, add_le_add_iff_right, add_lt_add_iff_right, mul_le_mul_iff_right₀ hs, mul_lt_mul_iff_right₀ hs,
      mul_pos_iff_of_pos_left hs2, hneg]
  simp only [inside, Set.mem_ofPred_eq, winding, loop_map, List.map_map, List.mem_map, Function.comp_def, hcr]
  refine or_congr ?_ Iff.rfl
  constructor
  · rintro ⟨_, ⟨e, he, rfl⟩, h⟩
    refine ⟨e, he, ?_⟩
    rw [segment_eq_image] at h ⊢
    obtain ⟨t, ht, h⟩ := h
    refine ⟨t, ht, ?_⟩
    simp only [Prod.map, Prod.smul_mk, Prod.mk_add_mk, smul_eq_mul, Prod.mk.injEq] at h
    ext
    · simp only [Prod.fst_add, Prod.smul_fst, smul_eq_mul]
      have : s * ((1 - t) * e.1.1 + t * e.2.1) = s * p.1 := by linarith [h.1]
      exact mul_left_cancel₀ hs.ne' this
    · simp only [Prod.snd_add, Prod.smul_snd, smul_eq_mul]
      have : s * ((1 - t) * e.1.2 + t * e.2.2) = s * p.2 := by linarith [h.2]
      exact mul_left_cancel₀ hs.ne' this
  · rintro ⟨e, he, h⟩
    refine ⟨_, ⟨e, he, rfl⟩, ?_⟩
    rw [segment_eq_image] at h ⊢
    obtain ⟨t, ht, rfl⟩ := h
    refine ⟨t, ht, ?_⟩
    simp only [Prod.map, Prod.smul_mk, Prod.mk_add_mk, smul_eq_mul, Prod.mk.injEq, Prod.fst_add, Prod.snd_add,
      Prod.smul_fst, Prod.smul_snd]
    constructor <;> ring

end Verif.Geom
