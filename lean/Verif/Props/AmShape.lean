import Verif.Model.AmShape
import Verif.Spec.AmShape
import Verif.Props.Vertices

/-! # C63: macro primitives become the shapes they describe -/

namespace Verif.Am

open Verif.Py Verif.Gerber Verif.Geom

/-! ## Turning -/

theorem rotate_turned (p : RPt) (rot : ℝ) (c : RPt) :
    rotatePoint p rot c = turned c rot (p.1 - c.1, p.2 - c.2) := by
  unfold rotatePoint turned
  ext <;> simp <;> ring

theorem rotate_origin (p : RPt) (rot : ℝ) : rotatePoint p rot (0, 0) = turned (0, 0) rot p := by
  rw [rotate_turned]
  simp

theorem placed_turned (c : RPt) (rot : ℝ) (S : Set RPt) : placed c rot S = turned c rot '' S := by
  ext q
  constructor
  · rintro ⟨p, hp, rfl⟩
    exact ⟨p, hp, rfl⟩
  · rintro ⟨p, hp, rfl⟩
    exact ⟨p, hp, rfl⟩

theorem turned_injective (c : RPt) (rot : ℝ) : Function.Injective (turned c rot) := by
  intro p q h
  have hsq := Real.cos_sq_add_sin_sq (radians rot)
  have h1 := congrArg Prod.fst h
  have h2 := congrArg Prod.snd h
  simp only [turned] at h1 h2
  generalize Real.cos (radians rot) = a at *
  generalize Real.sin (radians rot) = b at *
  ext
  · linear_combination a * h1 + b * h2 + (q.1 - p.1) * hsq
  · linear_combination -b * h1 + a * h2 + (q.2 - p.2) * hsq

theorem span_turned (c : RPt) (rot : ℝ) (vs : List RPt) :
    span (vs.map (turned c rot)) = placed c rot (span vs) := by
  unfold span
  rw [placed_convexHull, placed_turned]
  congr 1
  ext q
  simp

theorem cross3_turned (c : RPt) (rot : ℝ) (u v z : RPt) :
    cross3 (turned c rot u) (turned c rot v) (turned c rot z) = cross3 u v z := by
  have hsq := Real.cos_sq_add_sin_sq (radians rot)
  unfold cross3 turned
  simp only
  linear_combination ((v.1 - u.1) * (z.2 - u.2) - (v.2 - u.2) * (z.1 - u.1)) * hsq

theorem around_turned (c : RPt) (rot : ℝ) (vs : List RPt) : Around (vs.map (turned c rot)) ↔ Around vs := by
  unfold Around
  simp only [List.length_map, List.getElem_map, List.mem_map, forall_exists_index, and_imp,
    forall_apply_eq_imp_iff₂, cross3_turned]

/-! ## Lines -/

theorem mkOutline_fan {start : RPt} {points : List RPt} (h : points.getLast? = some start) :
    mkOutline (fan start points) = .ok (.outline (fan start points)) := by
  unfold mkOutline fan
  have hne : points ≠ [] := by rintro rfl; simp at h
  obtain ⟨p, l, rfl⟩ := List.exists_cons_of_ne_nil hne
  rw [List.getLast?_map, h]
  simp

theorem filled_fan {start : RPt} {points : List RPt} (h : points.getLast? = some start) :
    filled (fan start points) = start :: points := by
  have hne : points ≠ [] := by rintro rfl; simp at h
  obtain ⟨p, l, rfl⟩ := List.exists_cons_of_ne_nil hne
  simp [filled, fan, Function.comp_def]

theorem fan_snd (start : RPt) (points : List RPt) : (fan start points).map Prod.snd = points := by
  simp [fan, Function.comp_def]

theorem not_connected_fan {start p q : RPt} {l : List RPt} (h : p ≠ start) :
    ¬ Connected (fan start (p :: q :: l)) := by
  intro hc
  simp only [Connected, fan, List.map_cons, List.isChain_cons_cons] at hc
  exact h hc.1

theorem span_cons {v : RPt} {vs : List RPt} (h : v ∈ vs) : span (v :: vs) = span vs := by
  unfold span
  congr 1
  ext q
  simp only [List.mem_cons, Set.mem_ofPred_eq]
  constructor
  · rintro (rfl | hq)
    · exact h
    · exact hq
  · exact .inr

theorem mem_of_last {start : RPt} {points : List RPt} (h : points.getLast? = some start) : start ∈ points :=
  List.mem_of_getLast? h

theorem chain_connected (start : RPt) (points : List RPt) : Connected (chain start points) := by
  unfold Connected
  induction points generalizing start with
  | nil => exact List.IsChain.nil
  | cons p ps ih =>
    cases ps with
    | nil => exact List.IsChain.singleton _
    | cons q ps => exact List.IsChain.cons_cons rfl (ih p)

theorem chain_snd (start : RPt) (points : List RPt) : (chain start points).map Prod.snd = points := by
  induction points generalizing start with
  | nil => rfl
  | cons p ps ih => simp [chain, ih]

theorem chain_last (start : RPt) (points : List RPt) :
    (chain start points).getLast?.map Prod.snd = points.getLast? := by
  rw [← List.getLast?_map, chain_snd]

theorem chain_filled (start : RPt) (points : List RPt) (hne : points ≠ []) :
    filled (chain start points) = start :: points := by
  unfold filled
  rw [chain_snd]
  cases points with
  | nil => exact absurd rfl hne
  | cons p ps => rfl

/-! ## Circles, outlines and centre lines -/

/-- **C63 for circles**: a circle of this diameter there, dark if exposed. -/
theorem C63_circle (on : Bool) (d : ℚ) (p : ℚ × ℚ) :
    ∃ s, toPrimitive (.circle on d p) = .ok [⟨on, s⟩] ∧ s = .circle ((p.1 : ℝ), (p.2 : ℝ)) (d : ℝ) :=
  ⟨_, rfl, rfl⟩

/-- **C63 for outlines**: the filled area has the described corners, in their order and turned about the origin
of the macro; its lines are connected; it is dark if exposed. -/
theorem C63_outline (on : Bool) (start : ℚ × ℚ) (points : List (ℚ × ℚ)) (rot : ℚ)
    (hclosed : points.getLast? = some start) :
    ∃ lines, toPrimitive (.outline on start points rot) = .ok [⟨on, .outline lines⟩] ∧
      filled lines = (start :: points).map (fun p => turned (0, 0) rot ((p.1 : ℝ), (p.2 : ℝ))) ∧
      Connected lines := by
  have hne : points ≠ [] := by rintro rfl; simp at hclosed
  refine ⟨chain (turned (0, 0) rot (toR start)) ((points.map toR).map (turned (0, 0) rot)), ?_, ?_,
    chain_connected _ _⟩
  · unfold toPrimitive outlineShape
    simp only [rotate_origin]
    have hm : mkOutline (chain (turned (0, 0) rot (toR start)) ((points.map toR).map (turned (0, 0) rot))) =
        .ok (.outline (chain (turned (0, 0) rot (toR start)) ((points.map toR).map (turned (0, 0) rot)))) := by
      unfold mkOutline
      have hl := chain_last (turned (0, 0) rot (toR start)) ((points.map toR).map (turned (0, 0) rot))
      rw [List.getLast?_map, List.getLast?_map, hclosed] at hl
      obtain ⟨a, ha, hb⟩ := Option.map_eq_some_iff.1 hl
      rw [ha]
      obtain ⟨p, ps, rfl⟩ := List.exists_cons_of_ne_nil hne
      simp [chain, hb]
    rw [hm]
    rfl
  · rw [chain_filled _ _ (by simpa using hne)]
    simp [toR, Function.comp_def]

/-- The corners of a centre line around the origin, as the code lists them. -/
noncomputable def centerBase (w h : ℚ) : List RPt :=
  [(-((w : ℝ) / 2), (h : ℝ) / 2), (-((w : ℝ) / 2), -((h : ℝ) / 2)),
    ((w : ℝ) / 2, -((h : ℝ) / 2)), ((w : ℝ) / 2, (h : ℝ) / 2)]

theorem center_last (w h : ℚ) (c : RPt) (rot : ℝ) : ((centerBase w h).map (turned c rot)).getLast? =
    some (turned c rot ((w : ℝ) / 2, (h : ℝ) / 2)) := rfl

theorem centerLine_eq (on : Bool) (w h : ℚ) (c : ℚ × ℚ) (rot : ℚ) :
    toPrimitive (.centerLine on w h c rot) = .ok [⟨on, .outline (fan (turned (toR c) rot ((w : ℝ) / 2, (h : ℝ) / 2))
      ((centerBase w h).map (turned (toR c) rot)))⟩] := by
  have hpts : ([((c.1 : ℝ) - w / 2, (c.2 : ℝ) + h / 2), ((c.1 : ℝ) - w / 2, (c.2 : ℝ) - h / 2),
      ((c.1 : ℝ) + w / 2, (c.2 : ℝ) - h / 2), ((c.1 : ℝ) + w / 2, (c.2 : ℝ) + h / 2)].map fun p : RPt =>
        rotatePoint p rot (toR c)) = (centerBase w h).map (turned (toR c) rot) := by
    simp [centerBase, rotate_turned, toR]
  unfold toPrimitive centerLineShape
  have hs : rotatePoint ((c.1 : ℝ) + w / 2, (c.2 : ℝ) + h / 2) rot (toR c) =
      turned (toR c) rot ((w : ℝ) / 2, (h : ℝ) / 2) := by
    simp [rotate_turned, toR]
  have e1 : (toR c).1 = (c.1 : ℝ) := rfl
  have e2 : (toR c).2 = (c.2 : ℝ) := rfl
  simp only [e1, e2]
  rw [hpts, hs, mkOutline_fan (center_last ..)]
  rfl

/-- **C63 for centre lines**: the filled area is the rectangle turned about its centre; it is dark if exposed.
(The rotation is about the centre, as the class says.  The Gerber specification turns about the origin of the
macro.) -/
theorem C63_center_line (on : Bool) {w h : ℚ} (hw : 0 ≤ w) (hh : 0 ≤ h) (c : ℚ × ℚ) (rot : ℚ) :
    ∃ lines, toPrimitive (.centerLine on w h c rot) = .ok [⟨on, .outline lines⟩] ∧
      span (filled lines) = placed ((c.1 : ℝ), (c.2 : ℝ)) rot (slab w h) ∧ Around (lines.map Prod.snd) := by
  have hw' : (0 : ℝ) ≤ w := by exact_mod_cast hw
  have hh' : (0 : ℝ) ≤ h := by exact_mod_cast hh
  have hlast := center_last w h (toR c) rot
  refine ⟨_, centerLine_eq on w h c rot, ?_, ?_⟩
  · rw [filled_fan hlast, span_cons (mem_of_last hlast), span_turned]
    congr 1
    rw [← slab_span hw' hh']
    unfold span
    congr 1
    ext q
    simp only [centerBase, List.mem_cons, List.not_mem_nil, or_false, Set.mem_ofPred_eq]
    tauto
  · rw [fan_snd, around_turned]
    have := mul_nonneg hw' hh'
    left
    intro i hi p hp
    simp only [centerBase, List.length_cons, List.length_nil] at hi
    simp only [centerBase, List.mem_cons, List.not_mem_nil, or_false] at hp
    interval_cases i <;> rcases hp with rfl | rfl | rfl | rfl <;> simp [centerBase, cross3] <;> nlinarith

/-- A rectangle of 4 by 2 at (1, 1), upright. -/
example : ∃ lines, toPrimitive (.centerLine true 4 2 (1, 1) 90) = .ok [⟨true, .outline lines⟩] ∧
    span (filled lines) = placed ((((1 : ℚ) : ℝ)), ((1 : ℚ) : ℝ)) ((90 : ℚ) : ℝ) (slab ((4 : ℚ) : ℝ) ((2 : ℚ) : ℝ)) ∧
    Around (lines.map Prod.snd) :=
  C63_center_line true (by norm_num) (by norm_num) (1, 1) 90

/-- **C63 fails for the lines of centre lines**: they all start at the same corner. -/
theorem C63_center_line_chain_violated (on : Bool) {w : ℚ} (hw : w ≠ 0) (h : ℚ) (c : ℚ × ℚ) (rot : ℚ) :
    ∃ lines, toPrimitive (.centerLine on w h c rot) = .ok [⟨on, .outline lines⟩] ∧ ¬ Connected lines := by
  refine ⟨_, centerLine_eq on w h c rot, not_connected_fan fun he => ?_⟩
  have := congrArg Prod.fst (turned_injective _ _ he)
  simp only at this
  have hw' : (w : ℝ) ≠ 0 := by exact_mod_cast hw
  apply hw'
  linarith

/-! ## Vector lines -/

theorem vectorLine_eq (code : ℕ) (on : Bool) {w : ℚ} (s e : ℚ × ℚ) (rot : ℚ) {vs : List RPt} {v : RPt}
    (hv : lineVertices (toR s) (toR e) (.rectangle w w 0) = .ok (some vs)) (hl : vs.getLast? = some v) :
    toPrimitive (.vectorLine code on w s e rot) = .ok [⟨on, .outline (fan (turned (0, 0) rot v)
      (vs.map (turned (0, 0) rot)))⟩] := by
  simp only [toPrimitive, vectorLineShape, hv, hl, rotate_origin]
  rw [mkOutline_fan (by rw [List.getLast?_map, hl]; rfl)]
  rfl

/-- The rectangle of a vector line is in the area swept by a square. -/
theorem bar_subset {w : ℝ} (s e : RPt) : bar w s e ⊆ swept (straight s e) (slab w w) := by
  rintro q ⟨t, u, h0, h1, hu, rfl⟩
  have hL : ∀ x y : ℝ, |x / Real.sqrt (x ^ 2 + y ^ 2)| ≤ 1 := by
    intro x y
    rw [abs_div, abs_of_nonneg (Real.sqrt_nonneg _)]
    apply div_le_one_of_le₀ _ (Real.sqrt_nonneg _)
    apply Real.abs_le_sqrt
    nlinarith [sq_nonneg y]
  have m : ∀ v : ℝ, |v| ≤ 1 → |u * v| ≤ w / 2 := by
    intro v hv
    rw [abs_mul]
    calc |u| * |v| ≤ |u| * 1 := by gcongr
      _ ≤ w / 2 := by linarith
  refine ⟨_, ⟨t, h0, h1, rfl⟩, (-(u * ((e.2 - s.2) / Real.sqrt ((e.1 - s.1) ^ 2 + (e.2 - s.2) ^ 2))),
    u * ((e.1 - s.1) / Real.sqrt ((e.1 - s.1) ^ 2 + (e.2 - s.2) ^ 2))), ⟨?_, ?_⟩, ?_⟩
  · simp only [abs_neg]
    apply m
    rw [add_comm]
    exact hL _ _
  · exact m _ (hL _ _)
  · ext <;> simp <;> ring

/-- Beyond the end of a line there is a point swept by a square that is not in the rectangle of the line. -/
theorem bar_ne {w : ℝ} (hw : 0 < w) {s e : RPt} (hse : s ≠ e) : swept (straight s e) (slab w w) ≠ bar w s e := by
  intro heq
  obtain ⟨L, hL⟩ : ∃ L, L = Real.sqrt ((e.1 - s.1) ^ 2 + (e.2 - s.2) ^ 2) := ⟨_, rfl⟩
  have hpos : 0 < (e.1 - s.1) ^ 2 + (e.2 - s.2) ^ 2 := by
    by_contra hn
    have h1 : (e.1 - s.1) ^ 2 = 0 := by nlinarith [sq_nonneg (e.1 - s.1), sq_nonneg (e.2 - s.2)]
    have h2 : (e.2 - s.2) ^ 2 = 0 := by nlinarith [sq_nonneg (e.1 - s.1), sq_nonneg (e.2 - s.2)]
    rw [pow_eq_zero_iff two_ne_zero] at h1 h2
    exact hse (Prod.ext (by linarith) (by linarith))
  have hLpos : 0 < L := by rw [hL]; exact Real.sqrt_pos.2 hpos
  have hLsq : L ^ 2 = (e.1 - s.1) ^ 2 + (e.2 - s.2) ^ 2 := by rw [hL]; exact Real.sq_sqrt hpos.le
  have hmem : (e.1 + w / 2 * ((e.1 - s.1) / L), e.2 + w / 2 * ((e.2 - s.2) / L)) ∈
      swept (straight s e) (slab w w) := by
    have hd : ∀ x : ℝ, x ^ 2 ≤ L ^ 2 → |w / 2 * (x / L)| ≤ w / 2 := by
      intro x hx
      rw [abs_mul, abs_of_pos (by linarith : 0 < w / 2), abs_div, abs_of_pos hLpos]
      have : |x| / L ≤ 1 := div_le_one_of_le₀ (abs_le_of_sq_le_sq hx hLpos.le) hLpos.le
      nlinarith
    refine ⟨e, ⟨1, by norm_num, le_refl _, by simp⟩, (w / 2 * ((e.1 - s.1) / L), w / 2 * ((e.2 - s.2) / L)),
      ⟨hd _ ?_, hd _ ?_⟩, rfl⟩
    · rw [hLsq]; nlinarith [sq_nonneg (e.2 - s.2)]
    · rw [hLsq]; nlinarith [sq_nonneg (e.1 - s.1)]
  rw [heq] at hmem
  obtain ⟨t, u, h0, h1, hu, hq⟩ := hmem
  rw [← hL] at hq
  have e1 := congrArg Prod.fst hq
  have e2 := congrArg Prod.snd hq
  simp only at e1 e2
  have key : (1 - t) * L ^ 2 + w / 2 * L = 0 := by
    have : (1 - t) * ((e.1 - s.1) ^ 2 + (e.2 - s.2) ^ 2) +
        w / 2 * (((e.1 - s.1) ^ 2 + (e.2 - s.2) ^ 2) / L) = 0 := by
      field_simp at e1 e2 ⊢
      linear_combination (e.1 - s.1) * e1 + (e.2 - s.2) * e2
    rw [← hLsq] at this
    rw [show L ^ 2 / L = L by field_simp] at this
    exact this
  nlinarith [mul_pos hw hLpos, mul_nonneg (sub_nonneg.2 h1) (sq_nonneg L)]

/-- **C63 for vector lines of positive width**: the filled area is that of a square moved from start to end, turned
about the origin of the macro.  It contains the described rectangle; missing: it is larger (see below). -/
theorem C63_vector_line_partial (code : ℕ) (on : Bool) {w : ℚ} (hw : 0 < w) (s e : ℚ × ℚ) (rot : ℚ) :
    ∃ lines, toPrimitive (.vectorLine code on w s e rot) = .ok [⟨on, .outline lines⟩] ∧
      span (filled lines) = placed (0, 0) rot (swept (straight (toR s) (toR e)) (slab w w)) ∧
      placed (0, 0) rot (bar w (toR s) (toR e)) ⊆ span (filled lines) ∧ Around (lines.map Prod.snd) := by
  have hw' : (0 : ℝ) < w := by exact_mod_cast hw
  obtain ⟨vs, hv, hspan, har, -⟩ := C62_line_partial (toR s) (toR e) hw'.le hw'.le (.inl ⟨hw', hw'⟩)
  have e0 : placed (0, 0) 0 (slab (w : ℝ) w) = slab w w := by
    ext q
    simp [placed, radians]
  rw [e0] at hspan
  have hne : vs ≠ [] := by
    rintro rfl
    have : ((toR s).1 + 0, (toR s).2 + 0) ∈ span [] := by
      rw [hspan]
      exact ⟨toR s, ⟨0, le_refl _, by norm_num, by simp⟩, (0, 0), ⟨by simpa using by linarith, by simpa using by linarith⟩,
        by simp⟩
    simp [span] at this
  have hl := List.getLast?_eq_some_getLast hne
  obtain ⟨v, hv'⟩ : ∃ v, v = vs.getLast hne := ⟨_, rfl⟩
  rw [← hv'] at hl
  have hl' : (vs.map (turned (0, 0) rot)).getLast? = some (turned (0, 0) rot v) := by
    rw [List.getLast?_map, hl]; rfl
  have hfill : span (filled (fan (turned (0, 0) (rot : ℝ) v) (vs.map (turned (0, 0) rot)))) =
      placed (0, 0) rot (swept (straight (toR s) (toR e)) (slab w w)) := by
    rw [filled_fan hl', span_cons (mem_of_last hl'), span_turned, hspan]
  refine ⟨_, vectorLine_eq code on s e rot hv hl, hfill, ?_, ?_⟩
  · rw [hfill, placed_turned, placed_turned]
    exact Set.image_mono (bar_subset _ _)
  · rw [fan_snd, around_turned]
    exact har

/-- A slanted line, turned by 30 degrees. -/
example : ∃ lines, toPrimitive (.vectorLine 20 true (1 / 10) (0, 0) (3, 1) 30) = .ok [⟨true, .outline lines⟩] :=
  (C63_vector_line_partial 20 true (by norm_num) (0, 0) (3, 1) 30).imp fun _ h => h.1

/-- **C63 fails for every vector line of positive width** from one point to another: more is filled than the
described rectangle (the line is longer, and thicker if it is slanted). -/
theorem C63_vector_line_violated (code : ℕ) (on : Bool) {w : ℚ} (hw : 0 < w) {s e : ℚ × ℚ} (hse : s ≠ e) (rot : ℚ)
    {lines : List (RPt × RPt)} (h : toPrimitive (.vectorLine code on w s e rot) = .ok [⟨on, .outline lines⟩]) :
    span (filled lines) ≠ placed (0, 0) rot (bar w (toR s) (toR e)) := by
  have hw' : (0 : ℝ) < w := by exact_mod_cast hw
  obtain ⟨lines', h', hfill, -, -⟩ := C63_vector_line_partial code on hw s e rot
  rw [h] at h'
  injection h' with h'
  simp only [List.cons.injEq, Drawn.mk.injEq, Shape.outline.injEq, true_and, and_true] at h'
  subst h'
  rw [hfill, placed_turned, placed_turned]
  intro heq
  refine bar_ne hw' (fun hse' => hse ?_) (Set.image_injective.2 (turned_injective _ _) heq)
  have h1 := congrArg Prod.fst hse'
  have h2 := congrArg Prod.snd hse'
  simp only [toR] at h1 h2
  exact Prod.ext (by exact_mod_cast h1) (by exact_mod_cast h2)

/-- **C63 fails for vector lines of width 0**: asking for their shape raises. -/
theorem C63_vector_line_thin_violated (code : ℕ) (on : Bool) (s e : ℚ × ℚ) (rot : ℚ) :
    ∃ x, toPrimitive (.vectorLine code on 0 s e rot) = .error x := by
  have ht : ¬ Thick (toR s) (toR e) ((0 : ℚ) : ℝ) ((0 : ℚ) : ℝ) := by simp [Thick]
  rcases C62_line_thin_violated (toR s) (toR e) (by simp) (by simp) ht 0 with h | h <;>
    exact ⟨_, by simp only [toPrimitive, vectorLineShape, h]; rfl⟩

/-! ## Polygons -/

theorem regular_bound (n : ℕ) (r : ℝ) : ∀ p ∈ regular n r, |p.1| ≤ |r| ∧ |p.2| ≤ |r| := by
  have hc : Convex ℝ {p : RPt | |p.1| ≤ |r| ∧ |p.2| ≤ |r|} := by
    intro p hp q hq s t hs ht hst
    obtain ⟨p1, p2⟩ := hp
    obtain ⟨q1, q2⟩ := hq
    rw [abs_le] at p1 p2 q1 q2
    have ht' : t = 1 - s := by linarith
    subst ht'
    refine ⟨abs_le.2 ⟨?_, ?_⟩, abs_le.2 ⟨?_, ?_⟩⟩ <;>
      simp only [Prod.fst_add, Prod.snd_add, Prod.smul_fst, Prod.smul_snd, smul_eq_mul] <;> nlinarith
  refine fun p hp => convexHull_min ?_ hc hp
  rintro q ⟨i, -, rfl⟩
  constructor
  · simp only [abs_mul]
    exact mul_le_of_le_one_right (abs_nonneg r) (Real.abs_cos_le_one _)
  · simp only [abs_mul]
    exact mul_le_of_le_one_right (abs_nonneg r) (Real.abs_sin_le_one _)

/-- **C63 for polygons**: one polygon, dark if exposed; its area is the regular polygon at the given place, turned
about the origin of the macro, exactly if it is not turned at all or is centred there: it is turned about its own
centre. -/
theorem C63_polygon_iff (on : Bool) {n : ℕ} (hn : n ≠ 0) (p : ℚ × ℚ) (d rot : ℚ) :
    ∃ pos r a vs, toPrimitive (.polygon on n p d rot) = .ok [⟨on, .polygon pos n r a⟩] ∧
      polygonVertices pos n r a = .ok vs ∧
      (span vs = placed (0, 0) rot (placed (toR p) 0 (regular n (d / 2))) ↔ p = (0, 0) ∨ cosD rot = 1) := by
  obtain ⟨vs, hv, -, hspan⟩ := C62_polygon (toR p) hn ((d : ℝ) / 2) rot
  refine ⟨_, _, _, vs, rfl, hv, ?_⟩
  have e : placed (0, 0) (rot : ℝ) (placed (toR p) 0 (regular n (d / 2))) =
      placed (spin rot (toR p)) rot (regular n (d / 2)) := by
    rw [placed_turned, placed_turned, placed_turned, Set.image_image]
    apply Set.image_congr
    intro x _
    simp only [turned, spin, cosD, sinD, radians, zero_mul, zero_div, Real.cos_zero, Real.sin_zero]
    ext <;> simp <;> ring
  have hne : (regular n ((d : ℝ) / 2)).Nonempty := by
    refine ⟨_, subset_convexHull ℝ _ ⟨0, Nat.pos_of_ne_zero hn, rfl⟩⟩
  rw [hspan, e]
  have h0 : p = (0, 0) ↔ toR p = (0, 0) := by
    simp only [toR, Prod.ext_iff]
    norm_cast
  rw [h0, ← spin_fixed]
  exact ⟨fun h => (placed_inj (regular_bound _ _) hne h).symm, fun h => by rw [h]⟩

/-- A hexagon at (1, 0), turned by 90 degrees, should be at (0, 1) but is not. -/
example : ∃ pos r a vs, toPrimitive (.polygon true 6 (1, 0) 1 90) = .ok [⟨true, .polygon pos 6 r a⟩] ∧
    polygonVertices pos 6 r a = .ok vs ∧
    span vs ≠ placed (0, 0) ((90 : ℚ) : ℝ) (placed (toR (1, 0)) 0 (regular 6 (((1 : ℚ) : ℝ) / 2))) := by
  obtain ⟨pos, r, a, vs, h1, h2, h3⟩ := C63_polygon_iff true (n := 6) (by norm_num) (1, 0) 1 90
  refine ⟨pos, r, a, vs, h1, h2, fun h => ?_⟩
  rcases h3.1 h with h | h
  · simp at h
  · rw [show ((90 : ℚ) : ℝ) = 90 by norm_num, cosD_90] at h
    norm_num at h

/-! ## Thermals -/

/-- Eleven points of an arc around the origin, from the angle `a` to `π / 2 - a`. -/
noncomputable def arcBase (a r : ℝ) : List RPt := approximateArc a (Real.pi / 2 - a) r (0, 0)

theorem arc_turned (a r rot : ℝ) (pos : RPt) :
    approximateArc (a + radians rot) (Real.pi / 2 - a + radians rot) r pos = (arcBase a r).map (turned pos rot) := by
  unfold arcBase approximateArc
  rw [List.map_map]
  apply List.map_congr_left
  intro i _
  have e : a + radians rot + (Real.pi / 2 - a + radians rot - (a + radians rot)) / 10 * (i : ℝ) =
      a + (Real.pi / 2 - a - a) / 10 * (i : ℝ) + radians rot := by ring
  simp only [turned, Function.comp_apply, e, Real.cos_add _ (radians rot), Real.sin_add _ (radians rot)]
  ext <;> simp <;> ring

theorem arc_length (a r : ℝ) : (arcBase a r).length = 11 := by simp [arcBase, approximateArc]

/-- Angles of the points of an arc. -/
noncomputable def arcAngle (a : ℝ) (i : ℕ) : ℝ := a + (Real.pi / 2 - a - a) / 10 * i

theorem arc_get (a r : ℝ) {i : ℕ} (hi : i < 11) :
    (arcBase a r)[i]? = some (Real.cos (arcAngle a i) * r, Real.sin (arcAngle a i) * r) := by
  simp [arcBase, approximateArc, List.getElem?_map, List.getElem?_range hi, arcAngle]

theorem arc_get_reverse (a r : ℝ) {i : ℕ} (hi : i < 11) :
    (arcBase a r).reverse[i]? = some (Real.cos (arcAngle a (10 - i)) * r, Real.sin (arcAngle a (10 - i)) * r) := by
  rw [List.getElem?_reverse (by rw [arc_length]; exact hi), arc_length]
  rw [show 11 - 1 - i = 10 - i by omega, arc_get a r (by omega)]

theorem arcAngle_mem {a : ℝ} (h : a ≤ Real.pi / 4) {i : ℕ} (hi : i < 11) :
    a ≤ arcAngle a i ∧ arcAngle a i ≤ Real.pi / 2 - a := by
  have h0 : (0 : ℝ) ≤ (i : ℝ) := Nat.cast_nonneg i
  have h1 : (i : ℝ) ≤ 10 := by exact_mod_cast (by omega : i ≤ 10)
  unfold arcAngle
  constructor <;> nlinarith

theorem arcAngle_step {a : ℝ} (h0 : 0 ≤ a) (h : a ≤ Real.pi / 4) (i : ℕ) :
    0 ≤ arcAngle a (i + 1) - arcAngle a i ∧ arcAngle a (i + 1) - arcAngle a i ≤ Real.pi := by
  have e : arcAngle a (i + 1) - arcAngle a i = (Real.pi / 2 - a - a) / 10 := by
    unfold arcAngle
    push_cast
    ring
  rw [e]
  constructor <;> linarith [Real.pi_pos]

/-- The offset of an arc: where the gap meets the circle. -/
theorem offset_angle {r g : ℝ} (hr : 0 < r) (hg : 0 ≤ g) (h : 2 * g ^ 2 ≤ (2 * r) ^ 2) :
    ∃ a, (fdiv (g / 2) r >>= asin) = .ok a ∧ 0 ≤ a ∧ a ≤ Real.pi / 4 ∧ Real.sin a * r = g / 2 ∧
      Real.cos a * r = Real.sqrt (r ^ 2 - (g / 2) ^ 2) := by
  obtain ⟨x, hx⟩ : ∃ x, x = g / 2 / r := ⟨_, rfl⟩
  have hx0 : 0 ≤ x := by rw [hx]; positivity
  have hxr : x * r = g / 2 := by rw [hx]; field_simp
  have hx2 : 2 * x ^ 2 ≤ 1 := by
    have : 2 * (x * r) ^ 2 ≤ 1 * r ^ 2 := by rw [hxr]; nlinarith
    have hr2 : 0 < r ^ 2 := by positivity
    by_contra hc
    nlinarith [mul_pos (by linarith : 0 < 2 * x ^ 2 - 1) hr2]
  have hx1 : x ≤ 1 := by nlinarith
  refine ⟨Real.arcsin x, ?_, Real.arcsin_nonneg.2 hx0, ?_, ?_, ?_⟩
  · unfold fdiv asin
    rw [if_neg hr.ne', ← hx]
    simp only [bind, Except.bind]
    rw [if_neg (by push Not; constructor <;> linarith)]
  · rw [Real.arcsin_le_iff_le_sin' ⟨by linarith [Real.pi_pos], by linarith [Real.pi_pos]⟩, Real.sin_pi_div_four]
    have h2 : Real.sqrt 2 ^ 2 = 2 := Real.sq_sqrt (by norm_num)
    have hs := Real.sqrt_nonneg 2
    by_contra hc
    nlinarith
  · rw [Real.sin_arcsin (by linarith) hx1, hxr]
  · rw [Real.cos_arcsin, ← hxr]
    rw [show r ^ 2 - (x * r) ^ 2 = (1 - x ^ 2) * r ^ 2 by ring, Real.sqrt_mul (by nlinarith), Real.sqrt_sq hr.le]

theorem arc_bounds {a r g : ℝ} (hr : 0 < r) (h0 : 0 ≤ a) (hs : Real.sin a * r = g / 2) {t : ℝ}
    (h1 : a ≤ t) (h2 : t ≤ Real.pi / 2 - a) : g / 2 ≤ Real.cos t * r ∧ g / 2 ≤ Real.sin t * r := by
  have hp := Real.pi_pos
  rw [← hs]
  constructor
  · have : Real.cos (Real.pi / 2 - a) ≤ Real.cos t := Real.cos_le_cos_of_nonneg_of_le_pi (by linarith) (by linarith) h2
    rw [Real.cos_pi_div_two_sub] at this
    nlinarith
  · have : Real.sin a ≤ Real.sin t := Real.sin_le_sin_of_le_of_le_pi_div_two (by linarith) (by linarith) h1
    nlinarith

theorem quarter {ro ri g ao ai : ℝ} (hi : 0 < ri) (ho : 0 < ro) 
    (i0 : 0 ≤ ai) (i1 : ai ≤ Real.pi / 4) (is : Real.sin ai * ri = g / 2)
    (ic : Real.cos ai * ri = Real.sqrt (ri ^ 2 - (g / 2) ^ 2))
    (o0 : 0 ≤ ao) (o1 : ao ≤ Real.pi / 4) (os : Real.sin ao * ro = g / 2)
    (oc : Real.cos ao * ro = Real.sqrt (ro ^ 2 - (g / 2) ^ 2)) :
    Quarter ro ri g (arcBase ai ri ++ (arcBase ao ro).reverse) := by
  have L : ∀ i < 11, (arcBase ai ri ++ (arcBase ao ro).reverse)[i]? =
      some (Real.cos (arcAngle ai i) * ri, Real.sin (arcAngle ai i) * ri) := by
    intro i h
    rw [List.getElem?_append_left (by rw [arc_length]; exact h), arc_get _ _ h]
  have R : ∀ i < 11, (arcBase ai ri ++ (arcBase ao ro).reverse)[i + 11]? =
      some (Real.cos (arcAngle ao (10 - i)) * ro, Real.sin (arcAngle ao (10 - i)) * ro) := by
    intro i h
    rw [List.getElem?_append_right (by rw [arc_length]; omega), arc_length, Nat.add_sub_cancel, arc_get_reverse _ _ h]
  have z0 : ∀ a, arcAngle a 0 = a := fun a => by simp [arcAngle]
  have z10 : ∀ a, arcAngle a 10 = Real.pi / 2 - a := fun a => by
    unfold arcAngle
    push_cast
    ring
  constructor
  · simp [arc_length]
  · intro i h
    refine ⟨_, L i h, ?_⟩
    linear_combination ri ^ 2 * Real.cos_sq_add_sin_sq (arcAngle ai i)
  · intro i h
    refine ⟨_, R i h, ?_⟩
    linear_combination ro ^ 2 * Real.cos_sq_add_sin_sq (arcAngle ao (10 - i))
  · rw [L 0 (by norm_num), z0, is, ic]
  · rw [L 10 (by norm_num), z10, Real.cos_pi_div_two_sub, Real.sin_pi_div_two_sub, is, ic]
  · rw [R 0 (by norm_num), show 10 - 0 = 10 from rfl, z10, Real.cos_pi_div_two_sub, Real.sin_pi_div_two_sub, os, oc]
  · rw [R 10 (by norm_num), show 10 - 10 = 0 from rfl, z0, os, oc]
  · intro p hp
    obtain ⟨i, hlt, hget⟩ := List.mem_iff_getElem.1 hp
    have hlen : i < 22 := by simpa [arc_length] using hlt
    have hsome := List.getElem?_eq_some_iff.2 ⟨hlt, hget⟩
    by_cases h11 : i < 11
    · rw [L i h11] at hsome
      injection hsome with e
      subst e
      have := arcAngle_mem i1 h11
      exact arc_bounds hi i0 is this.1 this.2
    · obtain ⟨j, rfl⟩ := Nat.exists_eq_add_of_le' (not_lt.1 h11)
      rw [R j (by omega)] at hsome
      injection hsome with e
      subst e
      have := arcAngle_mem o1 (i := 10 - j) (by omega)
      exact arc_bounds ho o0 os this.1 this.2
  · intro i h a b ha hb
    rw [L i (by omega)] at ha
    rw [L (i + 1) (by omega)] at hb
    injection ha with ha
    injection hb with hb
    subst ha hb
    have st := arcAngle_step i0 i1 i
    have e := Real.sin_nonneg_of_nonneg_of_le_pi st.1 st.2
    rw [Real.sin_sub] at e
    nlinarith [mul_nonneg e (sq_nonneg ri)]
  · intro i h a b ha hb
    rw [R i (by omega)] at ha
    rw [R (i + 1) (by omega)] at hb
    injection ha with ha
    injection hb with hb
    subst ha hb
    have st := arcAngle_step o0 o1 (10 - (i + 1))
    have e := Real.sin_nonneg_of_nonneg_of_le_pi st.1 st.2
    rw [Real.sin_sub, show 10 - (i + 1) + 1 = 10 - i by omega] at e
    nlinarith [mul_nonneg e (sq_nonneg ro)]

theorem turned_turned (pos : RPt) (a b : ℝ) (p : RPt) :
    rotatePoint (turned pos a p) b pos = turned pos (a + b) p := by
  have e : radians (a + b) = radians a + radians b := by unfold radians; ring
  rw [rotate_turned]
  unfold turned
  rw [e, Real.cos_add, Real.sin_add]
  ext <;> simp <;> ring

theorem thermal_eq (pos : RPt) {outer inner gap rot ai ao : ℝ}
    (hi : (fdiv (gap / 2) (inner / 2) >>= asin) = .ok ai) (ho : (fdiv (gap / 2) (outer / 2) >>= asin) = .ok ao)
    {p : RPt} {l : List RPt} (hq : arcBase ai (inner / 2) ++ (arcBase ao (outer / 2)).reverse = p :: l) :
    thermalShape pos outer inner gap rot = .ok ([0, 90, 180, 270].map fun a : ℝ =>
      ⟨true, .outline (fan (turned pos (rot + a) p) ((l ++ [p]).map (turned pos (rot + a))))⟩) := by
  have hpts : approximateArc (ai + radians rot) (Real.pi / 2 - ai + radians rot) (inner / 2) pos ++
      (approximateArc (ao + radians rot) (Real.pi / 2 - ao + radians rot) (outer / 2) pos).reverse =
      (p :: l).map (turned pos rot) := by
    rw [arc_turned, arc_turned, ← hq, List.map_append, List.map_reverse]
  have hstep : ∀ a : ℝ, (do
      let turned := ((p :: l).map (turned pos rot) ++ ((p :: l).map (turned pos rot)).take 1).map fun p =>
        rotatePoint p a pos
      let o ← mkOutline (fan (turned.headD (0, 0)) turned.tail)
      return (⟨true, o⟩ : Drawn) : PyR Drawn) =
      .ok ⟨true, .outline (fan (turned pos (rot + a) p) ((l ++ [p]).map (turned pos (rot + a))))⟩ := by
    intro a
    have e : ((p :: l).map (turned pos rot) ++ ((p :: l).map (turned pos rot)).take 1).map (fun p =>
        rotatePoint p a pos) = turned pos (rot + a) p :: (l ++ [p]).map (turned pos (rot + a)) := by
      simp [turned_turned, Function.comp_def]
    simp only [e, List.headD_cons, List.tail_cons]
    rw [mkOutline_fan (by simp)]
    rfl
  unfold thermalShape
  rw [hi, ho]
  simp only [bind, Except.bind] at hstep ⊢
  simp only [hpts]
  simp only [List.mapM_cons, List.mapM_nil, bind, Except.bind, hstep]
  rfl

theorem thermal_spec (p : ℚ × ℚ) {outer inner gap : ℚ} (rot : ℚ) (hi : 0 < inner) (ho : inner ≤ outer)
    (hg : 0 ≤ gap) (hgap : 2 * gap ^ 2 ≤ inner ^ 2) :
    ∃ c l, Quarter ((outer : ℝ) / 2) ((inner : ℝ) / 2) gap (c :: l) ∧
      toPrimitive (.thermal p outer inner gap rot) = .ok ([0, 90, 180, 270].map fun a : ℝ =>
        ⟨true, .outline (fan (turned (toR p) (rot + a) c) ((l ++ [c]).map (turned (toR p) (rot + a))))⟩) := by
  have hi' : (0 : ℝ) < inner := by exact_mod_cast hi
  have ho' : (inner : ℝ) ≤ outer := by exact_mod_cast ho
  have hg' : (0 : ℝ) ≤ gap := by exact_mod_cast hg
  have hgap' : 2 * (gap : ℝ) ^ 2 ≤ (inner : ℝ) ^ 2 := by exact_mod_cast hgap
  obtain ⟨ai, ei, i0, i1, is, ic⟩ := offset_angle (r := (inner : ℝ) / 2) (by linarith) hg'
    (by rw [mul_div_cancel₀ _ two_ne_zero]; exact hgap')
  obtain ⟨ao, eo, o0, o1, os, oc⟩ := offset_angle (r := (outer : ℝ) / 2) (by linarith) hg'
    (by rw [mul_div_cancel₀ _ two_ne_zero]; nlinarith)
  have hq := quarter (by linarith) (by linarith) i0 i1 is ic o0 o1 os oc
  obtain ⟨c, l, hl⟩ : ∃ c l, arcBase ai ((inner : ℝ) / 2) ++ (arcBase ao ((outer : ℝ) / 2)).reverse = c :: l := by
    apply List.exists_cons_of_ne_nil
    intro h0
    have := hq.length
    rw [h0] at this
    simp at this
  refine ⟨c, l, hl ▸ hq, ?_⟩
  simp only [toPrimitive]
  exact thermal_eq (toR p) ei eo hl

/-- **C63 for thermals** (with an inner circle, and gaps that meet it before meeting each other): four dark areas,
each with the corners of a quarter, turned by the rotation and by 0, 90, 180 and 270 degrees about the centre of
the thermal.  Missing: the rotation should be about the origin of the macro (see below). -/
theorem C63_thermal_partial (p : ℚ × ℚ) {outer inner gap : ℚ} (rot : ℚ) (hi : 0 < inner) (ho : inner ≤ outer)
    (hg : 0 ≤ gap) (hgap : 2 * gap ^ 2 ≤ inner ^ 2) :
    ∃ (q : List RPt) (areas : List (List (RPt × RPt))), Quarter ((outer : ℝ) / 2) ((inner : ℝ) / 2) gap q ∧
      toPrimitive (.thermal p outer inner gap rot) = .ok (areas.map fun lines => ⟨true, .outline lines⟩) ∧
      areas.map filled = [0, 90, 180, 270].map fun a : ℝ =>
        (q ++ q.take 1).map (turned ((p.1 : ℝ), (p.2 : ℝ)) (rot + a)) := by
  obtain ⟨c, l, hq, h⟩ := thermal_spec p rot hi ho hg hgap
  refine ⟨_, [0, 90, 180, 270].map fun a : ℝ => fan (turned (toR p) (rot + a) c)
    ((l ++ [c]).map (turned (toR p) (rot + a))), hq, ?_, ?_⟩
  · rw [h, List.map_map]
    rfl
  · rw [List.map_map]
    apply List.map_congr_left
    intro a _
    rw [Function.comp_apply, filled_fan (by simp)]
    simp [toR]

/-- A thermal of 2 mm around a hole of 1 mm, with gaps of 0.2 mm, turned by 45 degrees. -/
example : ∃ areas : List (List (RPt × RPt)),
    toPrimitive (.thermal (1, 3) 2 1 (1 / 5) 45) = .ok (areas.map fun lines => ⟨true, .outline lines⟩) ∧
      areas.length = 4 := by
  obtain ⟨q, areas, -, h, hm⟩ := C63_thermal_partial (1, 3) (outer := 2) (inner := 1) (gap := 1 / 5) 45 (by norm_num)
    (by norm_num) (by norm_num) (by norm_num)
  refine ⟨areas, h, ?_⟩
  have := congrArg List.length hm
  simpa using this

theorem connected_fan {start : RPt} {points : List RPt} (h : Connected (fan start points)) :
    ∀ p ∈ points.dropLast, p = start := by
  induction points with
  | nil => simp
  | cons p ps ih =>
    cases ps with
    | nil => simp
    | cons q ps =>
      simp only [Connected, fan, List.map_cons, List.isChain_cons_cons] at h
      intro r hr
      rw [List.dropLast_cons_cons, List.mem_cons] at hr
      rcases hr with rfl | hr
      · exact h.1
      · exact ih h.2 r hr

theorem place_iff (p : ℚ × ℚ) (rot : ℚ) {q : List RPt} (hq : q ≠ []) :
    ([0, 90, 180, 270].map fun a : ℝ => q.map (turned ((p.1 : ℝ), (p.2 : ℝ)) (rot + a))) =
      ([0, 90, 180, 270].map fun a : ℝ => q.map fun c => turned (0, 0) rot (turned ((p.1 : ℝ), (p.2 : ℝ)) a c)) ↔
    p = (0, 0) ∨ cosD rot = 1 := by
  have e : ∀ (a : ℝ) (c : RPt), turned (0, 0) rot (turned (toR p) a c) = turned (spin rot (toR p)) (rot + a) c := by
    intro a c
    have e : radians (rot + a) = radians rot + radians a := by unfold radians; ring
    unfold turned spin cosD sinD
    rw [e, Real.cos_add, Real.sin_add]
    ext <;> simp <;> ring
  have h0 : p = (0, 0) ↔ toR p = (0, 0) := by
    simp only [toR, Prod.ext_iff]
    norm_cast
  change (List.map (fun a : ℝ => q.map (turned (toR p) (rot + a))) _ =
    List.map (fun a : ℝ => q.map fun c => turned (0, 0) rot (turned (toR p) a c)) _) ↔ _
  simp only [e]
  rw [h0, ← spin_fixed]
  constructor
  · intro h
    obtain ⟨c, l, rfl⟩ := List.exists_cons_of_ne_nil hq
    simp only [List.map_cons, List.cons.injEq] at h
    have h1 := h.1.1
    have e1 := congrArg Prod.fst h1
    have e2 := congrArg Prod.snd h1
    simp only [turned] at e1 e2
    exact Prod.ext (by linarith) (by linarith)
  · intro h
    rw [h]

/-- **C63 for the place of thermals**: the areas are the described ones (turned about the origin of the macro) exactly
if the thermal is not turned or is centred at the origin. -/
theorem C63_thermal_place_iff (p : ℚ × ℚ) {outer inner gap : ℚ} (rot : ℚ) (hi : 0 < inner) (ho : inner ≤ outer)
    (hg : 0 ≤ gap) (hgap : 2 * gap ^ 2 ≤ inner ^ 2) :
    ∃ (q : List RPt) (areas : List (List (RPt × RPt))), Quarter ((outer : ℝ) / 2) ((inner : ℝ) / 2) gap q ∧
      toPrimitive (.thermal p outer inner gap rot) = .ok (areas.map fun lines => ⟨true, .outline lines⟩) ∧
      ((areas.map filled = [0, 90, 180, 270].map fun a : ℝ => (q ++ q.take 1).map fun c =>
        turned (0, 0) rot (turned ((p.1 : ℝ), (p.2 : ℝ)) a c)) ↔ p = (0, 0) ∨ cosD rot = 1) := by
  obtain ⟨q, areas, hq, h, hm⟩ := C63_thermal_partial p rot hi ho hg hgap
  refine ⟨q, areas, hq, h, ?_⟩
  rw [hm]
  apply place_iff
  intro h0
  have := hq.length
  rw [(List.append_eq_nil_iff.1 h0).1] at this
  simp at this

/-- The thermal of the example above is not where it should be. -/
example : ¬ (((1 : ℚ), (3 : ℚ)) = (0, 0) ∨ cosD (90 : ℚ) = 1) := by
  rintro (h | h)
  · simp at h
  · rw [show ((90 : ℚ) : ℝ) = 90 by norm_num, cosD_90] at h
    norm_num at h

/-- **C63 fails for thermals without a hole** (inner diameter 0): `ZeroDivisionError`. -/
theorem C63_thermal_hole_violated (p : ℚ × ℚ) (outer gap rot : ℚ) :
    toPrimitive (.thermal p outer 0 gap rot) = .error .zeroDivisionError := by
  simp [toPrimitive, thermalShape, fdiv, bind, Except.bind]

/-- **C63 fails for thermals whose gaps are wider than the hole**: `ValueError`. -/
theorem C63_thermal_gap_violated (p : ℚ × ℚ) (outer rot : ℚ) {inner gap : ℚ} (hi : 0 < inner) (hg : inner < gap) :
    toPrimitive (.thermal p outer inner gap rot) = .error .valueError := by
  have hi' : (0 : ℝ) < inner := by exact_mod_cast hi
  have hg' : (inner : ℝ) < gap := by exact_mod_cast hg
  have h1 : (1 : ℝ) < (gap : ℝ) / 2 / ((inner : ℝ) / 2) := by
    rw [lt_div_iff₀ (by linarith)]
    linarith
  simp only [toPrimitive, thermalShape, fdiv, asin, bind, Except.bind]
  rw [if_neg (by linarith)]
  simp only
  rw [if_pos (.inr h1)]

/-- **C63 fails for the lines of thermals**: those of each quarter all start at its first corner. -/
theorem C63_thermal_chain_violated (p : ℚ × ℚ) {outer inner gap : ℚ} (rot : ℚ) (hi : 0 < inner)
    (ho : inner ≤ outer) (hg : 0 ≤ gap) (hgap : 2 * gap ^ 2 < inner ^ 2) :
    ∃ areas : List (List (RPt × RPt)),
      toPrimitive (.thermal p outer inner gap rot) = .ok (areas.map fun lines => ⟨true, .outline lines⟩) ∧
      areas.length = 4 ∧ ∀ lines ∈ areas, ¬ Connected lines := by
  obtain ⟨c, l, hq, h⟩ := thermal_spec p rot hi ho hg hgap.le
  refine ⟨[0, 90, 180, 270].map fun a : ℝ => fan (turned (toR p) (rot + a) c)
    ((l ++ [c]).map (turned (toR p) (rot + a))), ?_, by simp, ?_⟩
  · rw [h, List.map_map]
    rfl
  · intro lines hm hc
    obtain ⟨a, -, rfl⟩ := List.mem_map.1 hm
    have hturn := hq.turn
    rw [List.getElem?_cons_succ] at hturn
    have he := turned_injective _ _ (connected_fan hc _ (by
      rw [List.map_append, List.map_singleton, List.dropLast_concat]
      exact List.mem_map_of_mem (List.mem_of_getElem? hturn)))
    have hfirst := hq.first
    rw [List.getElem?_cons_zero] at hfirst
    injection hfirst with hfirst
    rw [hfirst] at he
    have h2 : (gap : ℝ) / 2 = Real.sqrt (((inner : ℝ) / 2) ^ 2 - ((gap : ℝ) / 2) ^ 2) := congrArg Prod.fst he
    have hgap' : 2 * (gap : ℝ) ^ 2 < (inner : ℝ) ^ 2 := by exact_mod_cast hgap
    have h3 := Real.sq_sqrt (show 0 ≤ ((inner : ℝ) / 2) ^ 2 - ((gap : ℝ) / 2) ^ 2 by nlinarith [sq_nonneg (gap : ℝ)])
    rw [← h2] at h3
    nlinarith

/-! ## What is not drawn -/

/-- **C63 fails for moires and lower-left lines**: nothing is drawn. -/
theorem C63_nothing_violated :
    (∀ p d t g n ct cl r, toPrimitive (.moire p d t g n ct cl r) = .ok []) ∧
    (∀ on w h ll r, toPrimitive (.lowerLeft on w h ll r) = .ok []) :=
  ⟨fun _ _ _ _ _ _ _ _ => rfl, fun _ _ _ _ _ => rfl⟩

/-- **C63**: comments draw nothing. -/
theorem C63_comment (c : Str) : toPrimitive (.comment c) = .ok [] := rfl

/-! ## Groups -/

/-- **C63 for groups**: if every primitive has a shape, the shapes of the group are theirs, in the order of the
primitives; nothing is added, dropped or merged. -/
theorem C63_group {prims : List AmPrim} {parts : List (List Drawn)}
    (h : List.Forall₂ (fun a s => toPrimitive a = .ok s) prims parts) : groupShapes prims = .ok parts.flatten := by
  have hm : prims.mapM toPrimitive = .ok parts := by
    induction h with
    | nil => rfl
    | cons h1 _ ih => simp [List.mapM_cons, h1, ih, bind, Except.bind, pure, Except.pure]
  unfold groupShapes
  rw [hm]
  rfl

/-- A circle and a clear square. -/
example : ∃ a b, groupShapes [.circle true 1 (0, 0), .comment "x".toList, .centerLine false 1 1 (0, 0) 0] =
    .ok [⟨true, a⟩, ⟨false, b⟩] := by
  obtain ⟨_, h, -⟩ := C63_center_line false (w := 1) (h := 1) (by norm_num) (by norm_num) (0, 0) 0
  have hc : toPrimitive (.circle true 1 (0, 0)) = .ok [⟨true, .circle (toR (0, 0)) ((1 : ℚ) : ℝ)⟩] := rfl
  exact ⟨_, _, C63_group (.cons hc (.cons (C63_comment "x".toList) (.cons h .nil)))⟩

/-- **C63 fails for groups with one primitive without a shape**: the whole macro has none. -/
theorem C63_group_violated {pre post : List AmPrim} {a : AmPrim} {x : PyErr}
    (hpre : ∀ b ∈ pre, ∃ s, toPrimitive b = .ok s) (h : toPrimitive a = .error x) :
    groupShapes (pre ++ a :: post) = .error x := by
  have hm : (pre ++ a :: post).mapM toPrimitive = .error x := by
    induction pre with
    | nil => simp [List.mapM_cons, h, bind, Except.bind]
    | cons b l ih =>
      obtain ⟨s, hs⟩ := hpre b (by simp)
      rw [List.cons_append, List.mapM_cons, hs, ih fun c hc => hpre c (List.mem_cons_of_mem _ hc)]
      rfl
  unfold groupShapes
  rw [hm]
  rfl

/-- A circle and a thermal without a hole. -/
example : groupShapes [.circle true 1 (0, 0), .thermal (0, 0) 1 0 0 0] = .error .zeroDivisionError :=
  C63_group_violated (pre := [.circle true 1 (0, 0)]) (post := []) (fun b hb => by
    rw [List.mem_singleton] at hb
    subst hb
    exact ⟨_, rfl⟩) (C63_thermal_hole_violated _ _ _ _)

end Verif.Am
