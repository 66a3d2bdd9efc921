import Verif.Spec.FromPart
import Verif.Props.MacroPicture
import Verif.Props.GroupWrite

/-! # C81: a macro primitive that is made of an object looks like the object -/

namespace Verif.Am

open Verif.Py Verif.Geom Verif.Rs274x

/-! ## Rounding -/

theorem round6_close (v : ℚ) : |round6 v - v| ≤ 1 / 2000000 := by
  have key : ∀ x : ℚ, 0 ≤ x → |(rne (x * 10 ^ 6) : ℚ) / 10 ^ 6 - x| ≤ 1 / 2000000 := by
    intro x hx
    have h := rne_spec (x := x * 10 ^ 6) (by positivity)
    rw [abs_le] at h ⊢
    constructor
    · rw [le_sub_iff_add_le, le_div_iff₀ (by norm_num)]; linarith [h.1]
    · rw [sub_le_iff_le_add, div_le_iff₀ (by norm_num)]; linarith [h.2]
  unfold round6
  split_ifs with hv
  · have h := key (-v) (by linarith)
    rw [abs_sub_comm] at h
    rw [show -(rne (-v * 10 ^ 6) : ℚ) / 10 ^ 6 - v = -v - (rne (-v * 10 ^ 6) : ℚ) / 10 ^ 6 by ring]
    exact h
  · exact key v (not_lt.mp hv)

theorem round6_grid {v : ℚ} (h : OnGrid v) : round6 v = v := by
  obtain ⟨k, rfl⟩ := h
  unfold round6
  split_ifs with hv
  · have hk : k < 0 := by
      by_contra hn
      have : (0 : ℚ) ≤ k := by exact_mod_cast not_lt.mp hn
      exact absurd hv (not_lt.mpr (by positivity))
    have e : -((k : ℚ) / 10 ^ 6) * 10 ^ 6 = ((-k).toNat : ℕ) := by
      have : (((-k).toNat : ℤ) : ℚ) = ((-k : ℤ) : ℚ) := by rw [Int.toNat_of_nonneg (by omega)]
      rw [← Int.cast_natCast (R := ℚ), this]; push_cast; ring
    rw [e, rne_natCast]
    have : (((-k).toNat : ℤ) : ℚ) = ((-k : ℤ) : ℚ) := by rw [Int.toNat_of_nonneg (by omega)]
    rw [← Int.cast_natCast (R := ℚ), this]; push_cast; ring
  · have hk : 0 ≤ k := by
      by_contra hn
      have : (k : ℚ) < 0 := by exact_mod_cast not_le.mp hn
      exact hv (div_neg_of_neg_of_pos this (by norm_num))
    have this : ((k.toNat : ℤ) : ℚ) = (k : ℚ) := by rw [Int.toNat_of_nonneg hk]
    have e : (k : ℚ) / 10 ^ 6 * 10 ^ 6 = (k.toNat : ℕ) := by
      rw [← Int.cast_natCast (R := ℚ), this]; ring
    rw [e, rne_natCast, ← Int.cast_natCast (R := ℚ), this]

theorem roundPt_grid {p : ℚ × ℚ} (h1 : OnGrid p.1) (h2 : OnGrid p.2) : roundPt p = p := by
  simp only [roundPt, round6_grid h1, round6_grid h2]

/-! ## Which objects -/

/-- **C81**: which objects a macro primitive is made of; for all others there is an exception. -/
theorem C81_made_iff (degrees : ℚ → ℚ) (x : Part) : (∃ a, fromPart degrees x = .ok a) ↔ x.Makes := by
  cases x with
  | circle d p => simp [fromPart, Part.Makes]
  | rectangle w h r p => simp [fromPart, Part.Makes]
  | line s e w => cases w <;> simp [fromPart, Part.Makes]
  | other => simp [fromPart, Part.Makes]
  | polygon n p r rot =>
    simp only [fromPart, Part.Makes]
    split_ifs with h
    · simp only [exists_false, false_iff]; omega
    · simp only [Except.ok.injEq, exists_eq', true_iff]; omega
  | outline ls =>
    simp only [fromPart, Part.Makes]
    cases h1 : ls.head? <;> cases h2 : ls.getLast? <;> simp
    split_ifs with h
    · simp [h]
    · simp [h]

/-- The theorem applies in both directions: a polygon with twelve sides, and one with thirteen. -/
example : (∃ a, fromPart id (.polygon 12 (1, 2) 3 4) = .ok a) ∧ ¬ ∃ a, fromPart id (.polygon 13 (1, 2) 3 4) = .ok a := by
  rw [C81_made_iff, C81_made_iff]; simp [Part.Makes]

/-! ## Areas -/

theorem placed_still {p : ℚ × ℚ} {rot : ℚ} (h : p = (0, 0) ∨ rot = 0) (S : Set RPt) :
    placed (0, 0) rot (placed (toR p) 0 S) = placed (toR p) rot S := by
  have h0 := placed_turn (0, 0) (toR p) rot S
  rw [turned_still h] at h0
  have e : ∀ T : Set RPt, placed (0, 0) 0 T = T := by
    intro T; ext q; simp [placed, radians]
  rw [e] at h0
  rw [h0]
  congr 1
  simp [shift]

theorem turned_none (p : RPt) : turned (0, 0) 0 p = p := by simp [turned, radians]

/-- **C81 for objects whose area can be kept**: the primitive is exposed and has the area of the object. Missing: turned
rectangles, polygons that are turned and not at the origin, and lines (see below); corners of outlines are rounded. -/
theorem C81_area_partial {degrees : ℚ → ℚ} (h0 : degrees 0 = 0) {x : Part} (h : x.Kept) :
    ∃ a, fromPart degrees x = .ok a ∧ a.exposed = true ∧ a.area = x.area := by
  cases x with
  | circle d p => exact ⟨_, rfl, rfl, rfl⟩
  | rectangle w v r p =>
    obtain rfl : r = 0 := h
    refine ⟨_, rfl, rfl, ?_⟩
    simp only [AmPrim.area, Part.area, h0]
    exact placed_still (.inr rfl) _
  | line s e w => exact absurd h (by simp [Part.Kept])
  | other => exact absurd h (by simp [Part.Kept])
  | polygon n p r rot =>
    obtain ⟨h1, h2, h3⟩ := h
    refine ⟨.polygon true n p (r * 2) rot, ?_, rfl, ?_⟩
    · simp only [fromPart]; rw [if_neg (by omega)]
    · have : (((r * 2 : ℚ) : ℝ)) / 2 = r := by push_cast; ring
      simp only [AmPrim.area, Part.area, this]
      exact placed_still h3 _
  | outline ls =>
    obtain ⟨a, z, h1, h2, h3, h4, h5, h6⟩ := h
    have hz : z ∈ ls := List.mem_of_getLast? h2
    refine ⟨.outline true a.1 (ls.map fun l => l.2) 0, ?_, rfl, ?_⟩
    · have hm : (ls.map fun l => roundPt l.2) = ls.map fun l => l.2 :=
        List.map_congr_left fun l hl => roundPt_grid (h6 l hl).1 (h6 l hl).2
      simp only [fromPart, h1, h2, h3, roundPt_grid h4 h5, hm]
      simp
    · cases ls with
      | nil => simp at hz
      | cons l ls =>
        obtain rfl : l = a := by simpa using h1
        simp only [AmPrim.area, Part.area, Rat.cast_zero, turned_none, List.map_cons, List.map_map, toR]
        rfl

/-- The theorem applies to a polygon beside the origin and to an outline. -/
example : (Part.polygon 5 (1, 2) 3 0).Kept ∧
    (Part.outline [((0, 0), (1, 0)), ((1, 0), (0, 1/2)), ((0, 1/2), (0, 0))]).Kept := by
  refine ⟨by simp [Part.Kept], _, _, rfl, rfl, rfl, ⟨0, by norm_num⟩, ⟨0, by norm_num⟩, ?_⟩
  intro l hl
  simp only [List.mem_cons, List.not_mem_nil, or_false] at hl
  rcases hl with rfl | rfl | rfl
  · exact ⟨⟨1000000, by norm_num⟩, ⟨0, by norm_num⟩⟩
  · exact ⟨⟨0, by norm_num⟩, ⟨500000, by norm_num⟩⟩
  · exact ⟨⟨0, by norm_num⟩, ⟨0, by norm_num⟩⟩

/-- **C81 for outlines**: the primitive has a corner for every line, and no coordinate of a corner is off by more than
half a millionth. -/
theorem C81_outline {degrees : ℚ → ℚ} {ls : List ((ℚ × ℚ) × (ℚ × ℚ))} {a : AmPrim}
    (h : fromPart degrees (.outline ls) = .ok a) :
    ∃ l s ps, ls.head? = some l ∧ a = .outline true s ps 0 ∧ ps.getLast? = some s ∧
      |s.1 - l.1.1| ≤ 1 / 2000000 ∧ |s.2 - l.1.2| ≤ 1 / 2000000 ∧
      List.Forall₂ (fun p x => |p.1 - x.2.1| ≤ 1 / 2000000 ∧ |p.2 - x.2.2| ≤ 1 / 2000000) ps ls := by
  simp only [fromPart] at h
  cases h1 : ls.head? with
  | none => simp [h1] at h
  | some l =>
    cases h2 : ls.getLast? with
    | none => simp [h1, h2] at h
    | some z =>
      simp only [h1, h2] at h
      split_ifs at h with hc
      obtain rfl := Except.ok.inj h
      refine ⟨l, _, _, rfl, rfl, ?_, round6_close _, round6_close _, ?_⟩
      · rw [List.getLast?_map, h2, Option.map_some, not_not.mp hc]
      · rw [List.forall₂_map_left_iff]
        exact List.forall₂_same.2 fun x _ => ⟨round6_close _, round6_close _⟩

/-- The theorem applies to an outline whose corners are rounded. -/
example : fromPart id (.outline [((1/3, 0), (1, 0)), ((1, 0), (1/3, 0))]) =
    .ok (.outline true (333333 / 1000000, 0) [(1, 0), (333333 / 1000000, 0)] 0) := by decide +kernel

/-- **C81 for what the package paints** for the primitives: the area of the object, also for polygons turned beside the
origin.  Missing: turned rectangles and lines. -/
theorem C81_painted_partial {degrees : ℚ → ℚ} (h0 : degrees 0 = 0) {x : Part} {a : AmPrim}
    (hx : x.Kept ∨ ∃ n p r rot, x = .polygon n p r rot) (h : fromPart degrees x = .ok a) (c : RPt) :
    a.painted c = [(true, placed c 0 x.area)] := by
  have poly : ∀ n p r rot, x = .polygon n p r rot → a.painted c = [(true, placed c 0 x.area)] := by
    rintro n p r rot rfl
    simp only [fromPart] at h
    split_ifs at h
    obtain rfl := Except.ok.inj h
    have : (((r * 2 : ℚ) : ℝ)) / 2 = r := by push_cast; ring
    simp only [AmPrim.painted, Part.area, this, toR]
  rcases hx with hx | ⟨n, p, r, rot, rfl⟩
  · obtain ⟨b, hb, -, hab⟩ := C81_area_partial h0 hx
    obtain rfl := Except.ok.inj (h.symm.trans hb)
    cases x with
    | circle d p => obtain rfl := Except.ok.inj h; rfl
    | rectangle w v r p =>
      obtain rfl : r = 0 := hx
      obtain rfl := Except.ok.inj h
      simp only [AmPrim.painted, Part.area, h0, toR]
    | polygon n p r rot => exact poly n p r rot rfl
    | line s e w => exact absurd hx (by simp [Part.Kept])
    | other => exact absurd hx (by simp [Part.Kept])
    | outline ls =>
      rw [← hab]
      obtain ⟨l, s, ps, -, rfl, -⟩ := C81_outline h
      rfl
  · exact poly n p r rot rfl

/-- The theorem applies to a turned polygon beside the origin. -/
example (c : RPt) : (AmPrim.polygon true 5 (1, 2) 6 30).painted c =
    [(true, placed c 0 (Part.polygon 5 (1, 2) 3 30).area)] :=
  C81_painted_partial (degrees := id) rfl (.inr ⟨_, _, _, _, rfl⟩) (by decide +kernel) c

/-! ## Groups -/

theorem image_exposed {as : List AmPrim} (h : ∀ a ∈ as, a.exposed = true) : Image as = {q | ∃ a ∈ as, q ∈ a.area} := by
  ext q
  constructor
  · rintro ⟨before, a, after, rfl, -, hq, -⟩
    exact ⟨a, by simp, hq⟩
  · rintro ⟨a, ha, hq⟩
    induction as generalizing a with
    | nil => simp at ha
    | cons b as ih =>
      by_cases hex : ∃ a ∈ as, q ∈ a.area
      · obtain ⟨a', ha', hq'⟩ := hex
        obtain ⟨before, a2, after, rfl, h1, h2, h3⟩ := ih (fun x hx => h x (by simp [hx])) a' ha' hq'
        exact ⟨b :: before, a2, after, rfl, h1, h2, h3⟩
      · push Not at hex
        rcases List.mem_cons.mp ha with rfl | ha
        · exact ⟨[], a, as, rfl, h a (by simp), hq, hex⟩
        · exact absurd hq (hex a ha)

theorem image_shapes (as : List AmPrim) (h : ∀ a ∈ as, isShape a = false → a.area = ∅) :
    {q | ∃ a ∈ as, q ∈ a.area} = {q | ∃ a ∈ as.filter isShape, q ∈ a.area} := by
  ext q
  constructor
  · rintro ⟨a, ha, hq⟩
    refine ⟨a, List.mem_filter.2 ⟨ha, ?_⟩, hq⟩
    by_contra hn
    rw [h a ha (by simpa using hn)] at hq
    exact hq
  · rintro ⟨a, ha, hq⟩
    exact ⟨a, List.mem_of_mem_filter ha, hq⟩

/-- **C81 for groups of dark objects**: the primitives made of the objects stand for the union of their areas; and so do
the primitives read from the text of these, if it holds all digits.  Missing: as for single objects. -/
theorem C81_group_partial {degrees : ℚ → ℚ} (h0 : degrees 0 = 0) {parts : List Part} (h : ∀ x ∈ parts, x.Kept) :
    ∃ as, parts.mapM (fromPart degrees) = .ok as ∧ Image as = {q | ∃ x ∈ parts, q ∈ x.area} ∧
      (parts ≠ [] → (∀ a ∈ as, Plainly a) → ∃ text qs, bodyText as = text ++ ['*'] ∧ build text [] = .ok qs ∧
        Image (qs.filter isShape) = {q | ∃ x ∈ parts, q ∈ x.area}) := by
  have key : ∃ as, parts.mapM (fromPart degrees) = .ok as ∧ (∀ a ∈ as, a.exposed = true) ∧
      List.Forall₂ (fun a x => a.area = x.area) as parts ∧ ∀ a ∈ as, isShape a = true := by
    induction parts with
    | nil => exact ⟨[], rfl, by simp, .nil, by simp⟩
    | cons x parts ih =>
      obtain ⟨as, h1, h2, h3, h4⟩ := ih fun y hy => h y (by simp [hy])
      obtain ⟨a, ha, hex, har⟩ := C81_area_partial h0 (h x (by simp))
      have hs : isShape a = true := by
        cases x with
        | circle => obtain rfl := Except.ok.inj ha; rfl
        | rectangle => obtain rfl := Except.ok.inj ha; rfl
        | line s e w => exact absurd (h _ List.mem_cons_self) (by simp [Part.Kept])
        | other => simp [fromPart] at ha
        | polygon n p r rot =>
          simp only [fromPart] at ha
          split_ifs at ha
          obtain rfl := Except.ok.inj ha; rfl
        | outline ls => obtain ⟨l, s, ps, -, rfl, -⟩ := C81_outline ha; rfl
      refine ⟨a :: as, ?_, ?_, .cons har h3, ?_⟩
      · simp only [List.mapM_cons, ha, h1, bind, Except.bind, pure, Except.pure]
      · intro b hb
        rcases List.mem_cons.mp hb with rfl | hb
        exacts [hex, h2 b hb]
      · intro b hb
        rcases List.mem_cons.mp hb with rfl | hb
        exacts [hs, h4 b hb]
  obtain ⟨as, h1, h2, h3, h4⟩ := key
  have hun : {q | ∃ a ∈ as, q ∈ a.area} = {q | ∃ x ∈ parts, q ∈ x.area} := by
    clear h1 h2 h4
    induction h3 with
    | nil => simp
    | cons hx h3 ih =>
      have ih := ih fun y hy => h y (by simp [hy])
      ext q
      have := Set.ext_iff.mp ih q
      simp only [Set.mem_ofPred_eq, List.mem_cons, exists_eq_or_imp] at this ⊢
      rw [this, hx]
  have himg : Image as = {q | ∃ x ∈ parts, q ∈ x.area} := (image_exposed h2).trans hun
  refine ⟨as, h1, himg, fun hne hp => ?_⟩
  have hne' : as ≠ [] := by
    rintro rfl
    cases h3
    exact hne rfl
  obtain ⟨text, ht⟩ : ∃ t, bodyText as = t ++ ['*'] := by
    rcases as.eq_nil_or_concat with rfl | ⟨qs, q, rfl⟩
    · exact absurd rfl hne'
    · obtain ⟨-, -, t, ht⟩ := toGerber_neat (hp q (by simp))
      exact ⟨bodyText qs ++ t, by simp [bodyText, ht]⟩
  obtain ⟨qs, hq1, hq2⟩ := rebuild id (.inl rfl) as (fun a ha => (hp a ha).rebuildable) (by simpa using ht) []
  refine ⟨text, qs, ht, hq1, ?_⟩
  rw [hq2, List.filter_eq_self.2 h4, himg]

/-- The theorem applies to a group of a circle and a rectangle, also to its text. -/
example : (∀ x ∈ [Part.circle 2 (0, 0), .rectangle 3 1 0 (1, 0)], x.Kept) ∧
    [Part.circle 2 (0, 0), .rectangle 3 1 0 (1, 0)].mapM (fromPart id) =
      .ok [.circle true 2 (0, 0), .centerLine true 3 1 (1, 0) 0] ∧
    ∀ a ∈ [AmPrim.circle true 2 (0, 0), .centerLine true 3 1 (1, 0) 0], Plainly a := by
  have d0 : ∀ P, FixedDigits P 0 := fun P => ⟨0, 0, by simp, by simp, .inl rfl⟩
  have d : ∀ (P n : ℕ), n < 10 ^ P → 1 ≤ n → FixedDigits P n := by
    intro P n h h1
    refine ⟨n, 0, by simpa using h, by simp, .inr ?_⟩
    have : (1 : ℚ) ≤ n := by exact_mod_cast h1
    rw [abs_of_pos (by linarith)]
    exact le_trans (by norm_num) this
  refine ⟨by simp [Part.Kept], rfl, ?_⟩
  intro a ha
  simp only [List.mem_cons, List.not_mem_nil, or_false] at ha
  rcases ha with rfl | rfl
  · exact .inl ⟨d 15 2 (by norm_num) (by norm_num), d0 _, d0 _⟩
  · exact .inl ⟨d 15 3 (by norm_num) (by norm_num), by simpa using d 15 1 (by norm_num) (by norm_num),
      by simpa using d 4 1 (by norm_num) (by norm_num), d0 _, d0 _⟩

/-! ## What goes wrong -/

/-- **C81 is violated by turned rectangles**: their rotation is in degrees already, and is taken for radians.  A rectangle
turned by one degree becomes one turned by 57. -/
theorem C81_rectangle_violated {degrees : ℚ → ℚ} (hd : |(degrees 1 : ℝ) - 180 / Real.pi| ≤ 1) :
    ∃ a, fromPart degrees (.rectangle 20 1 1 (0, 0)) = .ok a ∧ a.area ≠ (Part.rectangle 20 1 1 (0, 0)).area := by
  refine ⟨_, rfl, fun he => ?_⟩
  have hp3 := Real.pi_gt_three
  have hp4 := Real.pi_lt_four
  obtain ⟨φ, hφ⟩ : ∃ φ, φ = radians (degrees 1) := ⟨_, rfl⟩
  have hφ1 : |φ - 1| ≤ Real.pi / 180 := by
    have : φ - 1 = ((degrees 1 : ℝ) - 180 / Real.pi) * (Real.pi / 180) := by
      rw [hφ, radians]; field_simp
    rw [this, abs_mul, abs_of_pos (by positivity : 0 < Real.pi / 180)]
    nlinarith
  have hx := abs_le.mp hφ1
  have hmem : (10 * Real.cos φ, 10 * Real.sin φ) ∈ (AmPrim.centerLine true 20 1 (0, 0) (degrees 1)).area := by
    refine ⟨(10, 0), ⟨(10, 0), ?_, ?_⟩, ?_⟩
    · simp [slab]; norm_num
    · simp [radians]
    · simp [← hφ]; constructor <;> ring
  rw [he] at hmem
  obtain ⟨p, ⟨-, hp⟩, hq⟩ := hmem
  obtain ⟨θ, hθ⟩ : ∃ θ, θ = radians ((1 : ℚ) : ℝ) := ⟨_, rfl⟩
  rw [← hθ] at hq
  have hθ' : θ = Real.pi / 180 := by rw [hθ, radians]; simp
  have e1 := congrArg Prod.fst hq
  have e2 := congrArg Prod.snd hq
  simp only [toR, Rat.cast_zero, zero_add] at e1 e2
  have hsq := Real.cos_sq_add_sin_sq θ
  have key : 10 * Real.sin (φ - θ) = p.2 := by
    rw [Real.sin_sub]
    linear_combination Real.cos θ * e2 - Real.sin θ * e1 + p.2 * hsq
  have hlow : 9 / 10 ≤ φ - θ := by rw [hθ']; linarith [hx.1]
  have hup : φ - θ ≤ 1 := by rw [hθ']; linarith [hx.2]
  have hs := Real.sin_gt_sub_cube (by linarith : 0 < φ - θ)
  have hcube : (φ - θ) ^ 3 ≤ 1 := pow_le_one₀ (by linarith) hup
  have := (abs_le.mp hp).2
  norm_num at this
  linarith

/-- **C81 is violated by turned polygons beside the origin**: macro primitives are turned about the origin. -/
theorem C81_polygon_violated (degrees : ℚ → ℚ) :
    ∃ a, fromPart degrees (.polygon 4 (10, 0) 1 90) = .ok a ∧ a.area ≠ (Part.polygon 4 (10, 0) 1 90).area := by
  refine ⟨.polygon true 4 (10, 0) (1 * 2) 90, by simp [fromPart], fun he => ?_⟩
  have hmem : (10, 1) ∈ (Part.polygon 4 (10, 0) 1 90).area := by
    refine (Verif.Cairo.placed_90 _ _ _).2 (subset_convexHull _ _ ⟨0, by norm_num, ?_⟩)
    simp [toR]
  rw [← he] at hmem
  obtain ⟨p, ⟨r, hr, rfl⟩, hq⟩ := hmem
  have hb := (regular_bound _ _ r hr)
  have e : radians ((90 : ℚ) : ℝ) = Real.pi / 2 := by unfold radians; push_cast; ring
  rw [e] at hq
  have e1 := congrArg Prod.fst hq
  simp [radians] at e1
  have := abs_le.mp hb.2
  norm_num at this
  linarith

/-- The square end of a line drawn with a rectangle is not in the rectangle around the line. -/
theorem swept_bar {w v : ℝ} (hw : 0 < w) (hv : 0 < v) {s e : RPt} (hse : s ≠ e) :
    bar w s e ≠ swept (straight s e) (slab w v) := by
  intro heq
  obtain ⟨L, hL⟩ : ∃ L, L = Real.sqrt ((e.1 - s.1) ^ 2 + (e.2 - s.2) ^ 2) := ⟨_, rfl⟩
  have hpos : 0 < (e.1 - s.1) ^ 2 + (e.2 - s.2) ^ 2 := by
    by_contra hn
    have h1 : (e.1 - s.1) ^ 2 = 0 := by nlinarith [sq_nonneg (e.1 - s.1), sq_nonneg (e.2 - s.2)]
    have h2 : (e.2 - s.2) ^ 2 = 0 := by nlinarith [sq_nonneg (e.1 - s.1), sq_nonneg (e.2 - s.2)]
    rw [pow_eq_zero_iff two_ne_zero] at h1 h2
    exact hse (Prod.ext (by linarith) (by linarith))
  have hLpos : 0 < L := by rw [hL]; exact Real.sqrt_pos.2 hpos
  have hLsq : L ^ 2 = (e.1 - s.1) ^ 2 + (e.2 - s.2) ^ 2 := by rw [hL]; exact Real.sq_sqrt hpos.le
  obtain ⟨m, hm⟩ : ∃ m, m = min (w / 2) (v / 2) := ⟨_, rfl⟩
  have hm0 : 0 < m := by rw [hm]; exact lt_min (by linarith) (by linarith)
  have hmem : (e.1 + m * ((e.1 - s.1) / L), e.2 + m * ((e.2 - s.2) / L)) ∈ swept (straight s e) (slab w v) := by
    have hd : ∀ x : ℝ, x ^ 2 ≤ L ^ 2 → |m * (x / L)| ≤ m := by
      intro x hx
      rw [abs_mul, abs_of_pos hm0, abs_div, abs_of_pos hLpos]
      have : |x| / L ≤ 1 := div_le_one_of_le₀ (abs_le_of_sq_le_sq hx hLpos.le) hLpos.le
      nlinarith
    refine ⟨e, ⟨1, by norm_num, le_refl _, by simp⟩, (m * ((e.1 - s.1) / L), m * ((e.2 - s.2) / L)),
      ⟨(hd _ ?_).trans (hm ▸ min_le_left _ _), (hd _ ?_).trans (hm ▸ min_le_right _ _)⟩, rfl⟩
    · rw [hLsq]; nlinarith [sq_nonneg (e.2 - s.2)]
    · rw [hLsq]; nlinarith [sq_nonneg (e.1 - s.1)]
  rw [← heq] at hmem
  obtain ⟨t, u, h0, h1, hu, hq⟩ := hmem
  rw [← hL] at hq
  have e1 := congrArg Prod.fst hq
  have e2 := congrArg Prod.snd hq
  simp only at e1 e2
  have key : (1 - t) * L ^ 2 + m * L = 0 := by
    have : (1 - t) * ((e.1 - s.1) ^ 2 + (e.2 - s.2) ^ 2) + m * (((e.1 - s.1) ^ 2 + (e.2 - s.2) ^ 2) / L) = 0 := by
      field_simp at e1 e2 ⊢
      linear_combination (e.1 - s.1) * e1 + (e.2 - s.2) * e2
    rw [← hLsq] at this
    rw [show L ^ 2 / L = L by field_simp] at this
    exact this
  nlinarith [mul_pos hm0 hLpos, mul_nonneg (sub_nonneg.2 h1) (sq_nonneg L)]

/-- **C81 is violated by every line** drawn with a rectangle, whatever its height: its ends are cut off. -/
theorem C81_line_violated (degrees : ℚ → ℚ) {w : ℚ} (hw : 0 < w) {v : ℝ} (hv : 0 < v) {s e : ℚ × ℚ} (hse : s ≠ e) :
    ∃ a, fromPart degrees (.line s e (some w)) = .ok a ∧ a.area ≠ swept (straight (toR s) (toR e)) (slab w v) := by
  refine ⟨_, rfl, ?_⟩
  have e0 : ∀ T : Set RPt, placed (0, 0) 0 T = T := by
    intro T; ext q; simp [placed, radians]
  simp only [AmPrim.area, Rat.cast_zero, e0]
  refine swept_bar (by exact_mod_cast hw) hv fun h => hse ?_
  have h1 := congrArg Prod.fst h
  have h2 := congrArg Prod.snd h
  simp only [Rat.cast_inj] at h1 h2
  exact Prod.ext h1 h2

/-- The theorem applies. -/
example : (0 : ℚ) < 1 ∧ ((0, 0) : ℚ × ℚ) ≠ (1, 0) := by simp

/-- **C81 is violated by clear objects**: the polarity is not looked at, and what was removed from the group is added. -/
theorem C81_clear_violated (degrees : ℚ → ℚ) :
    ∃ as, ([(true, .circle 4 (0, 0)), (false, .circle 2 (0, 0))].map Prod.snd).mapM (fromPart degrees) = .ok as ∧
      (0, 0) ∈ Image as ∧ (0, 0) ∉ GroupImage [(true, .circle 4 (0, 0)), (false, .circle 2 (0, 0))] := by
  have hin : ∀ d : ℚ, ((0, 0) : RPt) ∈ placed (toR (0, 0)) 0 (disc ((d : ℝ) / 2)) := by
    intro d
    refine ⟨(0, 0), ?_, by simp [toR]⟩
    simp only [disc, Set.mem_ofPred_eq]; norm_num; positivity
  refine ⟨[.circle true 4 (0, 0), .circle true 2 (0, 0)], rfl, ?_, ?_⟩
  · exact ⟨[.circle true 4 (0, 0)], _, [], rfl, rfl, hin 2, by simp⟩
  · rintro ⟨before, a, after, h1, h2, h3, h4⟩
    match before, h1 with
    | [], h1 =>
      obtain ⟨rfl, rfl⟩ := List.cons.inj h1
      exact h4 (false, .circle 2 (0, 0)) (by simp) (hin 2)
    | [_], h1 =>
      obtain ⟨-, h1⟩ := List.cons.inj h1
      obtain ⟨rfl, -⟩ := List.cons.inj h1
      simp at h2
    | _ :: _ :: before, h1 => simp at h1

end Verif.Am
