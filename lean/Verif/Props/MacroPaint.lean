import Verif.Props.MacroPictureFail

/-! # C76: vector lines and thermals -/

namespace Verif.Gerber
open Verif.Py Verif.Cairo Verif.Geom Verif.Render Verif.Am

/-- **C76, from the text, for all macros that do not make drawing fail.** Every point that lies at least one pixel lower
than some point of each of the areas containing it is painted exactly if the last of the areas containing it is one that
is added. -/
theorem C76_painted_text {K : Engine} (hK : K.Winding) {center : String → Pt → Pt → Pt → Option Pt}
    {fs : Str → Option Str} {data : Str} {f : GerberFile (List AmPrim)} (hf : loads (macroEnv center) fs data = .ok f) :
    ∃ stmts settings, parseText fs data = .ok (stmts, settings) ∧
      let Ps := picture (macroEnv center) stmts.reverse
      (Ps ≠ [] → (∀ P ∈ Ps, P.Paints) → ∀ s : ℝ, 0 < s →
        ∃ (b : Box) (area : Set RPt) (c : Cairo.Ctx), Am.render K f { scale := s } = .ok c ∧
          c.frame = some (Frame.of s b) ∧
          c.paints = [.background [0, 0, 0] 1, .layer [7215 / 10000, 451 / 1000, 200 / 1000] 1 area] ∧
          (∀ x ∈ Ps.flatMap Prim.painted, ∀ p ∈ x.2, Visible (Frame.of s b).sizePx (onPicture b s false p)) ∧
          (∀ q ∈ area, ∃ x ∈ Ps.flatMap Prim.painted, x.1 = true ∧ ∃ p ∈ x.2, q = onPicture b s false p) ∧
          ∀ p, (∀ x ∈ Ps.flatMap Prim.painted, p ∈ x.2 → ∃ p' ∈ x.2, s * p.2 ≤ s * p'.2 - 1) →
            (onPicture b s false p ∈ area ↔ LastDark (Ps.flatMap Prim.painted) p)) := by
  obtain ⟨stmts, settings, h1, h2⟩ := C14_file_picture (macroEnv center) fs data hf
  refine ⟨stmts, settings, h1, ?_⟩
  intro Ps hne h s hs
  have h2 : f.primitives = Ps := h2
  rw [← h2] at hne h ⊢
  obtain ⟨b, area, h3, h4, h5, h6⟩ := C76_painted hK hne h hs
  exact ⟨b, area, _, h3, rfl, rfl, h4, h5, h6⟩

/-- A vector line. -/
def barMacro : List AmPrim := [.vectorLine 20 true 1 (0, 0) (4, 0) 0]

def barFile : List String := ["%FSLAX24Y24*%", "%MOIN*%", "%AMBAR*20,1,1,0,0,4,0,0*%", "%ADD10BAR*%", "D10*", "X0Y0D03*",
  "M02*"]

theorem bar_paints (p : Pt) (pol u : String) : (.flash (.group barMacro) p pol u : Prim (List AmPrim)).Paints := by
  refine ⟨?_, _, List.mem_singleton_self _, trivial⟩
  simp [barMacro, AmPrim.Paints]

theorem bar_primitives : ∃ f, readMacros barFile = .ok f ∧
    f.primitives = [.flash (.group barMacro) (0, 0) "dark" "inch"] := by
  have hg : ∃ x, groupShapes barMacro = .ok x := by
    obtain ⟨lines, h, -⟩ := C63_vector_line_partial 20 true (w := 1) (by norm_num) (0, 0) (4, 0) 0
    exact ⟨_, groupShapes_cons h rfl⟩
  refine readMacros_one (b := "20,1,1,0,0,4,0,0".toList) (ms := [[]]) ⟨_, _, rfl, ?_, ?_⟩ ?_ hg ?_
  · decide +kernel
  · decide +kernel
  · intro m hm
    simp only [List.mem_cons, List.not_mem_nil, or_false] at hm
    subst hm
    decide +kernel
  · decide +kernel

/-- **C76 fails** for vector lines: beyond their ends something is painted, too. -/
theorem C76_vector_line_violated {K : Engine} (hK : K.Winding) :
    ∃ f P b area, readMacros barFile = .ok f ∧ f.primitives = [P] ∧ P.dark = true ∧ Am.render K f = .ok
        { frame := some (Frame.of 300 b), hasBg := true,
          paints := [.background [0, 0, 0] 1, .layer [7215 / 10000, 451 / 1000, 200 / 1000] 1 area] } ∧
      (17 / 4, 0) ∉ P.image ∧ onPicture b 300 false (17 / 4, 0) ∈ area := by
  obtain ⟨f, h1, h2⟩ := bar_primitives
  obtain ⟨b, area, h3, -, -, h4⟩ := C76_painted hK (f := f) (by simp [h2]) (by
    rw [h2]; intro P hP; obtain rfl := List.mem_singleton.mp hP; exact bar_paints _ _ _) (s := 300) (by norm_num)
  have hz : radians 0 = 0 := by simp [radians]
  refine ⟨f, _, b, area, h1, h2, by decide, h3, ?_, ?_⟩
  · simp only [Prim.image, placed_zero, toPlane]
    rintro ⟨before, a, after, he, -, ha, -⟩
    cases before with
    | cons => simp [barMacro] at he
    | nil =>
      simp only [List.nil_append, barMacro, List.cons.injEq] at he
      obtain ⟨rfl, -⟩ := he
      simp only [AmPrim.area, Rat.cast_zero, placed_zero] at ha
      obtain ⟨t, v, h0, h1, hv, e⟩ := ha
      have := congrArg Prod.fst e
      norm_num at this
      linarith
  · rw [h4]
    · rw [h2]
      refine ⟨[], _, [], rfl, ?_, by simp⟩
      simp only [Rat.cast_zero, placed_zero, toPlane]
      refine ⟨(4, 0), ⟨1, by norm_num, by norm_num, by norm_num⟩, (1 / 4, 0), ?_, by norm_num⟩
      simp only [slab, Set.mem_ofPred_eq]
      norm_num [abs_of_pos]
    · rw [h2]
      intro x hx _
      simp only [List.flatMap_cons, List.flatMap_nil, List.append_nil, Prim.painted, barMacro, AmPrim.painted,
        List.mem_singleton] at hx
      subst hx
      refine ⟨(4, 1 / 2), ?_, by norm_num⟩
      simp only [Rat.cast_zero, placed_zero, toPlane]
      refine ⟨(4, 0), ⟨1, by norm_num, by norm_num, by norm_num⟩, (0, 1 / 2), ?_, by norm_num⟩
      simp only [slab, Set.mem_ofPred_eq]
      norm_num [abs_of_pos]

/-! ## Thermals -/

/-- A point of a circle that lies between points of the disc is one of them. -/
theorem circle_corner {R : ℝ} {vs : List RPt} (h : ∀ v ∈ vs, v.1 ^ 2 + v.2 ^ 2 ≤ R ^ 2) {q : RPt}
    (hq : q.1 ^ 2 + q.2 ^ 2 = R ^ 2) (hs : q ∈ span vs) : q ∈ vs := by
  by_contra hn
  have hc : Convex ℝ {v : RPt | v.1 * q.1 + v.2 * q.2 < R ^ 2} :=
    convex_halfSpace_lt (f := fun v : RPt => v.1 * q.1 + v.2 * q.2)
      ⟨fun x y => by simp only [Prod.fst_add, Prod.snd_add]; ring,
       fun c x => by simp only [Prod.smul_fst, Prod.smul_snd, smul_eq_mul]; ring⟩ _
  have := convexHull_min (s := {v | v ∈ vs}) (fun v hv => ?_) hc hs
  · simp only [Set.mem_ofPred_eq] at this
    nlinarith
  · show v.1 * q.1 + v.2 * q.2 < R ^ 2
    have hv' := h v hv
    by_contra hge
    have h0 : (v.1 - q.1) ^ 2 + (v.2 - q.2) ^ 2 ≤ 0 := by nlinarith
    have h1 : v.1 = q.1 := by nlinarith [sq_nonneg (v.1 - q.1), sq_nonneg (v.2 - q.2)]
    have h2 : v.2 = q.2 := by nlinarith [sq_nonneg (v.1 - q.1), sq_nonneg (v.2 - q.2)]
    exact hn (by rw [← (Prod.ext h1 h2 : v = q)]; exact hv)

theorem arcCorners_norm {r g : ℝ} : ∀ v ∈ arcCorners r g, v.1 ^ 2 + v.2 ^ 2 = r ^ 2 := by
  intro v hv
  obtain ⟨i, -, rfl⟩ := List.mem_map.mp hv
  simp only
  generalize Real.arcsin _ + _ = t
  linear_combination r ^ 2 * Real.cos_sq_add_sin_sq t

theorem quarterCorners_norm {o i g : ℝ} (hi : 0 ≤ i) (ho : i ≤ o) :
    ∀ v ∈ quarterCorners o i g, v.1 ^ 2 + v.2 ^ 2 ≤ (o / 2) ^ 2 := by
  intro v hv
  rcases List.mem_append.mp hv with hv | hv
  · rw [arcCorners_norm v hv]
    gcongr
  · rw [arcCorners_norm v (List.mem_reverse.mp hv)]

theorem turned_norm (a : ℝ) (v : RPt) : (turned (0, 0) a v).1 ^ 2 + (turned (0, 0) a v).2 ^ 2 = v.1 ^ 2 + v.2 ^ 2 := by
  simp only [turned]
  linear_combination (v.1 ^ 2 + v.2 ^ 2) * Real.cos_sq_add_sin_sq (radians a)

theorem turned_add (p : RPt) (r a : ℝ) (v : RPt) : turned p (r + a) v = turned p r (turned (0, 0) a v) := by
  have e : radians (r + a) = radians r + radians a := by unfold radians; ring
  unfold turned
  rw [e, Real.cos_add, Real.sin_add]
  ext <;> simp <;> ring

/-- On the outer circle of a thermal there are points that are not painted. -/
theorem thermal_bare {o i g : ℝ} (hi : 0 < i) (ho : i ≤ o) (hg : 0 ≤ g) (hgap : 2 * g ^ 2 < i ^ 2) :
    ∃ q ∈ thermalArea o i g, ∀ a : ℝ, a ∈ ([0, 90, 180, 270] : List ℝ) →
      q ∉ span ((quarterCorners o i g ++ (quarterCorners o i g).take 1).map (turned (0, 0) a)) := by
  have hR : 0 < o / 2 := by linarith
  obtain ⟨α, -, a0, a1, as, -⟩ := offset_angle (r := o / 2) hR hg (by rw [mul_div_cancel₀ _ two_ne_zero]; nlinarith)
  have a2 : α < Real.pi / 4 := by
    refine lt_of_le_of_ne a1 fun he => ?_
    rw [he, Real.sin_pi_div_four] at as
    have h2 : Real.sqrt 2 ^ 2 = 2 := Real.sq_sqrt (by norm_num)
    have h3 : (Real.sqrt 2 / 2 * (o / 2)) ^ 2 = (g / 2) ^ 2 := by rw [as]
    rw [mul_pow, div_pow, h2] at h3
    have h4 : i ^ 2 ≤ o ^ 2 := by gcongr
    linarith
  have hp := Real.pi_pos
  let φ : ℝ → RPt := fun t => (Real.cos t * (o / 2), Real.sin t * (o / 2))
  have hinj : Set.InjOn φ (Set.Icc α (Real.pi / 2 - α)) := by
    intro s hs t ht h
    have := congrArg Prod.fst h
    simp only [φ] at this
    exact Real.injOn_cos ⟨by linarith [hs.1], by linarith [hs.2]⟩ ⟨by linarith [ht.1], by linarith [ht.2]⟩
      (mul_right_cancel₀ hR.ne' this)
  have hinf : (φ '' Set.Icc α (Real.pi / 2 - α)).Infinite :=
    (Set.Icc_infinite (by linarith)).image hinj
  obtain ⟨q, ⟨t, ht, rfl⟩, hq⟩ := hinf.exists_notMem_finite (s := φ '' Set.Icc α (Real.pi / 2 - α))
    (t := {v | v ∈ ([0, 90, 180, 270] : List ℝ).flatMap fun a =>
      (quarterCorners o i g ++ (quarterCorners o i g).take 1).map (turned (0, 0) a)}) (List.finite_toSet _)
  have hn : (φ t).1 ^ 2 + (φ t).2 ^ 2 = (o / 2) ^ 2 := by
    simp only [φ]
    linear_combination (o / 2) ^ 2 * Real.cos_sq_add_sin_sq t
  refine ⟨φ t, ⟨?_, hn.le, ?_, ?_⟩, fun a ha hs => hq ?_⟩
  · rw [hn]; gcongr
  · exact (arc_bounds hR a0 as ht.1 ht.2).1.trans (le_abs_self _)
  · exact (arc_bounds hR a0 as ht.1 ht.2).2.trans (le_abs_self _)
  · refine List.mem_flatMap.mpr ⟨a, ha, circle_corner (R := o / 2) ?_ hn hs⟩
    intro v hv
    obtain ⟨w, hw, rfl⟩ := List.mem_map.mp hv
    rw [turned_norm]
    rcases List.mem_append.mp hw with hw | hw
    · exact quarterCorners_norm hi.le ho w hw
    · exact quarterCorners_norm hi.le ho w (List.mem_of_mem_take hw)

/-- **C76 fails** for every thermal, even if it is not turned or is at the origin: the outer circle is replaced by straight
edges, so that points of the thermal are not painted. -/
theorem C76_thermal_violated {K : Engine} (hK : K.Winding) {f : GerberFile (List AmPrim)} {p : ℚ × ℚ} {o i g r : ℚ}
    {c : Pt} {pol u : String} (hf : f.primitives = [.flash (.group [.thermal p o i g r]) c pol u])
    (hi : 0 < i) (ho : i ≤ o) (hg : 0 ≤ g) (hgap : 2 * g ^ 2 < i ^ 2) (hp : p = (0, 0) ∨ r = 0) {s : ℝ} (hs : 0 < s) :
    ∃ (b : Box) (area : Set RPt), Am.render K f { scale := s } = .ok
        { scale := s, frame := some (Frame.of s b), hasBg := true, count := 0,
          paints := [.background [0, 0, 0] 1, .layer [7215 / 10000, 451 / 1000, 200 / 1000] 1 area] } ∧
      ∃ q ∈ placed (toPlane c) 0 (Image [.thermal p o i g r]), onPicture b s false q ∉ area := by
  obtain ⟨b, area, h1, -, h3, -⟩ := C76_painted hK (f := f) (by simp [hf]) (by
    rw [hf]; intro P hP; obtain rfl := List.mem_singleton.mp hP
    exact ⟨by simpa [AmPrim.Paints] using ⟨hi, ho, hg, hgap.le⟩, _, List.mem_singleton_self _, trivial⟩) hs
  refine ⟨b, area, h1, ?_⟩
  obtain ⟨q, hq, hn⟩ := thermal_bare (o := o) (i := i) (g := g) (by exact_mod_cast hi) (by exact_mod_cast ho)
    (by exact_mod_cast hg) (by exact_mod_cast hgap)
  refine ⟨turned (toPlane c) 0 (turned (toR p) r q), ?_, fun hm => ?_⟩
  · rw [placed_turned]
    refine Set.mem_image_of_mem _ ⟨[], _, [], rfl, rfl, ?_, by simp⟩
    simp only [AmPrim.area]
    have e := placed_turn (0, 0) (toR p) r (thermalArea o i g)
    rw [turned_still hp] at e
    have e2 : Am.shift (0, 0) (toR p) = toR p := by simp [Am.shift]
    have e3 : ∀ A : Set RPt, placed (0, 0) 0 A = A := fun A => by ext x; rw [placed_zero]; simp
    rw [e2, e3] at e
    rw [show (((p.1 : ℝ), (p.2 : ℝ)) : RPt) = toR p from rfl, e, placed_turned]
    exact Set.mem_image_of_mem _ hq
  · obtain ⟨x, hx, -, q', hq', he⟩ := h3 _ hm
    obtain rfl := onPicture_inj hs he
    simp only [hf, List.flatMap_cons, List.flatMap_nil, List.append_nil, Prim.painted, AmPrim.painted] at hx
    obtain ⟨a, ha, rfl⟩ := List.mem_map.mp hx
    simp only at hq'
    rw [placed_turned] at hq'
    obtain ⟨y, hy, e⟩ := hq'
    obtain rfl := turned_injective _ _ e
    have hy := inside_span _ hy
    have e4 : ∀ l : List RPt, l.map (turned ((p.1 : ℝ), (p.2 : ℝ)) ((r : ℝ) + a)) =
        (l.map (turned (0, 0) a)).map (turned (toR p) r) := by
      intro l
      rw [List.map_map]
      exact List.map_congr_left fun v _ => turned_add _ _ _ _
    rw [e4, span_turned, placed_turned] at hy
    obtain ⟨z, hz, e⟩ := hy
    obtain rfl := turned_injective _ _ e
    exact hn a ha hz

/-- A file with a thermal of 2 inches around a hole of 1 inch. -/
example : ∃ f, readMacros ["%FSLAX24Y24*%", "%MOIN*%", "%AMTH*7,0,0,2,1,0.2,45*%", "%ADD10TH*%", "D10*", "X0Y0D03*",
    "M02*"] = .ok f ∧ f.primitives = [.flash (.group [.thermal (0, 0) 2 1 (1 / 5) 45]) (0, 0) "dark" "inch"] := by
  have hg : ∃ x, groupShapes [.thermal (0, 0) 2 1 (1 / 5) 45] = .ok x := by
    obtain ⟨c, l, -, h⟩ := quarter_corners (0, 0) (outer := 2) (inner := 1) (gap := 1 / 5) 45 (by norm_num)
      (by norm_num) (by norm_num) (by norm_num)
    exact ⟨_, groupShapes_cons h rfl⟩
  refine readMacros_one (b := "7,0,0,2,1,0.2,45".toList) (ms := [[]]) ⟨_, _, rfl, ?_, ?_⟩ ?_ hg ?_
  · decide +kernel
  · decide +kernel
  · intro m hm
    simp only [List.mem_cons, List.not_mem_nil, or_false] at hm
    subst hm
    decide +kernel
  · decide +kernel

end Verif.Gerber
