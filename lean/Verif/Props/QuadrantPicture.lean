import Verif.Props.GerberPictureFail
import Verif.Props.Center

/-! # C75: arcs in single-quadrant mode -/

namespace Verif.Gerber
open Verif.Py Verif.Cairo Verif.Geom Verif.Render

/-- The interpreter without macros, with the search for the centres of arcs. -/
noncomputable def centerEnv : EvalEnv Unit := stdEnv fun _ _ _ => .error .valueError

/-- The search, with a result known beforehand. -/
theorem center_known {d : String} {s e o c : Pt} (h : findCenterSQ d s e o = some c) :
    centerEnv = ⟨fun _ _ _ => .error .valueError, fun d' s' e' o' => if (d', s', e', o') = (d, s, e, o) then some c
      else findCenterSQ d' s' e' o'⟩ := by
  unfold centerEnv stdEnv
  congr 1
  funext d' s' e' o'
  split
  · rename_i he
    simp only [Prod.mk.injEq] at he
    obtain ⟨rfl, rfl, rfl, rfl⟩ := he
    exact h
  · rfl

/-- Reading with no files to include. -/
noncomputable def readArcs (l : List String) : PyR (GerberFile Unit) := loads centerEnv (fun _ => none) (gerberText l)

/-- A quarter of a circle in single-quadrant mode is among the primitives drawn right. -/
example : ∃ f P, readArcs ["%FSLAX24Y24*%", "%MOIN*%", "%ADD10C,0.5*%", "D10*", "X10000Y0D02*", "G74*", "G03*",
    "X0Y10000I10000J0D01*", "M02*"] = .ok f ∧ f.primitives = [P] ∧ P.Draws := by
  unfold readArcs
  rw [center_known (d := "counterclockwise") (s := (1, 0)) (e := (0, 1)) (o := (1, 0)) (c := (0, 0))
    (C36_counterclockwise_partial (by norm_num [Exact]) (by norm_num [cross]) (by norm_num) (by norm_num) (by norm_num))]
  refine ⟨_, .edge (.arc (1, 0) (0, 1) (some (0, 0)) "counterclockwise" ⟨.circle (1 / 2) {}, some "inch"⟩
    "single-quadrant" "dark" "inch"), rfl, by decide +kernel, ?_⟩
  simp only [Prim.Draws, Edge.Draws]
  refine ⟨by norm_num, ⟨(0, 0), rfl, .inr ?_, by norm_num, by norm_num⟩, by norm_num⟩
  unfold OneQuadrant
  rw [if_pos rfl]
  norm_num [toPlane]

/-- Only points within the clipping rectangle are covered. -/
theorem covered_clip {K : Engine} {b0 : Box} (h0 : Ordered b0) {s : ℝ} (hs : 0 < s) {dark : Bool} {x : Cairo.Shape}
    {D : Set RPt} {b : Box} (hb : x.box = .ok b) (hc : K.covered (Frame.of s b0) false false dark x = .ok D)
    {p : RPt} (hp : onPicture b0 s false p ∈ D) : (Frame.of s b0).placeMask (scalePoint s p) ∈ (Frame.of s b0).clip b := by
  unfold Engine.covered at hc
  rw [hb] at hc
  obtain ⟨M, hM, hc⟩ := Excellon.bindOk (show (K.mask (Frame.of s b0).scale dark false x >>= fun m =>
    Except.ok (((Frame.of s b0).matrix false).apply '' (((Frame.of s b0).placeMask '' m) ∩ (Frame.of s b0).clip b))) =
      .ok D from hc)
  cases hc
  obtain ⟨_, ⟨⟨m, hm, rfl⟩, hcl⟩, he⟩ := hp
  have hm2 : m = scalePoint s (m.1 / s, m.2 / s) := by
    simp only [scalePoint]
    rw [div_mul_cancel₀ _ hs.ne', div_mul_cancel₀ _ hs.ne']
  rw [hm2, C65_place h0] at he
  rw [← onPicture_inj hs he, ← hm2]
  exact hcl

/-- **C75 fails** for arcs crossing an axis in single-quadrant mode: the point of this arc farthest to the right is not
painted, as the box of the arc is that of its ends. -/
theorem C75_quadrant_violated (K : Engine) (parts : Unit → Pt → PyR (List (Bool × Cairo.Shape))) :
    ∃ f P b area, readArcs ["%FSLAX24Y24*%", "%MOIN*%", "%ADD10C,0.5*%", "D10*", "X40000Y30000D02*", "G74*", "G02*",
        "X40000Y-30000I40000J30000D01*", "M02*"] = .ok f ∧ f.primitives = [P] ∧ P.dark = true ∧ f.render K parts = .ok
        { frame := some (Frame.of 300 b), hasBg := true,
          paints := [.background [0, 0, 0] 1, .layer [7215 / 10000, 451 / 1000, 200 / 1000] 1 area] } ∧
      (5, 0) ∈ P.area ∧ onPicture b 300 false (5, 0) ∉ area := by
  obtain ⟨f, h1, h2⟩ : ∃ f, readArcs ["%FSLAX24Y24*%", "%MOIN*%", "%ADD10C,0.5*%", "D10*", "X40000Y30000D02*", "G74*",
      "G02*", "X40000Y-30000I40000J30000D01*", "M02*"] = .ok f ∧ f.primitives = [.edge (.arc (4, 3) (4, -3)
        (some (0, 0)) "clockwise" ⟨.circle (1 / 2) {}, some "inch"⟩ "single-quadrant" "dark" "inch")] := by
    unfold readArcs
    rw [center_known (d := "clockwise") (s := (4, 3)) (e := (4, -3)) (o := (4, 3)) (c := (0, 0))
      (C36_clockwise_exact (by norm_num [Exact]) (by norm_num [cross]) (by norm_num [dot]))]
    refine ⟨_, rfl, ?_⟩
    decide +kernel
  have hs : (0 : ℝ) < 300 := by norm_num
  have hb : (Cairo.Shape.arc (4, 3) (4, -3) (0, 0) "clockwise" "single-quadrant" (.circle (1 / 2))).box =
      .ok ((15 / 4, 17 / 4), (-(13 / 4), 13 / 4)) := by
    simp only [Cairo.Shape.box, arcBox, arcPoints, if_neg (show ¬ ("single-quadrant" : String) = "multi-quadrant" by decide),
      List.append_nil, hullBox, Box.grow, List.map_cons, List.map_nil, List.foldl_cons, List.foldl_nil]
    norm_num
  have ho : Ordered (((15 / 4, 17 / 4), (-(13 / 4), 13 / 4)) : Box) := by norm_num [Ordered]
  obtain ⟨D, hD⟩ : ∃ D, K.covered (Frame.of 300 ((15 / 4, 17 / 4), (-(13 / 4), 13 / 4))) false false true
      (.arc (4, 3) (4, -3) (0, 0) "clockwise" "single-quadrant" (.circle (1 / 2))) = .ok D := by
    simp only [Engine.covered, hb, Engine.mask, arcWidth, bind, Except.bind]
    exact ⟨_, rfl⟩
  refine ⟨f, _, ((15 / 4, 17 / 4), (-(13 / 4), 13 / 4)), D, h1, h2, rfl, render_of parts (prims := [.shape true
    (.arc (4, 3) (4, -3) (0, 0) "clockwise" "single-quadrant" (.circle (1 / 2)))]) ?_ ?_ ?_, ?_, ?_⟩
  · rw [h2]
    simp [Prim.drawn, Pt.real, Shape.pen]
    rfl
  · exact box_one hb (by norm_num)
  · simp only [Engine.layer, List.flatMap_cons, List.flatMap_nil, Frame.shapes, List.append_nil, List.foldlM_cons,
      List.foldlM_nil, Engine.draw, hD, bind, Except.bind]
    simp
    rfl
  · have hcos : Real.cos (Real.arcsin (3 / 5)) = 4 / 5 := by
      rw [Real.cos_arcsin, show (1 : ℝ) - (3 / 5) ^ 2 = (4 / 5) ^ 2 by norm_num, Real.sqrt_sq (by norm_num)]
    have hsin : Real.sin (Real.arcsin (3 / 5)) = 3 / 5 := Real.sin_arcsin (by norm_num) (by norm_num)
    have hpos : 0 < Real.arcsin (3 / 5) := Real.arcsin_pos.mpr (by norm_num)
    have hle := Real.arcsin_le_pi_div_two (3 / 5)
    have hp := Real.pi_pos
    refine ⟨(5, 0), ⟨5, Real.arcsin (3 / 5), -Real.arcsin (3 / 5), 0, by norm_num, ?_, ?_, ?_, ?_⟩, (0, 0), ?_, by simp⟩
    · simp only [onCircle, hcos, hsin, toPlane]; norm_num
    · simp only [onCircle, Real.cos_neg, Real.sin_neg, hcos, hsin, toPlane]; norm_num
    · simp [onCircle, toPlane]
    · rw [if_neg (by decide)]
      refine ⟨by linarith, by linarith, by linarith, by linarith⟩
    · norm_num [Shape.full, Edge.ap, disc]
  · intro hp
    have := covered_clip ho hs hb hD hp
    obtain ⟨-, h, -⟩ := this
    simp only [Frame.placeMask, Frame.originPx, Frame.of, scalePoint] at h
    have e1 : ⌊(300 : ℝ) * (15 / 4)⌋ = 1125 := by rw [Int.floor_eq_iff]; norm_num
    have e2 : ⌈(300 : ℝ) * (17 / 4)⌉ = 1275 := by rw [Int.ceil_eq_iff]; norm_num
    rw [e1, e2] at h
    norm_num at h

/-- **C75 fails** for counterclockwise quarters of circles ending in the direction of the x axis in single-quadrant mode:
the centre chosen is wrong (`C36_quarter_violated`), and a point of the quarter is not painted. -/
theorem C75_quarter_violated (K : Engine) (parts : Unit → Pt → PyR (List (Bool × Cairo.Shape))) :
    ∃ f b area, readArcs ["%FSLAX24Y24*%", "%MOIN*%", "%ADD10C,0.5*%", "D10*", "X0Y-10000D02*", "G74*", "G03*",
        "X10000Y0I0J10000D01*", "M02*"] = .ok f ∧ f.render K parts = .ok
        { frame := some (Frame.of 300 b), hasBg := true,
          paints := [.background [0, 0, 0] 1, .layer [7215 / 10000, 451 / 1000, 200 / 1000] 1 area] } ∧
      (3 / 5, -(4 / 5)) ∈ circular "counterclockwise" (0, -1) (1, 0) (0, 0) ∧
      onPicture b 300 false (3 / 5, -(4 / 5)) ∉ area := by
  obtain ⟨f, h1, h2⟩ : ∃ f, readArcs ["%FSLAX24Y24*%", "%MOIN*%", "%ADD10C,0.5*%", "D10*", "X0Y-10000D02*", "G74*",
      "G03*", "X10000Y0I0J10000D01*", "M02*"] = .ok f ∧ f.primitives = [.edge (.arc (0, -1) (1, 0)
        (some (0, -2)) "counterclockwise" ⟨.circle (1 / 2) {}, some "inch"⟩ "single-quadrant" "dark" "inch")] := by
    unfold readArcs
    rw [center_known (d := "counterclockwise") (s := (0, -1)) (e := (1, 0)) (o := (0, 1)) (c := (0, -2))
      C36_quarter_violated.2.2.1]
    refine ⟨_, rfl, ?_⟩
    decide +kernel
  have hs : (0 : ℝ) < 300 := by norm_num
  have hb : (Cairo.Shape.arc (0, -1) (1, 0) (0, -2) "counterclockwise" "single-quadrant" (.circle (1 / 2))).box =
      .ok ((-(1 / 4), 5 / 4), (-(5 / 4), 1 / 4)) := by
    simp only [Cairo.Shape.box, arcBox, arcPoints, if_neg (show ¬ ("single-quadrant" : String) = "multi-quadrant" by decide),
      List.append_nil, hullBox, Box.grow, List.map_cons, List.map_nil, List.foldl_cons, List.foldl_nil]
    norm_num
  have ho : Ordered (((-(1 / 4), 5 / 4), (-(5 / 4), 1 / 4)) : Box) := by norm_num [Ordered]
  obtain ⟨M, hM, hMs⟩ : ∃ M, K.mask 300 true false (.arc (0, -1) (1, 0) (0, -2) "counterclockwise" "single-quadrant"
      (.circle (1 / 2))) = .ok M ∧ ∀ q ∈ M, ∃ t : ℝ, q ∈ discAt (onCircle (scalePoint 300 (0, -2)) 300 t) 75 := by
    have hr : arcRadius (0, -1) (0, -2) = 1 := by norm_num [arcRadius]
    simp only [Engine.mask, arcWidth, bind, Except.bind]
    refine ⟨_, rfl, ?_⟩
    rintro q ⟨-, p, ⟨t, -, rfl⟩, hq⟩
    refine ⟨t, ?_⟩
    rw [hr, mul_one] at hq
    norm_num at hq
    exact hq
  obtain ⟨D, hD⟩ : ∃ D, K.covered (Frame.of 300 ((-(1 / 4), 5 / 4), (-(5 / 4), 1 / 4))) false false true
      (.arc (0, -1) (1, 0) (0, -2) "counterclockwise" "single-quadrant" (.circle (1 / 2))) = .ok D := by
    simp only [Engine.covered, hb, Engine.mask, arcWidth, bind, Except.bind]
    exact ⟨_, rfl⟩
  refine ⟨f, ((-(1 / 4), 5 / 4), (-(5 / 4), 1 / 4)), D, h1, render_of parts (prims := [.shape true
    (.arc (0, -1) (1, 0) (0, -2) "counterclockwise" "single-quadrant" (.circle (1 / 2)))]) ?_ ?_ ?_, ?_, ?_⟩
  · rw [h2]
    simp [Prim.drawn, Pt.real, Shape.pen]
    rfl
  · exact box_one hb (by norm_num)
  · simp only [Engine.layer, List.flatMap_cons, List.flatMap_nil, Frame.shapes, List.append_nil, List.foldlM_cons,
      List.foldlM_nil, Engine.draw, hD, bind, Except.bind]
    simp
    rfl
  · have hcos : Real.cos (Real.arcsin (4 / 5)) = 3 / 5 := by
      rw [Real.cos_arcsin, show (1 : ℝ) - (4 / 5) ^ 2 = (3 / 5) ^ 2 by norm_num, Real.sqrt_sq (by norm_num)]
    have hsin : Real.sin (Real.arcsin (4 / 5)) = 4 / 5 := Real.sin_arcsin (by norm_num) (by norm_num)
    have hpos : 0 < Real.arcsin (4 / 5) := Real.arcsin_pos.mpr (by norm_num)
    have hle := Real.arcsin_le_pi_div_two (4 / 5)
    have hp := Real.pi_pos
    refine ⟨1, -(Real.pi / 2), 0, -Real.arcsin (4 / 5), by norm_num, ?_, ?_, ?_, ?_⟩
    · simp [onCircle]
    · simp [onCircle]
    · simp only [onCircle, Real.cos_neg, Real.sin_neg, hcos, hsin]; norm_num
    · rw [if_pos rfl]
      refine ⟨by linarith, by linarith, by linarith, by linarith⟩
  · intro hp
    obtain ⟨t, ht⟩ := hMs _ (covered_sub ho hs hM hD hp)
    simp only [discAt, onCircle, scalePoint, Set.mem_ofPred_eq] at ht
    have hu := Real.sin_sq_add_cos_sq t
    have hc : (3 / 5 : ℝ) * Real.cos t + 6 / 5 * Real.sin t ≤ 27 / 20 := by
      nlinarith [sq_nonneg (Real.cos t - 1 / 2 * (1 : ℝ)), sq_nonneg (2 * Real.cos t - Real.sin t),
        sq_nonneg (3 / 5 * Real.cos t + 6 / 5 * Real.sin t - 27 / 20)]
    nlinarith

end Verif.Gerber
