import Verif.Model.AmUnits
import Verif.Props.AmPrim
import Verif.Props.AmShape
import Verif.Props.Scale

/-! # C84: converting a file's units converts its aperture macros -/

namespace Verif.Geom

open Verif.Py

/-- A point in other units. -/
def scalePt (k : ℝ) (p : RPt) : RPt := (k * p.1, k * p.2)

section
variable {k : ℝ} (hk : 0 < k)
include hk

theorem scalePt_inj {p q : RPt} : scalePt k p = scalePt k q ↔ p = q := by
  unfold scalePt
  rw [Prod.ext_iff, Prod.ext_iff]
  simp [hk.ne']

omit hk in
theorem pt_scale (points : List RPt) (i : ℕ) : pt (points.map (scalePt k)) i = scalePt k (pt points i) := by
  unfold pt
  simp only [List.getD_eq_getElem?_getD, List.getElem?_map]
  cases points[i]? <;> simp [scalePt]

theorem atan2_scale (y x : ℝ) : atan2 (k * y) (k * x) = atan2 y x := by
  unfold atan2
  rw [show (⟨k * x, k * y⟩ : ℂ) = (k : ℂ) * ⟨x, y⟩ from by apply Complex.ext <;> simp,
    Complex.arg_real_mul _ hk]

theorem slope_scale (p q : RPt) : slope (scalePt k p) (scalePt k q) = slope p q := by
  unfold slope scalePt
  simp only [← mul_sub]
  exact atan2_scale hk _ _

theorem lineDistance_scale (a b x : RPt) :
    lineDistance (scalePt k a) (scalePt k b) (scalePt k x) = k * lineDistance a b x := by
  unfold lineDistance scalePt
  simp only
  rw [show (k * b.2 - k * a.2) * (k * x.1) - (k * b.1 - k * a.1) * (k * x.2) + k * b.1 * (k * a.2)
      - k * a.1 * (k * b.2) = k * k * ((b.2 - a.2) * x.1 - (b.1 - a.1) * x.2 + b.1 * a.2 - a.1 * b.2) from by ring,
    show (k * b.2 - k * a.2) ^ 2 + (k * b.1 - k * a.1) ^ 2 = k ^ 2 * ((b.2 - a.2) ^ 2 + (b.1 - a.1) ^ 2) from by
      ring, Real.sqrt_mul (by positivity), Real.sqrt_sq hk.le, abs_mul, abs_of_pos (by positivity), mul_assoc,
    mul_div_mul_left _ _ hk.ne', mul_div_assoc]

theorem minX_scale (points : List RPt) : minX (points.map (scalePt k)) = minX points := by
  unfold minX
  simp only [List.length_map, pt_scale]
  simp only [scalePt, mul_lt_mul_iff_right₀ hk]

theorem maxX_scale (points : List RPt) : maxX (points.map (scalePt k)) = maxX points := by
  unfold maxX
  simp only [List.length_map, pt_scale]
  simp only [scalePt, gt_iff_lt, mul_lt_mul_iff_right₀ hk]

omit hk in
theorem lineDistance_nonneg (a b x : RPt) : 0 ≤ lineDistance a b x := by
  unfold lineDistance; positivity

theorem farthest_scale (points : List RPt) (a b : ℕ) (l : List ℕ) :
    (farthest (points.map (scalePt k)) a b l).1 = (farthest points a b l).1 ∧
    ((farthest (points.map (scalePt k)) a b l).2 ≤ 0 ↔ (farthest points a b l).2 ≤ 0) := by
  unfold farthest
  simp only [pt_scale, lineDistance_scale hk]
  have : ∀ (m m' : ℕ × ℝ), m'.1 = m.1 → ((m = (0, -1) ∧ m' = (0, -1)) ∨ (0 ≤ m.2 ∧ m'.2 = k * m.2)) →
      let f := l.foldl (fun m i => if lineDistance (pt points a) (pt points b) (pt points i) > m.2 then
        (i, lineDistance (pt points a) (pt points b) (pt points i)) else m) m
      let f' := l.foldl (fun m i => if k * lineDistance (pt points a) (pt points b) (pt points i) > m.2 then
        (i, k * lineDistance (pt points a) (pt points b) (pt points i)) else m) m'
      f'.1 = f.1 ∧ ((f = (0, -1) ∧ f' = (0, -1)) ∨ (0 ≤ f.2 ∧ f'.2 = k * f.2)) := by
    induction l with
    | nil => exact fun m m' h1 h2 => ⟨h1, h2⟩
    | cons i l ih =>
      intro m m' h1 h2
      have h0 := lineDistance_nonneg (pt points a) (pt points b) (pt points i)
      simp only [List.foldl_cons]
      generalize lineDistance (pt points a) (pt points b) (pt points i) = d at *
      have hkd : 0 ≤ k * d := by positivity
      rcases h2 with ⟨rfl, rfl⟩ | ⟨h2, h3⟩
      · rw [if_pos (show d > -1 by linarith), if_pos (show k * d > -1 by linarith)]
        exact ih _ _ rfl (.inr ⟨h0, rfl⟩)
      · by_cases h : d > m.2
        · rw [if_pos h, if_pos (by rw [h3]; exact mul_lt_mul_of_pos_left h hk)]
          exact ih _ _ rfl (.inr ⟨h0, rfl⟩)
        · rw [if_neg h, if_neg (by rw [h3]; exact fun hh => h (lt_of_mul_lt_mul_left hh hk.le))]
          exact ih _ _ h1 (.inr ⟨h2, h3⟩)
  obtain ⟨h1, h2⟩ := this (0, -1) (0, -1) rfl (.inl ⟨rfl, rfl⟩)
  refine ⟨h1, ?_⟩
  rcases h2 with ⟨h2, h3⟩ | ⟨h2, h3⟩
  · rw [h2, h3]
  · rw [h3]
    constructor
    · intro h; nlinarith
    · intro h; nlinarith

theorem inLeft_scale (a c x : RPt) : inLeft (scalePt k a) (scalePt k c) (scalePt k x) = inLeft a c x := by
  simp only [inLeft, slope_scale hk]

theorem inRight_scale (a b c x : RPt) :
    inRight (scalePt k a) (scalePt k b) (scalePt k c) (scalePt k x) = inRight a b c x := by
  simp only [inRight, slope_scale hk]

open Classical in
theorem findHull_scale (points : List RPt) (n : ℕ) : ∀ (l : List ℕ) (a b : ℕ),
    findHull (points.map (scalePt k)) n l a b = findHull points n l a b := by
  induction n with
  | zero => intros; rfl
  | succ n ih =>
    intro l a b
    obtain ⟨h1, h2⟩ := farthest_scale hk points a b l
    have hl : (l.filter fun i => i ≠ (farthest (points.map (scalePt k)) a b l).1 ∧
        inLeft (pt (points.map (scalePt k)) a) (pt (points.map (scalePt k))
          (farthest (points.map (scalePt k)) a b l).1) (pt (points.map (scalePt k)) i)) =
        l.filter fun i => i ≠ (farthest points a b l).1 ∧
          inLeft (pt points a) (pt points (farthest points a b l).1) (pt points i) :=
      List.filter_congr fun i _ => decide_eq_decide.2 (by rw [h1]; simp only [pt_scale, inLeft_scale hk])
    have hr : (l.filter fun i => i ≠ (farthest (points.map (scalePt k)) a b l).1 ∧
        inRight (pt (points.map (scalePt k)) a) (pt (points.map (scalePt k)) b) (pt (points.map (scalePt k))
          (farthest (points.map (scalePt k)) a b l).1) (pt (points.map (scalePt k)) i)) =
        l.filter fun i => i ≠ (farthest points a b l).1 ∧
          inRight (pt points a) (pt points b) (pt points (farthest points a b l).1) (pt points i) :=
      List.filter_congr fun i _ => decide_eq_decide.2 (by rw [h1]; simp only [pt_scale, inRight_scale hk])
    simp only [findHull]
    rw [hl, hr]
    simp only [h1, h2, ih]

open Classical in
theorem convexHullPts_scale (points : List RPt) :
    convexHullPts (points.map (scalePt k)) = (convexHullPts points).map (List.map (scalePt k)) := by
  have hr : rawHull (points.map (scalePt k)) = rawHull points := by
    simp only [rawHull, minX_scale hk, maxX_scale hk, pt_scale, slope_scale hk, findHull_scale hk, List.length_map]
  have hc (p q r : RPt) : collinearTest (scalePt k p) (scalePt k q) (scalePt k r) ↔ collinearTest p q r := by
    unfold collinearTest scalePt
    simp only [← mul_sub]
    rw [show k * (p.2 - q.2) * (k * (p.1 - r.1)) = k * k * ((p.2 - q.2) * (p.1 - r.1)) from by ring,
      show k * (p.2 - r.2) * (k * (p.1 - q.1)) = k * k * ((p.2 - r.2) * (p.1 - q.1)) from by ring]
    exact mul_right_inj' (by positivity)
  have ho (H : List ℕ) : optimize H (points.map (scalePt k)) = optimize H points := by
    simp only [optimize, redundant, pt_scale, hc]
  simp only [convexHullPts, convexHullQh, List.length_map, minX_scale hk, maxX_scale hk, hr, ho]
  split
  · rfl
  · split
    · rfl
    · simp [pt_scale]

omit hk in
theorem rotatePoint_scale (p : RPt) (rot : ℝ) (c : RPt) :
    rotatePoint (scalePt k p) rot (scalePt k c) = scalePt k (rotatePoint p rot c) := by
  unfold rotatePoint scalePt
  ext <;> simp <;> ring

end
end Verif.Geom

namespace Verif.Am

open Verif.Py Verif.Gerber Verif.Geom Verif.Utils

/-! ## What is expected -/

/-- Which of the numbers after the code of a macro primitive are lengths, as the Gerber format says (and not
exposure, number of points, vertices or rings, or angle); `n` is how many numbers there are. -/
def lengthPlaces (code n : ℕ) : List Bool := match code with
  | 1 => [false, true, true, true]
  | 2 | 20 => [false, true, true, true, true, true, false]
  | 4 => [false, false] ++ List.replicate (n - 3) true ++ [false]
  | 5 => [false, false, true, true, true, false]
  | 6 => [true, true, true, true, true, false, true, true, false]
  | 7 => [true, true, true, true, true, false]
  | 21 | 22 => [false, true, true, true, true, false]
  | _ => []

/-- A shape in other units. -/
def Shape.scaled (k : ℝ) : Shape → Shape
  | .circle p d => .circle (scalePt k p) (k * d)
  | .outline lines => .outline (lines.map fun l => (scalePt k l.1, scalePt k l.2))
  | .polygon p n r rot => .polygon (scalePt k p) n (k * r) rot

/-- The same, drawn with the same polarity. -/
def Drawn.scaled (k : ℝ) (d : Drawn) : Drawn := ⟨d.dark, d.shape.scaled k⟩

/-- All lengths multiplied by the same number. -/
def AmPrim.scaled (k : ℚ) : AmPrim → AmPrim
  | .comment c => .comment c
  | .circle on d p => .circle on (k * d) (k * p.1, k * p.2)
  | .vectorLine code on w s e r => .vectorLine code on (k * w) (k * s.1, k * s.2) (k * e.1, k * e.2) r
  | .outline on s ps r => .outline on (k * s.1, k * s.2) (ps.map fun p => (k * p.1, k * p.2)) r
  | .polygon on n p d r => .polygon on n (k * p.1, k * p.2) (k * d) r
  | .moire p d t g n ct cl r => .moire (k * p.1, k * p.2) (k * d) (k * t) (k * g) n (k * ct) (k * cl) r
  | .thermal p o i g r => .thermal (k * p.1, k * p.2) (k * o) (k * i) (k * g) r
  | .centerLine on w h c r => .centerLine on (k * w) (k * h) (k * c.1, k * c.2) r
  | .lowerLeft on w h c r => .lowerLeft on (k * w) (k * h) (k * c.1, k * c.2) r
  | .unsupported t => .unsupported t

theorem toInch_scaled (p : AmPrim) : p.toInch = p.scaled (10 / 254) := by
  have h : ∀ v : ℚ, inch v = 10 / 254 * v := fun v => by unfold inch mmPerInch; ring
  cases p <;> simp [AmPrim.toInch, AmPrim.scaled, ptInch, h]

theorem toMetric_scaled (p : AmPrim) : p.toMetric = p.scaled (254 / 10) := by
  have h : ∀ v : ℚ, metric v = 254 / 10 * v := fun v => by unfold metric mmPerInch; ring
  cases p <;> simp [AmPrim.toMetric, AmPrim.scaled, ptMetric, h]

theorem toR_scaled (k : ℚ) (p : ℚ × ℚ) : toR (k * p.1, k * p.2) = scalePt k (toR p) := by
  simp [toR, scalePt]

/-! ## Numbers -/

theorem zipWith_lengths (k : ℚ) (l : List ℚ) (r : ℚ) :
    List.zipWith (fun b v => if b then k * v else v) (List.replicate l.length true ++ [false]) (l ++ [r]) =
      l.map (k * ·) ++ [r] := by
  induction l with
  | nil => rfl
  | cons a l ih =>
    simp only [List.length_cons, List.replicate_succ, List.cons_append, List.zipWith_cons_cons, ih, List.map_cons,
      if_true]

theorem values_scaled (k : ℚ) (p : AmPrim) (hc : ∀ c on w s e r, p = .vectorLine c on w s e r → c = 2 ∨ c = 20) :
    values (p.scaled k) =
      List.zipWith (fun b v => if b then k * v else v) (lengthPlaces (code p) (values p).length) (values p) := by
  cases p with
  | vectorLine c on w s e r => rcases hc _ _ _ _ _ _ rfl with rfl | rfl <;> rfl
  | outline on s ps r =>
    have h := zipWith_lengths k ([s.1, s.2] ++ ps.flatMap fun q => [q.1, q.2]) r
    have e : (values (.outline on s ps r)).length - 3 = ([s.1, s.2] ++ ps.flatMap fun q => [q.1, q.2]).length := by
      simp [values]
    simp only [lengthPlaces, code, e]
    show _ = List.zipWith _ _ (expVal on :: (ps.length : ℚ) :: (([s.1, s.2] ++ ps.flatMap fun q => [q.1, q.2]) ++ [r]))
    simp only [List.cons_append, List.nil_append, List.zipWith_cons_cons, Bool.false_eq_true, if_false] at h ⊢
    rw [h]
    simp [values, AmPrim.scaled, List.flatMap_map, List.map_flatMap]
  | _ => rfl

/-- **C84**, numbers: converted to inch, a primitive keeps its kind, exposure, counts and angles, and its lengths are
divided by 25.4. -/
theorem C84_numbers_inch (p : AmPrim) (hc : ∀ c on w s e r, p = .vectorLine c on w s e r → c = 2 ∨ c = 20) :
    code p.toInch = code p ∧ values p.toInch = List.zipWith (fun b v => if b then v / (254 / 10) else v)
      (lengthPlaces (code p) (values p).length) (values p) := by
  constructor
  · cases p <;> rfl
  · rw [toInch_scaled, values_scaled _ _ hc]
    congr 1; funext b v; split
    · ring
    · rfl

/-- The same for millimetres, where the lengths are multiplied. -/
theorem C84_numbers_metric (p : AmPrim) (hc : ∀ c on w s e r, p = .vectorLine c on w s e r → c = 2 ∨ c = 20) :
    code p.toMetric = code p ∧ values p.toMetric = List.zipWith (fun b v => if b then v * (254 / 10) else v)
      (lengthPlaces (code p) (values p).length) (values p) := by
  constructor
  · cases p <;> rfl
  · rw [toMetric_scaled, values_scaled _ _ hc]
    congr 1; funext b v; split
    · ring
    · rfl

/-- A moire: five lengths, the number of rings, two lengths, the angle. -/
example : (AmPrim.moire (1, 2) 3 4 5 6 7 8 9).toMetric =
    .moire (127 / 5, 254 / 5) (381 / 5) (508 / 5) 127 6 (889 / 5) (1016 / 5) 9 := by decide +kernel

/-! ## Shapes -/

section
variable {k : ℚ} (hk : 0 < k)
include hk

theorem mkOutline_scaled (lines : List (RPt × RPt)) :
    mkOutline (lines.map fun l => (scalePt k l.1, scalePt k l.2)) = (mkOutline lines).map (Shape.scaled k) := by
  have hk' : (0 : ℝ) < k := by exact_mod_cast hk
  unfold mkOutline
  simp only [List.head?_map, List.getLast?_map]
  cases lines.head? <;> cases lines.getLast? <;> simp [scalePt_inj hk', Except.map]
  split <;> simp [Shape.scaled]

omit hk in
theorem fan_scaled (s : RPt) (ps : List RPt) :
    fan (scalePt k s) (ps.map (scalePt k)) = (fan s ps).map fun l => (scalePt k l.1, scalePt k l.2) := by
  simp [fan]

omit hk in
theorem chain_scaled (s : RPt) (ps : List RPt) :
    chain (scalePt k s) (ps.map (scalePt k)) = (chain s ps).map fun l => (scalePt k l.1, scalePt k l.2) := by
  induction ps generalizing s with
  | nil => rfl
  | cons p ps ih => simp [chain, ih]

omit hk in
theorem rotate_origin_scaled (p : RPt) (rot : ℝ) :
    rotatePoint (scalePt k p) rot (0, 0) = scalePt k (rotatePoint p rot (0, 0)) := by
  rw [← rotatePoint_scale]; simp [scalePt]

theorem vectorLine_scaled (on : Bool) (w : ℝ) (s e : RPt) (rot : ℝ) :
    vectorLineShape on (k * w) (scalePt k s) (scalePt k e) rot =
      (vectorLineShape on w s e rot).map (List.map (Drawn.scaled k)) := by
  have hk' : (0 : ℝ) < k := by exact_mod_cast hk
  have he : endCorners (scalePt k s) (scalePt k e) (k * w) (k * w) = (endCorners s e w w).map (scalePt k) := by
    simp only [endCorners, scalePt, List.map_cons, List.map_nil, mul_sub, mul_add, mul_div_assoc]
  simp only [vectorLineShape, lineVertices, he, convexHullPts_scale hk']
  cases convexHullPts (endCorners s e w w) with
  | none => rfl
  | some vs =>
    simp only [Option.map_some, List.getLast?_map]
    cases vs.getLast? with
    | none => rfl
    | some v =>
      simp only [Option.map_some, List.map_map]
      have : (vs.map ((fun p => rotatePoint p rot (0, 0)) ∘ scalePt k)) =
          (vs.map fun p => rotatePoint p rot (0, 0)).map (scalePt k) := by
        rw [List.map_map]; exact List.map_congr_left fun p _ => rotate_origin_scaled p rot
      rw [this, rotate_origin_scaled, fan_scaled, mkOutline_scaled hk]
      cases mkOutline (fan (rotatePoint v rot (0, 0)) (vs.map fun p => rotatePoint p rot (0, 0))) <;> rfl

theorem outline_scaled (on : Bool) (s : RPt) (ps : List RPt) (rot : ℝ) :
    outlineShape on (scalePt k s) (ps.map (scalePt k)) rot =
      (outlineShape on s ps rot).map (List.map (Drawn.scaled k)) := by
  have : ((ps.map (scalePt k)).map fun p => rotatePoint p rot (0, 0)) =
      (ps.map fun p => rotatePoint p rot (0, 0)).map (scalePt k) := by
    rw [List.map_map, List.map_map]; exact List.map_congr_left fun p _ => rotate_origin_scaled p rot
  simp only [outlineShape, this, rotate_origin_scaled, chain_scaled, mkOutline_scaled hk]
  cases mkOutline (chain (rotatePoint s rot (0, 0)) (ps.map fun p => rotatePoint p rot (0, 0))) <;> rfl

theorem centerLine_scaled (on : Bool) (w h : ℝ) (c : RPt) (rot : ℝ) :
    centerLineShape on (k * w) (k * h) (scalePt k c) rot =
      (centerLineShape on w h c rot).map (List.map (Drawn.scaled k)) := by
  have e1 : ∀ a b : ℝ, k * a + k * b / 2 = k * (a + b / 2) := fun a b => by ring
  have e2 : ∀ a b : ℝ, k * a - k * b / 2 = k * (a - b / 2) := fun a b => by ring
  have e3 : ∀ a b : ℝ, ((k : ℝ) * a, (k : ℝ) * b) = scalePt k (a, b) := fun _ _ => rfl
  simp only [centerLineShape, List.map_cons, List.map_nil]
  have := mkOutline_scaled hk (fan (rotatePoint (c.1 + w / 2, c.2 + h / 2) rot c)
    [rotatePoint (c.1 - w / 2, c.2 + h / 2) rot c, rotatePoint (c.1 - w / 2, c.2 - h / 2) rot c,
     rotatePoint (c.1 + w / 2, c.2 - h / 2) rot c, rotatePoint (c.1 + w / 2, c.2 + h / 2) rot c])
  rw [← fan_scaled] at this
  simp only [List.map_cons, List.map_nil, ← rotatePoint_scale] at this
  simp only [show (scalePt k c).1 = k * c.1 from rfl, show (scalePt k c).2 = k * c.2 from rfl, e1, e2, e3, this]
  cases mkOutline (fan (rotatePoint (c.1 + w / 2, c.2 + h / 2) rot c)
    [rotatePoint (c.1 - w / 2, c.2 + h / 2) rot c, rotatePoint (c.1 - w / 2, c.2 - h / 2) rot c,
     rotatePoint (c.1 + w / 2, c.2 - h / 2) rot c, rotatePoint (c.1 + w / 2, c.2 + h / 2) rot c]) <;> rfl

theorem fdiv_scaled (a b : ℝ) : fdiv (k * a / 2) (k * b / 2) = fdiv (a / 2) (b / 2) := by
  have hk' : (k : ℝ) ≠ 0 := by exact_mod_cast hk.ne'
  unfold fdiv
  simp only [mul_div_assoc, mul_eq_zero, hk', false_or, mul_div_mul_left _ _ hk']

omit hk in
theorem arc_scaled (a b r : ℝ) (c : RPt) :
    approximateArc a b (k * r / 2) (scalePt k c) = (approximateArc a b (r / 2) c).map (scalePt k) := by
  unfold approximateArc
  rw [List.map_map]
  refine List.map_congr_left fun i _ => ?_
  simp only [Function.comp_apply, scalePt]
  ext <;> simp <;> ring

omit hk in
theorem mapM_scaled {α β γ : Type} (f : α → PyR β) (f' : α → PyR γ) (g : β → γ) (l : List α)
    (h : ∀ a ∈ l, f' a = (f a).map g) : l.mapM f' = (l.mapM f).map (List.map g) := by
  induction l with
  | nil => rfl
  | cons a l ih =>
    rw [List.mapM_cons, List.mapM_cons, h a (List.mem_cons_self ..), ih fun b hb => h b (List.mem_cons_of_mem _ hb)]
    cases f a with
    | error x => rfl
    | ok b => cases l.mapM f <;> rfl

theorem thermal_scaled (pos : RPt) (o i g rot : ℝ) :
    thermalShape (scalePt k pos) (k * o) (k * i) (k * g) rot =
      (thermalShape pos o i g rot).map (List.map (Drawn.scaled k)) := by
  unfold thermalShape
  simp only [fdiv_scaled hk]
  cases hi : (fdiv (g / 2) (i / 2) >>= asin) with
  | error x => rfl
  | ok a =>
    cases ho : (fdiv (g / 2) (o / 2) >>= asin) with
    | error x => rfl
    | ok b =>
      simp only [bind, Except.bind, arc_scaled, ← List.map_reverse, ← List.map_append, ← List.map_take]
      generalize approximateArc (a + radians rot) (Real.pi / 2 - a + radians rot) (i / 2) pos ++
        (approximateArc (b + radians rot) (Real.pi / 2 - b + radians rot) (o / 2) pos).reverse = P
      generalize P ++ P.take 1 = Q
      refine mapM_scaled _ _ _ _ fun r _ => ?_
      have hm : ((Q.map (scalePt k)).map fun p => rotatePoint p r (scalePt k pos)) =
          (Q.map fun p => rotatePoint p r pos).map (scalePt k) := by
        rw [List.map_map, List.map_map]; exact List.map_congr_left fun p _ => rotatePoint_scale p r pos
      simp only [hm]
      generalize (Q.map fun p => rotatePoint p r pos) = T
      have hh : (T.map (scalePt k)).headD (0, 0) = scalePt k (T.headD (0, 0)) := by
        cases T <;> simp [scalePt]
      rw [hh, ← List.map_tail, fan_scaled, mkOutline_scaled hk]
      cases mkOutline (fan (T.headD (0, 0)) T.tail) <;> rfl

theorem toPrimitive_scaled (p : AmPrim) :
    toPrimitive (p.scaled k) = (toPrimitive p).map (List.map (Drawn.scaled k)) := by
  cases p with
  | comment c => rfl
  | circle on d p => simp [toPrimitive, AmPrim.scaled, Except.map, Drawn.scaled, Shape.scaled, toR_scaled]
  | vectorLine c on w s e r =>
    simp only [toPrimitive, AmPrim.scaled, toR_scaled, ← vectorLine_scaled hk, Rat.cast_mul]
  | outline on s ps r =>
    simp only [toPrimitive, AmPrim.scaled, toR_scaled, ← outline_scaled hk, List.map_map, Function.comp_def]
  | polygon on n p d r =>
    simp [toPrimitive, AmPrim.scaled, Except.map, Drawn.scaled, Shape.scaled, toR_scaled, mul_div_assoc]
  | moire => rfl
  | thermal p o i g r => simp only [toPrimitive, AmPrim.scaled, toR_scaled, ← thermal_scaled hk, Rat.cast_mul]
  | centerLine on w h c r =>
    simp only [toPrimitive, AmPrim.scaled, toR_scaled, ← centerLine_scaled hk, Rat.cast_mul]
  | lowerLeft => rfl
  | unsupported => rfl

end

/-- **C84**, shapes: what is drawn for a primitive converted to inch is what was drawn for it before, with all lengths
and positions divided by 25.4 and the same polarity, number of sides and angle; and it fails if it failed before. -/
theorem C84_shape_inch (p : AmPrim) :
    toPrimitive p.toInch = (toPrimitive p).map (List.map (Drawn.scaled (10 / 254))) := by
  rw [toInch_scaled, toPrimitive_scaled (by norm_num)]
  norm_num

/-- The same for millimetres. -/
theorem C84_shape_metric (p : AmPrim) :
    toPrimitive p.toMetric = (toPrimitive p).map (List.map (Drawn.scaled (254 / 10))) := by
  rw [toMetric_scaled, toPrimitive_scaled (by norm_num)]
  norm_num

example : toPrimitive (.circle true 2 (1, 3)) = .ok [⟨true, .circle (1, 3) 2⟩] := by
  simp [toPrimitive, toR]

/-! ## Statements -/

theorem toMetric_toInch_prim (p : AmPrim) : p.toInch.toMetric = p := by
  cases p <;> simp [AmPrim.toInch, AmPrim.toMetric, ptInch, ptMetric, metric_inch, Function.comp_def]

theorem toInch_toMetric_prim (p : AmPrim) : p.toMetric.toInch = p := by
  cases p <;> simp [AmPrim.toInch, AmPrim.toMetric, ptInch, ptMetric, inch_metric, Function.comp_def]

/-- **C84**: a macro converted there and back is as before; converting to the units that are in force changes nothing,
so a second conversion in the same direction does not either. -/
theorem C84_back (m : MacroStmt) :
    (m.units = "metric" → m.toInch.toMetric = m ∧ m.toMetric = m ∧ m.toInch.toInch = m.toInch) ∧
    (m.units = "inch" → m.toMetric.toInch = m ∧ m.toInch = m ∧ m.toMetric.toMetric = m.toMetric) := by
  obtain ⟨u, ps⟩ := m
  constructor
  · rintro rfl
    simp [MacroStmt.toInch, MacroStmt.toMetric, Function.comp_def, toMetric_toInch_prim]
  · rintro rfl
    simp [MacroStmt.toInch, MacroStmt.toMetric, Function.comp_def, toInch_toMetric_prim]

example : (MacroStmt.mk "inch" [.lowerLeft true 1 2 (3, 4) 45]).toMetric =
    ⟨"metric", [.lowerLeft true (127 / 5) (254 / 5) (381 / 5, 508 / 5) 45]⟩ := by decide +kernel

/-! ## Files -/

theorem groupShapes_scaled {k : ℚ} (hk : 0 < k) {c : AmPrim → AmPrim} (hc : ∀ p, c p = p.scaled k) (ps : List AmPrim) :
    groupShapes (ps.map c) = (groupShapes ps).map (List.map (Drawn.scaled k)) := by
  unfold groupShapes
  have : (ps.map c).mapM toPrimitive = (ps.mapM toPrimitive).map (List.map (List.map (Drawn.scaled k))) := by
    rw [List.mapM_map]
    exact mapM_scaled _ _ _ _ fun p _ => by rw [Function.comp_apply, hc, toPrimitive_scaled hk]
  rw [this]
  cases ps.mapM toPrimitive with
  | error x => rfl
  | ok l => simp [bind, Except.bind, Except.map, List.map_flatten, pure, Except.pure]

/-- What is drawn depends on the shapes only. -/
theorem groupShapes_filter (ps : List AmPrim) : groupShapes (ps.filter isShape) = groupShapes ps := by
  unfold groupShapes
  induction ps with
  | nil => rfl
  | cons p ps ih =>
    by_cases h : isShape p = true
    · rw [List.filter_cons_of_pos h, List.mapM_cons, List.mapM_cons]
      cases toPrimitive p with
      | error x => rfl
      | ok l =>
        simp only [bind, Except.bind] at ih ⊢
        cases h1 : (ps.filter isShape).mapM toPrimitive <;> cases h2 : ps.mapM toPrimitive <;>
          simp_all [pure, Except.pure]
    · rw [List.filter_cons_of_neg h, ih, List.mapM_cons]
      have : toPrimitive p = .ok [] := by cases p <;> simp_all [isShape, toPrimitive]
      rw [this]
      simp only [bind, Except.bind]
      cases ps.mapM toPrimitive <;> rfl

/-- The macro apertures that a file defines: place of the macro, number of the aperture, what is drawn for it. -/
noncomputable def drawnUses (s : AmState) : List (ℕ × ℕ × PyR (List Drawn)) :=
  s.uses.map fun u => (u.1, u.2.1, groupShapes u.2.2)

theorem drawnUses_seen {s' s : AmState} {c : AmPrim → AmPrim} (h : s'.uses.map seen = s.uses.map (seen ∘ useOf c)) :
    drawnUses s' = s.uses.map fun u => (u.1, u.2.1, groupShapes (u.2.2.map c)) := by
  have := congrArg (List.map fun u : ℕ × ℕ × List AmPrim => (u.1, u.2.1, groupShapes u.2.2)) h
  simpa [seen, useOf, groupShapes_filter, drawnUses, Function.comp_def] using this

theorem keepsMacros_scale (k : ℚ) (u : String) (g : Option Str → Option Str) : KeepsMacros (Stmt.scale k u g) where
  am _ _ _ := rfl
  ad _ _ m := ⟨_, rfl, by simp⟩
  other a h1 h2 := by
    cases a <;> first
      | exact absurd rfl (h1 _ _ _)
      | exact absurd rfl (h2 _ _ _)
      | exact ⟨by simp [Stmt.scale], by simp [Stmt.scale]⟩

theorem written_scaled {l : List Stmt} {s : AmState} (h : amRun 0 {} l = .ok s)
    (hsame : ∀ u ∈ s.uses, u.2.2 = s.prims u.1) (hne : ∀ u ∈ s.uses, u.2.2 ≠ []) (c : AmPrim → AmPrim)
    (hok : ∀ u ∈ s.uses, ∀ p ∈ u.2.2, Rebuildable (c p)) {k : ℚ} (hk : 0 < k) (hc : ∀ p, c p = p.scaled k)
    {g : Stmt → Stmt} (hg : KeepsMacros g) :
    ∃ s', amRun 0 {} (rewritten (fun i => (s.prims i).map c) 0 (l.map g)) = .ok s' ∧
      drawnUses s' = (drawnUses s).map fun u => (u.1, u.2.1, u.2.2.map (List.map (Drawn.scaled k))) := by
  obtain ⟨s', h1, h2⟩ := run_converted (fin := fun i => (s.prims i).map c) (by
    intro i p hp
    obtain ⟨q, hq, rfl⟩ := List.mem_map.1 hp
    obtain ⟨d, hd⟩ := amRun_prims h (fun i hi => absurd rfl hi) i (List.ne_nil_of_mem hq)
    exact hok _ hd q hq) c hg (st' := {}) h (fun u hu => ⟨by rw [hsame u hu], hne u hu⟩) (fun n i b h => by cases h) rfl
  refine ⟨s', h1, ?_⟩
  rw [drawnUses_seen h2]
  simp only [drawnUses, List.map_map]
  exact List.map_congr_left fun u _ => by simp only [Function.comp_apply, groupShapes_scaled hk hc]

/-- **C84**, files (part).  A file in inch is read, converted to millimetres, written and read again: every macro
aperture is drawn as before, with all lengths multiplied by 25.4 - provided that all uses of one AM statement make the
same primitives, that each makes at least one, and that the converted primitives are shapes whose numbers are printed
exactly and without exponent, or comments without star or equals sign.  Missing: what C47 lacks, and lengths that
become inexact because they have more digits in the new units (`C84_rounded_violated`). -/
theorem C84_written_metric_partial (f : MacroFile) (hu : f.program.units = "inch") {s : AmState}
    (h : amRun 0 {} f.program.statements = .ok s) (hp : f.prims = s.prims)
    (hsame : ∀ u ∈ s.uses, u.2.2 = s.prims u.1) (hne : ∀ u ∈ s.uses, u.2.2 ≠ [])
    (hok : ∀ u ∈ s.uses, ∀ p ∈ u.2.2, Rebuildable p.toMetric) :
    ∃ s', amRun 0 {} f.toMetric.readAgain = .ok s' ∧ drawnUses s' =
      (drawnUses s).map fun u => (u.1, u.2.1, u.2.2.map (List.map (Drawn.scaled (254 / 10)))) := by
  have e : f.toMetric.readAgain = rewritten (fun i => (s.prims i).map AmPrim.toMetric) 0
      (f.program.statements.map (Stmt.scale mmPerInch "metric" metricFunction)) := by
    simp [MacroFile.readAgain, MacroFile.toMetric, MacroStmt.toMetric, Program.toMetric, hu, hp, inchToMetric_eq]
  rw [e]
  obtain ⟨s', h1, h2⟩ := written_scaled h hsame hne AmPrim.toMetric hok (k := 254 / 10) (by norm_num) toMetric_scaled
    (keepsMacros_scale _ _ _)
  refine ⟨s', h1, h2.trans ?_⟩
  norm_num

/-- The same for a file in millimetres that is converted to inch. -/
theorem C84_written_inch_partial (f : MacroFile) (hu : f.program.units = "metric") {s : AmState}
    (h : amRun 0 {} f.program.statements = .ok s) (hp : f.prims = s.prims)
    (hsame : ∀ u ∈ s.uses, u.2.2 = s.prims u.1) (hne : ∀ u ∈ s.uses, u.2.2 ≠ [])
    (hok : ∀ u ∈ s.uses, ∀ p ∈ u.2.2, Rebuildable p.toInch) :
    ∃ s', amRun 0 {} f.toInch.readAgain = .ok s' ∧ drawnUses s' =
      (drawnUses s).map fun u => (u.1, u.2.1, u.2.2.map (List.map (Drawn.scaled (10 / 254)))) := by
  have e : f.toInch.readAgain = rewritten (fun i => (s.prims i).map AmPrim.toInch) 0
      (f.program.statements.map (Stmt.scale mmPerInch⁻¹ "inch" inchFunction)) := by
    simp [MacroFile.readAgain, MacroFile.toInch, MacroStmt.toInch, Program.toInch, hu, hp, metricToInch_eq]
  rw [e]
  obtain ⟨s', h1, h2⟩ := written_scaled h hsame hne AmPrim.toInch hok (k := 10 / 254) (by norm_num) toInch_scaled
    (keepsMacros_scale _ _ _)
  refine ⟨s', h1, h2.trans ?_⟩
  norm_num

/-- The sample of C47 in inch. -/
example : ∃ s, amRun 0 {} sampleFile = .ok s ∧ (∀ u ∈ s.uses, u.2.2 = s.prims u.1) ∧ (∀ u ∈ s.uses, u.2.2 ≠ []) ∧
    (∀ u ∈ s.uses, ∀ p ∈ u.2.2, Rebuildable p.toMetric) ∧ s.uses.length = 2 := by
  have h : (amRun 0 {} sampleFile).toOption.map (fun s => (s.uses, s.prims 0)) =
    some ([(0, 10, samplePrims), (0, 12, samplePrims)], samplePrims) := by decide +kernel
  match hs : amRun 0 {} sampleFile, h with
  | .ok s, h =>
    simp only [Except.toOption, Option.map_some, Option.some.injEq, Prod.mk.injEq] at h
    have d : ∀ {P : ℕ} {v : ℚ} (z : ℤ) (p : ℕ), z.natAbs < 10 ^ P → v = z / 10 ^ p →
        (v = 0 ∨ 1 / 10 ^ 4 ≤ |v|) → FixedDigits P v := fun z p h1 h2 h3 => ⟨z, p, h1, h2, h3⟩
    have d0 : ∀ {P : ℕ}, FixedDigits P 0 := d 0 0 (by norm_num) (by norm_num) (.inl rfl)
    have hr : ∀ p ∈ samplePrims, Rebuildable p.toMetric := by
      intro p hp
      simp only [samplePrims, List.mem_cons, List.not_mem_nil, or_false] at hp
      have d1 : FixedDigits 6 (127 / 5) := d 254 1 (by norm_num) (by norm_num) (.inr (by rw [abs_of_pos] <;> norm_num))
      have dh : FixedDigits 6 (-127 / 10) := d (-127) 1 (by norm_num) (by norm_num)
        (.inr (by rw [abs_of_neg] <;> norm_num))
      rcases hp with rfl | rfl | rfl
      · exact .inr ⟨_, rfl, by decide, by decide⟩
      · rw [show (AmPrim.circle true (3 / 2) (0, 0)).toMetric = .circle true (381 / 10) (0, 0) from by decide +kernel]
        exact .inl ⟨d 381 1 (by norm_num) (by norm_num) (.inr (by rw [abs_of_pos] <;> norm_num)), d0, d0⟩
      · rw [show (AmPrim.outline true (-1 / 2, 0) [(1, 0), (0, 1), (-1 / 2, 0)] 30).toMetric =
          .outline true (-127 / 10, 0) [(127 / 5, 0), (0, 127 / 5), (-127 / 10, 0)] 30 from by decide +kernel]
        refine .inl ⟨rfl, by norm_num, dh, d0, ?_,
          d 30 0 (by norm_num) (by norm_num) (.inr (by rw [abs_of_pos] <;> norm_num))⟩
        intro q hq
        simp only [List.mem_cons, List.not_mem_nil, or_false] at hq
        rcases hq with rfl | rfl | rfl
        exacts [⟨d1, d0⟩, ⟨d0, d1⟩, ⟨dh, d0⟩]
    refine ⟨s, rfl, ?_, ?_, ?_, by rw [h.1]; rfl⟩
    · intro u hu
      rw [h.1] at hu
      simp only [List.mem_cons, List.not_mem_nil, or_false] at hu
      rcases hu with rfl | rfl <;> exact h.2.symm
    · intro u hu
      rw [h.1] at hu
      simp only [List.mem_cons, List.not_mem_nil, or_false] at hu
      rcases hu with rfl | rfl <;> simp [samplePrims]
    · intro u hu
      rw [h.1] at hu
      simp only [List.mem_cons, List.not_mem_nil, or_false] at hu
      rcases hu with rfl | rfl <;> exact hr

/-! ## Violations -/

/-- The macro of a file in inch has a hexagon at x = 0.1255, which is written exactly.  Converted to millimetres, it is
at 3.1877, but the written file says 3.188. -/
theorem C84_rounded_violated :
    let f : MacroFile := ⟨⟨[.mo "inch", .am ['H'] "5,1,6,0.1255,0,1,0".toList [], .ad 10 ['H'] [[]]], "inch"⟩,
      fun i => if i = 1 then [.polygon true 6 (251 / 2000, 0) 1 0] else []⟩
    ((amRun 0 {} f.program.statements).toOption.map fun s => (s.uses, s.prims 1)) =
      some ([(1, 10, f.prims 1)], f.prims 1) ∧
    ((amRun 0 {} f.readAgain).toOption.map (·.uses)) = some [(1, 10, f.prims 1)] ∧
    f.toMetric.prims 1 = [.polygon true 6 (31877 / 10000, 0) (127 / 5) 0] ∧
    ((amRun 0 {} f.toMetric.readAgain).toOption.map (·.uses)) =
      some [(1, 10, [.polygon true 6 (3188 / 1000, 0) (127 / 5) 0])] := by
  refine ⟨?_, ?_, ?_, ?_⟩ <;> decide +kernel

/-- A primitive with a code the package does not know keeps its text, and so the lengths in the old units. -/
theorem C84_unknown_code_violated :
    let f : MacroFile := ⟨⟨[.mo "inch", .am ['H'] "8,1,0.5,0".toList [], .ad 10 ['H'] [[]]], "inch"⟩,
      fun i => if i = 1 then [.unsupported "8,1.0,0.5,0.0".toList] else []⟩
    ((amRun 0 {} f.program.statements).toOption.map fun s => (s.uses, s.prims 1)) =
      some ([(1, 10, f.prims 1)], f.prims 1) ∧
    f.toMetric.program.units = "metric" ∧ f.toMetric.prims 1 = [.unsupported "8,1.0,0.5,0.0".toList] := by
  refine ⟨?_, ?_, ?_⟩ <;> decide +kernel

end Verif.Am
