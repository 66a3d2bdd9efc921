import Verif.Props.GerberPicture

/-! # C75: examples, and where pictures of Gerber files are wrong -/

namespace Verif.Gerber
open Verif.Py Verif.Cairo Verif.Geom Verif.Render

/-- Lines of a file. -/
def gerberText (l : List String) : Str := (l.map fun s => s.toList ++ ['\n']).flatten

/-- Reading with no files to include. -/
def readLines (l : List String) : PyR (GerberFile Unit) := loads plainEnv (fun _ => none) (gerberText l)

/-! ## The hypotheses of the theorems can be met -/

/-- A region in the shape of an L with a round end, with lines, an arc, flashes with holes and a clear flash. -/
def plottedFile : List String := ["%FSLAX24Y24*%", "%MOIN*%", "%ADD10C,0.5*%", "%ADD11R,1X2X0.25*%", "%ADD12P,2X6X30*%",
  "D10*", "X0Y0D02*", "X10000D01*", "G75*", "G03*", "X0Y10000I-10000J0D01*", "G01*", "D11*", "X20000Y20000D03*", "%LPC*%", "D12*",
  "X20000Y20000D03*", "%LPD*%", "G36*", "X0Y0D02*", "X20000D01*", "Y10000D01*", "X10000D01*",
  "Y20000D01*", "G03*", "X0Y20000I-5000J0D01*", "Y0D01*", "G37*", "M02*"]

theorem plotted_primitives : ∃ f, readLines plottedFile = .ok f ∧ f.primitives =
    [.edge (.line (0, 0) (1, 0) ⟨.circle (1 / 2) {}, some "inch"⟩ "dark" "inch"),
     .edge (.arc (1, 0) (0, 1) (some (0, 0)) "counterclockwise" ⟨.circle (1 / 2) {}, some "inch"⟩ "multi-quadrant" "dark"
      "inch"),
     .flash (.rect 1 2 { diameter := 1 / 4 }) (2, 2) "dark" "inch",
     .flash (.polygon 6 1 30 {}) (2, 2) "clear" "inch",
     .region [.line (0, 0) (2, 0) ⟨.polygon 6 1 30 {}, some "inch"⟩ "dark" "inch",
      .line (2, 0) (2, 1) ⟨.polygon 6 1 30 {}, some "inch"⟩ "dark" "inch",
      .line (2, 1) (1, 1) ⟨.polygon 6 1 30 {}, some "inch"⟩ "dark" "inch",
      .line (1, 1) (1, 2) ⟨.polygon 6 1 30 {}, some "inch"⟩ "dark" "inch",
      .arc (1, 2) (0, 2) (some (1 / 2, 2)) "counterclockwise" ⟨.polygon 6 1 30 {}, some "inch"⟩ "multi-quadrant" "dark"
        "inch",
      .line (0, 2) (0, 0) ⟨.polygon 6 1 30 {}, some "inch"⟩ "dark" "inch"] "dark" "inch"] := by
  refine ⟨_, rfl, ?_⟩
  decide +kernel

example : ∃ f, readLines plottedFile = .ok f ∧ f.primitives ≠ [] ∧ ∀ P ∈ f.primitives, P.Draws := by
  obtain ⟨f, h1, h2⟩ := plotted_primitives
  refine ⟨f, h1, by simp [h2], ?_⟩
  rw [h2]
  simp only [List.forall_mem_cons, List.not_mem_nil, false_imp_iff, implies_true, and_true]
  refine ⟨?_, ?_, ?_, ?_, ?_⟩
  · simp only [Prim.Draws, Edge.Draws]; norm_num
  · simp only [Prim.Draws, Edge.Draws]
    norm_num
    exact .inl rfl
  · refine ⟨by norm_num, by norm_num, .inl rfl⟩
  · refine ⟨by norm_num, by norm_num, .inr ⟨by norm_num [Hole.NoRound], by norm_num [Hole.NoRect]⟩,
      .inr (by norm_num [Hole.NoRect])⟩
  · refine ⟨by simp, ?_, ?_⟩
    · simp [Edge.Bounds]
      norm_num
      exact .inl rfl
    · simp [Chain, Edge.start, Edge.stop]

/-! ## Pictures of one or two primitives -/

theorem widen_million {b : Box} (h : b.1.1 ≤ 1000000 ∧ -1000000 ≤ b.1.2 ∧ b.2.1 ≤ 1000000 ∧ -1000000 ≤ b.2.2) :
    widen million b = b := by
  obtain ⟨⟨a, c⟩, d, e⟩ := b
  simp only [widen, million] at h ⊢
  rw [min_eq_left h.1, max_eq_left h.2.1, min_eq_left h.2.2.1, max_eq_left h.2.2.2]

theorem box_one {d : Bool} {x : Cairo.Shape} {b : Box} (h : x.box = .ok b)
    (hb : b.1.1 ≤ 1000000 ∧ -1000000 ≤ b.1.2 ∧ b.2.1 ≤ 1000000 ∧ -1000000 ≤ b.2.2) :
    boxAround [.shape d x] = .ok b := by
  have h' : primBox (.shape d x) = .ok b := h
  rw [boxAround_fold (.cons h' .nil), List.foldl_cons, List.foldl_nil, widen_million hb]

theorem box_two {d d' : Bool} {x x' : Cairo.Shape} {b b' : Box} (h : x.box = .ok b) (h2 : x'.box = .ok b')
    (hb : b.1.1 ≤ 1000000 ∧ -1000000 ≤ b.1.2 ∧ b.2.1 ≤ 1000000 ∧ -1000000 ≤ b.2.2) :
    boxAround [.shape d x, .shape d' x'] = .ok (widen b b') := by
  have h' : primBox (.shape d x) = .ok b := h
  have h2' : primBox (.shape d' x') = .ok b' := h2
  rw [boxAround_fold (.cons h' (.cons h2' .nil)), List.foldl_cons, List.foldl_cons, List.foldl_nil, widen_million hb]

variable {G : Type}

/-- The picture of a file, from the areas its primitives cover. -/
theorem render_of {K : Engine} (parts : G → Pt → PyR (List (Bool × Cairo.Shape))) {f : GerberFile G}
    {prims : List Cairo.Prim} {b : Box} {s : ℝ} {area : Set RPt} (h1 : f.primitives.mapM (Prim.drawn parts) = .ok prims)
    (h2 : boxAround prims = .ok b) (h3 : K.layer (Frame.of s b) false false prims = .ok area) :
    f.render K parts { scale := s } = .ok
      { scale := s, frame := some (Frame.of s b), hasBg := true,
        paints := [.background [0, 0, 0] 1, .layer [7215 / 10000, 451 / 1000, 200 / 1000] 1 area] } := by
  simp only [GerberFile.render, h1, bind, Except.bind, Ctx.renderFile, h2, Ctx.setBounds, Ctx.paintBackground,
    Ctx.paintLayer, Option.getD_none, Bool.false_eq_true, if_false, h3]
  rfl

/-- Only points of the mask are covered. -/
theorem covered_sub {K : Engine} {b0 : Box} (h0 : Ordered b0) {s : ℝ} (hs : 0 < s) {dark : Bool} {x : Cairo.Shape}
    {M D : Set RPt} (hm : K.mask s dark false x = .ok M) (hc : K.covered (Frame.of s b0) false false dark x = .ok D)
    {p : RPt} (hp : onPicture b0 s false p ∈ D) : scalePoint s p ∈ M := by
  unfold Engine.covered at hc
  obtain ⟨b, hb, hc⟩ := Excellon.bindOk hc
  have hm' : K.mask (Frame.of s b0).scale dark false x = .ok M := hm
  rw [hm'] at hc
  cases hc
  obtain ⟨_, ⟨⟨m, hm, rfl⟩, -⟩, he⟩ := hp
  have hm2 : m = scalePoint s (m.1 / s, m.2 / s) := by
    simp only [scalePoint]
    rw [div_mul_cancel₀ _ hs.ne', div_mul_cancel₀ _ hs.ne']
  rw [hm2, C65_place h0] at he
  rw [← onPicture_inj hs he, ← hm2]
  exact hm

/-! ## Violations -/

/-- **C75 fails** at the top of primitives: the topmost point of this flash of a circle is not painted, at the usual
scale of 300 pixels per unit. -/
theorem C75_top_violated (K : Engine) (parts : Unit → Pt → PyR (List (Bool × Cairo.Shape))) :
    ∃ f P b area, readLines ["%FSLAX24Y24*%", "%MOIN*%", "%ADD10C,0.005*%", "D10*", "X0Y25D03*", "M02*"] = .ok f ∧
      f.primitives = [P] ∧ P.dark = true ∧ P.Draws ∧ f.render K parts = .ok
        { frame := some (Frame.of 300 b), hasBg := true,
          paints := [.background [0, 0, 0] 1, .layer [7215 / 10000, 451 / 1000, 200 / 1000] 1 area] } ∧
      (0, 5 / 1000) ∈ P.area ∧ onPicture b 300 false (0, 5 / 1000) ∉ area := by
  obtain ⟨f, h1, h2⟩ : ∃ f, readLines ["%FSLAX24Y24*%", "%MOIN*%", "%ADD10C,0.005*%", "D10*", "X0Y25D03*", "M02*"] =
      .ok f ∧ f.primitives = [.flash (.circle (5 / 1000) {}) (0, 25 / 10000) "dark" "inch"] := by
    refine ⟨_, rfl, ?_⟩
    decide +kernel
  have hs : (0 : ℝ) < 300 := by norm_num
  have hbox : around (0, ((25 / 10000 : ℚ) : ℝ)) (((5 / 1000 : ℚ) : ℝ) / 2) (((5 / 1000 : ℚ) : ℝ) / 2) =
      ((-(25 / 10000), 25 / 10000), (0, 5 / 1000)) := by norm_num [around]
  have ho : Ordered (((-(25 / 10000), 25 / 10000), (0, 5 / 1000)) : Box) := by norm_num [Ordered]
  obtain ⟨b, b1, -, b2, b3⟩ := C66_box_circle (0, ((25 / 10000 : ℚ) : ℝ)) (d := ((5 / 1000 : ℚ) : ℝ)) (by norm_num) 0
    (Hole.real {})
  obtain rfl : ((-(25 / 10000), 25 / 10000), (0, 5 / 1000)) = b := by
    rw [← hbox]
    simp only [Shape.box] at b1
    injection b1
  have hm : K.mask 300 true false (.circle (0, ((25 / 10000 : ℚ) : ℝ)) ((5 / 1000 : ℚ) : ℝ) 0 (Hole.real {})) =
      .ok (inPixels 300 (placed (0, ((25 / 10000 : ℚ) : ℝ)) 0 (disc (((5 / 1000 : ℚ) : ℝ) / 2)))) := by
    obtain ⟨M, m1, m2⟩ := C68_circle K hs true false (0, ((25 / 10000 : ℚ) : ℝ)) ((5 / 1000 : ℚ) : ℝ) 0 0
    rw [if_neg (lt_irrefl _)] at m2
    have : Hole.real {} = { diameter := 0 } := by simp [Hole.real]
    rw [this, m1, m2]
  obtain ⟨D, d1, d2⟩ := C66_covered (mirror := false) ho hs b1 b2 hm b3
  refine ⟨f, _, ((-(25 / 10000), 25 / 10000), (0, 5 / 1000)), D, h1, h2, rfl, ⟨by norm_num, .inl rfl⟩,
    render_of parts (prims := [.shape true (.circle (0, ((25 / 10000 : ℚ) : ℝ)) ((5 / 1000 : ℚ) : ℝ) 0 (Hole.real {}))])
      ?_ ?_ ?_, ?_, ?_⟩
  · rw [h2]
    simp [Prim.drawn, Pt.real]
  · exact box_one b1 (by norm_num)
  · simp only [Engine.layer, List.flatMap_cons, List.flatMap_nil, Frame.shapes, List.append_nil, List.foldlM_cons,
      List.foldlM_nil, Engine.draw, d1, bind, Except.bind]
    simp
    rfl
  · rw [flash_area, placed_zero]
    norm_num [Shape.area, toPlane, disc, Hole.area]
  · rw [d2]
    rintro ⟨p, hp, hc, he⟩
    have := onPicture_inj hs he
    rw [← this] at hc
    have f1 : ⌊(300 : ℝ) * (5 / 1000) - ((⌊(0 : ℝ) * 300⌋ : ℤ) : ℝ)⌋ = 1 := by
      rw [Int.floor_eq_iff]; norm_num
    simp only at hc
    rw [f1] at hc
    norm_num at hc

/-- **C75 fails** for lines drawn with obround apertures: nothing is painted. -/
theorem C75_obround_line_violated (K : Engine) (parts : Unit → Pt → PyR (List (Bool × Cairo.Shape))) :
    ∃ f P b area, readLines ["%FSLAX24Y24*%", "%MOIN*%", "%ADD10O,1X2*%", "D10*", "X0Y0D02*", "X10000D01*", "M02*"] =
      .ok f ∧ f.primitives = [P] ∧ P.dark = true ∧ P.area.Nonempty ∧ f.render K parts = .ok
        { frame := some (Frame.of 300 b), hasBg := true,
          paints := [.background [0, 0, 0] 1, .layer [7215 / 10000, 451 / 1000, 200 / 1000] 1 area] } ∧ area = ∅ := by
  obtain ⟨f, h1, h2⟩ : ∃ f, readLines ["%FSLAX24Y24*%", "%MOIN*%", "%ADD10O,1X2*%", "D10*", "X0Y0D02*", "X10000D01*",
      "M02*"] = .ok f ∧ f.primitives = [.edge (.line (0, 0) (1, 0) ⟨.obround 1 2 {}, some "inch"⟩ "dark" "inch")] := by
    refine ⟨_, rfl, ?_⟩
    decide +kernel
  refine ⟨f, _, (segBox (0, 0) (1, 0)).grow (1 / 2, 2 / 2), ∅, h1, h2, rfl, ⟨(0, 0), ?_⟩,
    render_of parts (prims := [.shape true (.line (0, 0) (1, 0) (.obround 1 2))]) ?_ ?_ ?_, rfl⟩
  · refine ⟨(0, 0), ⟨0, le_refl _, by norm_num, by simp [toPlane]⟩, (0, 0), ?_, by simp⟩
    simp only [Edge.ap, Shape.full, stadium]
    norm_num
    exact ⟨0, by norm_num⟩
  · rw [h2]
    simp [Prim.drawn, Pt.real, Shape.pen]
    rfl
  · exact box_one rfl (by norm_num [segBox, Box.grow])
  · simp [Engine.layer, Frame.shapes, Engine.draw, Engine.covered, Cairo.Shape.box, Engine.mask, lineVertices,
      Aperture.pen, bind, Except.bind]
    rfl

/-- **C75 fails** for lines drawn with polygons: the picture is refused. -/
theorem C75_polygon_line_violated (K : Engine) (parts : Unit → Pt → PyR (List (Bool × Cairo.Shape))) :
    ∃ f P, readLines ["%FSLAX24Y24*%", "%MOIN*%", "%ADD10P,1X6*%", "D10*", "X0Y0D02*", "X10000D01*", "M02*"] =
      .ok f ∧ f.primitives = [P] ∧ P.dark = true ∧ f.render K parts = .error .attributeError := by
  obtain ⟨f, h1, h2⟩ : ∃ f, readLines ["%FSLAX24Y24*%", "%MOIN*%", "%ADD10P,1X6*%", "D10*", "X0Y0D02*", "X10000D01*",
      "M02*"] = .ok f ∧ f.primitives = [.edge (.line (0, 0) (1, 0) ⟨.polygon 6 (1 / 2) 0 {}, some "inch"⟩ "dark" "inch")]
      := by
    refine ⟨_, rfl, ?_⟩
    decide +kernel
  refine ⟨f, _, h1, h2, rfl, ?_⟩
  simp [GerberFile.render, h2, Prim.drawn, Pt.real, Shape.pen, sides, bind, Except.bind, pure, Except.pure, Ctx.renderFile,
    boxAround, primBox, Cairo.Shape.box]

/-- **C75 fails** for clear rectangles with holes: the part of a dark rectangle in the hole is removed, too. -/
theorem C75_hole_violated (K : Engine) (parts : Unit → Pt → PyR (List (Bool × Cairo.Shape))) :
    ∃ f P Q b area, readLines ["%FSLAX24Y24*%", "%MOIN*%", "%ADD10R,4X4*%", "%ADD11R,2X2X1*%", "D10*", "X0Y0D03*",
        "%LPC*%", "D11*", "X0Y0D03*", "M02*"] = .ok f ∧ f.primitives = [P, Q] ∧ P.dark = true ∧ Q.dark = false ∧
      (0, 0) ∈ P.area ∧ (0, 0) ∉ Q.area ∧ f.render K parts = .ok
        { frame := some (Frame.of 300 b), hasBg := true,
          paints := [.background [0, 0, 0] 1, .layer [7215 / 10000, 451 / 1000, 200 / 1000] 1 area] } ∧
      onPicture b 300 false (0, 0) ∉ area := by
  obtain ⟨f, h1, h2⟩ : ∃ f, readLines ["%FSLAX24Y24*%", "%MOIN*%", "%ADD10R,4X4*%", "%ADD11R,2X2X1*%", "D10*", "X0Y0D03*",
      "%LPC*%", "D11*", "X0Y0D03*", "M02*"] = .ok f ∧ f.primitives = [.flash (.rect 4 4 {}) (0, 0) "dark" "inch",
        .flash (.rect 2 2 { diameter := 1 }) (0, 0) "clear" "inch"] := by
    refine ⟨_, rfl, ?_⟩
    decide +kernel
  have hs : (0 : ℝ) < 300 := by norm_num
  have ho : Ordered (((-2, 2), (-2, 2)) : Box) := by norm_num [Ordered]
  have m1 := C68_rectangle_partial K hs true false (0, 0) (w := 4) (h := 4) (by norm_num) (by norm_num)
  have m2 := C68_hole_violated K hs (dark := false) (invert := false) (.inl rfl) (0, 0) (w := 2) (h' := 2) (hd := 1)
    (by norm_num) (by norm_num) (by norm_num)
  have m2' : inPixels 300 (placed (0, 0) 0 (slab 2 2)) ∪ inPixels 300 (placed (0, 0) 0 (disc (1 / 2))) =
      inPixels 300 (placed (0, 0) 0 (slab 2 2)) := by
    apply Set.union_eq_left.mpr
    intro q hq
    rw [mem_inPixels hs, placed_zero] at hq ⊢
    simp only [disc, slab, Set.mem_ofPred_eq, sub_zero] at hq ⊢
    constructor <;> apply abs_le.mpr <;> constructor <;> nlinarith [sq_nonneg (q.1 / 300), sq_nonneg (q.2 / 300)]
  rw [m2'] at m2
  obtain ⟨b1, c1, -, c2, c3, -⟩ := C66_box_rectangle (0, 0) (w := 4) (h := 4) (by norm_num) (by norm_num) {}
  obtain ⟨b2, e1, -, e2, e3, -⟩ := C66_box_rectangle (0, 0) (w := 2) (h := 2) (by norm_num) (by norm_num)
    { diameter := 1 }
  obtain ⟨D1, d1, d2⟩ := C66_covered (mirror := false) ho hs c1 c2 m1 c3
  obtain ⟨D2, g1, g2⟩ := C66_covered (mirror := false) ho hs e1 e2 m2 e3
  obtain rfl : (((-2, 2), (-2, 2)) : Box) = b1 := by
    simp only [Cairo.Shape.box, (axis_zero 4 4).1, (axis_zero 4 4).2] at c1
    injection c1 with c1
    rw [← c1]
    norm_num [around]
  obtain rfl : (((-1, 1), (-1, 1)) : Box) = b2 := by
    simp only [Cairo.Shape.box, (axis_zero 2 2).1, (axis_zero 2 2).2] at e1
    injection e1 with e1
    rw [← e1]
    norm_num [around]
  refine ⟨f, _, _, ((-2, 2), (-2, 2)), D1 \ D2, h1, h2, rfl, rfl, ?_, ?_,
    render_of parts (prims := [.shape true (.rectangle (0, 0) 4 4 0 {}), .shape false (.rectangle (0, 0) 2 2 0
      { diameter := 1 })]) ?_ ?_ ?_, ?_⟩
  · rw [flash_area, placed_zero]
    norm_num [Shape.area, toPlane, slab, Hole.area]
  · rw [flash_area, placed_zero]
    norm_num [Shape.area, toPlane, slab, disc, Hole.area]
  · rw [h2]
    simp [Prim.drawn, Pt.real, Hole.real, bind, Except.bind, pure, Except.pure]
  · rw [box_two c1 e1 (by norm_num)]
    norm_num [widen]
  · simp only [Engine.layer, List.flatMap_cons, List.flatMap_nil, Frame.shapes, List.append_nil, List.foldlM_cons,
      List.foldlM_nil, Engine.draw, d1, g1, bind, Except.bind, List.cons_append, List.nil_append]
    simp
    rfl
  · rintro ⟨-, hn⟩
    apply hn
    rw [g2]
    refine ⟨(0, 0), ?_, ?_, rfl⟩
    · rw [placed_zero]
      norm_num [slab]
    · have : ⌊(300 : ℝ) * 1 - ((⌊(-2 : ℝ) * 300⌋ : ℤ) : ℝ)⌋ = 900 := by
        have h : ⌊(-2 : ℝ) * 300⌋ = -600 := by rw [Int.floor_eq_iff]; norm_num
        rw [h, Int.floor_eq_iff]; norm_num
      simp only
      rw [this]
      norm_num

/-- **C75 fails** for whole circles drawn clockwise: the opposite point of the circle is not painted. -/
theorem C75_full_circle_violated (K : Engine) (parts : Unit → Pt → PyR (List (Bool × Cairo.Shape))) :
    ∃ f P b area, readLines ["%FSLAX24Y24*%", "%MOIN*%", "%ADD10C,0.5*%", "D10*", "X10000Y0D02*", "G75*", "G02*",
        "X10000Y0I-10000J0D01*", "M02*"] = .ok f ∧ f.primitives = [P] ∧ P.dark = true ∧ f.render K parts = .ok
        { frame := some (Frame.of 300 b), hasBg := true,
          paints := [.background [0, 0, 0] 1, .layer [7215 / 10000, 451 / 1000, 200 / 1000] 1 area] } ∧
      (-1, 0) ∈ P.area ∧ onPicture b 300 false (-1, 0) ∉ area := by
  obtain ⟨f, h1, h2⟩ : ∃ f, readLines ["%FSLAX24Y24*%", "%MOIN*%", "%ADD10C,0.5*%", "D10*", "X10000Y0D02*", "G75*",
      "G02*", "X10000Y0I-10000J0D01*", "M02*"] = .ok f ∧ f.primitives = [.edge (.arc (1, 0) (1, 0) (some (0, 0))
        "clockwise" ⟨.circle (1 / 2) {}, some "inch"⟩ "multi-quadrant" "dark" "inch")] := by
    refine ⟨_, rfl, ?_⟩
    decide +kernel
  have hs : (0 : ℝ) < 300 := by norm_num
  obtain ⟨b, b1, b2, b3⟩ := C66_box_arc (direction := "clockwise") (a := (1, 0)) (e := (1, 0)) (c := (0, 0)) (.inl rfl)
    (d := 1 / 2) (by norm_num)
  have hcircle : ∀ t : ℝ, 0 ≤ t → t ≤ 2 * Real.pi → (Real.cos t, Real.sin t) ∈
      swept (circular "clockwise" (1, 0) (1, 0) (0, 0)) (disc (1 / 2 / 2)) := by
    intro t t0 t1
    refine ⟨(Real.cos t, Real.sin t), ⟨1, 2 * Real.pi, 0, t, by norm_num, by simp [onCircle], by simp [onCircle],
      by simp [onCircle], ?_⟩, (0, 0), by norm_num [disc], by simp⟩
    rw [if_neg (by decide)]
    exact ⟨Real.two_pi_pos, by linarith, t0, t1⟩
  have hin := b3 _ (hcircle 0 le_rfl Real.two_pi_pos.le)
  simp only [Real.cos_zero, Real.sin_zero, Box.Holds] at hin
  have hm := C68_full_circle_violated K 300 true false (1, 0) (0, 0) (d := 1 / 2) (by norm_num)
  obtain ⟨D, hD⟩ : ∃ D, K.covered (Frame.of 300 b) false false true
      (.arc (1, 0) (1, 0) (0, 0) "clockwise" "multi-quadrant" (.circle (1 / 2))) = .ok D := by
    have hm' : K.mask (Frame.of 300 b).scale true false
      (.arc (1, 0) (1, 0) (0, 0) "clockwise" "multi-quadrant" (.circle (1 / 2))) = _ := hm
    simp only [Engine.covered, b1, hm', bind, Except.bind]
    exact ⟨_, rfl⟩
  refine ⟨f, _, b, D, h1, h2, rfl, render_of parts (prims := [.shape true (.arc (1, 0) (1, 0) (0, 0) "clockwise"
    "multi-quadrant" (.circle (1 / 2)))]) ?_ ?_ ?_, ?_, ?_⟩
  · rw [h2]
    simp [Prim.drawn, Pt.real, Shape.pen]
    rfl
  · exact box_one b1 ⟨by linarith, by linarith, by linarith, by linarith⟩
  · simp only [Engine.layer, List.flatMap_cons, List.flatMap_nil, Frame.shapes, List.append_nil, List.foldlM_cons,
      List.foldlM_nil, Engine.draw, hD, bind, Except.bind]
    simp
    rfl
  · have := hcircle Real.pi Real.pi_pos.le (by linarith [Real.pi_pos])
    simp only [Real.cos_pi, Real.sin_pi] at this
    simpa [Prim.area, Edge.path, Edge.ap, Shape.full, toPlane] using this
  · intro hp
    obtain ⟨-, _, ⟨t, t1, t2, rfl⟩, hc⟩ := covered_sub b2 hs hm hD hp
    have hr : arcRadius (1, 0) (0, 0) = 1 := by simp [arcRadius]
    have ht := onCircle_theta (1, 0) (0, 0)
    rw [hr] at ht hc
    have ht1 : Real.cos (theta (1, 0) (0, 0)) = 1 := by simpa [onCircle] using congrArg Prod.fst ht
    have hcos := Real.abs_cos_sub_cos_le t (theta (1, 0) (0, 0))
    rw [ht1, abs_le] at hcos
    have habs : |t - theta (1, 0) (0, 0)| ≤ 1 := by
      rw [abs_le]
      constructor <;> linarith
    simp only [discAt, onCircle, scalePoint, Set.mem_ofPred_eq] at hc
    have h0 : 0 ≤ Real.cos t := by linarith [hcos.1]
    nlinarith [sq_nonneg (Real.sin t)]

/-- **C75 fails** for regions bounded by a whole circle: the centre of the disc is not painted. -/
theorem C75_round_region_violated {K : Engine} (hK : K.Winding) (parts : Unit → Pt → PyR (List (Bool × Cairo.Shape))) :
    ∃ f P b area, readLines ["%FSLAX24Y24*%", "%MOIN*%", "G75*", "G36*", "X10000Y0D02*", "G02*",
        "X10000Y0I-10000J0D01*", "G37*", "M02*"] = .ok f ∧ f.primitives = [P] ∧ P.dark = true ∧ f.render K parts = .ok
        { frame := some (Frame.of 300 b), hasBg := true,
          paints := [.background [0, 0, 0] 1, .layer [7215 / 10000, 451 / 1000, 200 / 1000] 1 area] } ∧
      (0, 0) ∈ P.area ∧ onPicture b 300 false (0, 0) ∉ area := by
  obtain ⟨f, ap, h1, h2⟩ : ∃ f ap, readLines ["%FSLAX24Y24*%", "%MOIN*%", "G75*", "G36*", "X10000Y0D02*", "G02*",
        "X10000Y0I-10000J0D01*", "G37*", "M02*"] = .ok f ∧ f.primitives = [.region [.arc (1, 0) (1, 0) (some (0, 0))
        "clockwise" ap "multi-quadrant" "dark" "inch"] "dark" "inch"] := by
    refine ⟨_, ⟨.circle 0 {}, none⟩, rfl, ?_⟩
    decide +kernel
  have hs : (0 : ℝ) < 300 := by norm_num
  have hr : 0 < arcRadius (1, 0) (0, 0) := by simp [arcRadius]
  obtain ⟨m1, m2⟩ := C68_circle_violated hK hs true false hr "clockwise" "multi-quadrant"
  obtain ⟨b, hb⟩ : ∃ b, unionBox [Part.box (.arc (1, 0) (1, 0) (0, 0) "clockwise" "multi-quadrant")] = some b := ⟨_, rfl⟩
  have b1 : (Cairo.Shape.region [.arc (1, 0) (1, 0) (0, 0) "clockwise" "multi-quadrant"]).box = .ok b := by
    simp only [Cairo.Shape.box, List.map_cons, List.map_nil, hb]
  have hin : b.Holds (1, 0) := by
    refine (unionBox_spec hb).1 _ List.mem_cons_self _ (C32_arc_path ?_)
    refine ⟨1, 2 * Real.pi, 0, 0, by norm_num, by simp [onCircle], by simp [onCircle], by simp [onCircle], ?_⟩
    rw [if_neg (by decide)]
    exact ⟨Real.two_pi_pos, by linarith [Real.pi_pos], le_rfl, Real.two_pi_pos.le⟩
  simp only [Box.Holds] at hin
  have b2 : Ordered b := ⟨by linarith, by linarith⟩
  obtain ⟨D, hD⟩ : ∃ D, K.covered (Frame.of 300 b) false false true
      (.region [.arc (1, 0) (1, 0) (0, 0) "clockwise" "multi-quadrant"]) = .ok D := by
    have hm' : K.mask (Frame.of 300 b).scale true false
      (.region [.arc (1, 0) (1, 0) (0, 0) "clockwise" "multi-quadrant"]) = _ := m1
    simp only [Engine.covered, b1, hm', bind, Except.bind]
    exact ⟨_, rfl⟩
  refine ⟨f, _, b, D, h1, h2, rfl, render_of parts (prims := [.shape true (.region [.arc (1, 0) (1, 0) (0, 0) "clockwise"
    "multi-quadrant"])]) ?_ ?_ ?_, ?_, ?_⟩
  · rw [h2]
    simp [Prim.drawn, Edge.part, Pt.real]
    rfl
  · exact box_one b1 ⟨by linarith, by linarith, by linarith, by linarith⟩
  · simp only [Engine.layer, List.flatMap_cons, List.flatMap_nil, Frame.shapes, List.append_nil, List.foldlM_cons,
      List.foldlM_nil, Engine.draw, hD, bind, Except.bind]
    simp
    rfl
  · have h : (0, 0) ∈ enclosed (1, 0) [(Part.arc (1, 0) (1, 0) (0, 0) "clockwise" "multi-quadrant").bend] := by
      rw [m2]
      norm_num [arcRadius]
    simpa [Prim.area, contourArea, Edge.start, Edge.bend, Part.bend, toPlane] using h
  · intro hp
    have h := (mem_inPixels hs _ _).mp (covered_sub b2 hs m1 hD hp)
    simp [scalePoint] at h

/-- **C75 fails** for files without primitives: the picture should be empty, but is 600 million pixels wide. -/
theorem C75_empty_violated (K : Engine) (parts : Unit → Pt → PyR (List (Bool × Cairo.Shape))) :
    ∃ f c F, readLines ["%FSLAX24Y24*%", "%MOIN*%", "M02*"] = .ok f ∧ f.primitives = [] ∧ f.render K parts = .ok c ∧
      c.frame = some F ∧ F.sizePx = (600000000, 600000000) := by
  obtain ⟨f, h1, h2⟩ : ∃ f, readLines ["%FSLAX24Y24*%", "%MOIN*%", "M02*"] = .ok f ∧ f.primitives = [] := by
    refine ⟨_, rfl, ?_⟩
    decide +kernel
  refine ⟨f, _, _, h1, h2, render_of parts (prims := []) (by rw [h2]; rfl) rfl rfl, rfl, ?_⟩
  norm_num [Frame.sizePx, Frame.of, scalePoint, abs_of_neg]

/-- A file with one round flash at the origin is as many pixels wide as its diameter says, whatever the units. -/
theorem dot_size (K : Engine) (parts : Unit → Pt → PyR (List (Bool × Cairo.Shape))) {f : GerberFile Unit} {d : ℚ}
    {u : String} (hd : 0 ≤ d) (h : f.primitives = [.flash (.circle d {}) (0, 0) "dark" u]) :
    ∃ c F, f.render K parts = .ok c ∧ c.frame = some F ∧ F.sizePx = ((d : ℝ) * 300, (d : ℝ) * 300) := by
  have d0 : (0 : ℝ) ≤ d := by exact_mod_cast hd
  obtain ⟨D, hD⟩ : ∃ D, K.covered (Frame.of 300 (around (0, 0) ((d : ℝ) / 2) ((d : ℝ) / 2))) false false true
      (.circle (0, 0) d 0 (Hole.real {})) = .ok D := by
    simp only [Engine.covered, Cairo.Shape.box, Engine.mask, bind, Except.bind]
    exact ⟨_, rfl⟩
  refine ⟨_, _, render_of parts (prims := [.shape true (.circle (0, 0) d 0 (Hole.real {}))]) (area := D)
    (b := around (0, 0) ((d : ℝ) / 2) ((d : ℝ) / 2)) ?_ ?_ ?_, rfl, ?_⟩
  · rw [h]
    simp [Prim.drawn, Pt.real]
  · exact box_one rfl ⟨by simp only [around]; linarith, by simp only [around]; linarith, by simp only [around]; linarith,
      by simp only [around]; linarith⟩
  · simp only [Engine.layer, List.flatMap_cons, List.flatMap_nil, Frame.shapes, List.append_nil, List.foldlM_cons,
      List.foldlM_nil, Engine.draw, hD, bind, Except.bind]
    simp
    rfl
  · simp [Frame.sizePx, Frame.of, scalePoint, around, hd]

/-- **C75 fails** for files in millimetres: the pictures of a dot of one inch are 300 and 7620 pixels wide, although the
scale is in pixels per inch. -/
theorem C75_units_violated (K : Engine) (parts : Unit → Pt → PyR (List (Bool × Cairo.Shape))) :
    ∃ f g c d F H, readLines ["%FSLAX24Y24*%", "%MOIN*%", "%ADD10C,1*%", "D10*", "X0Y0D03*", "M02*"] = .ok f ∧
      readLines ["%FSLAX24Y24*%", "%MOMM*%", "%ADD10C,25.4*%", "D10*", "X0Y0D03*", "M02*"] = .ok g ∧
      f.render K parts = .ok c ∧ g.render K parts = .ok d ∧ c.frame = some F ∧ d.frame = some H ∧
      F.sizePx = (300, 300) ∧ H.sizePx = (7620, 7620) := by
  obtain ⟨f, h1, h2⟩ : ∃ f, readLines ["%FSLAX24Y24*%", "%MOIN*%", "%ADD10C,1*%", "D10*", "X0Y0D03*", "M02*"] = .ok f ∧
      f.primitives = [.flash (.circle 1 {}) (0, 0) "dark" "inch"] := by
    refine ⟨_, rfl, ?_⟩
    decide +kernel
  obtain ⟨g, g1, g2⟩ : ∃ f, readLines ["%FSLAX24Y24*%", "%MOMM*%", "%ADD10C,25.4*%", "D10*", "X0Y0D03*", "M02*"] = .ok f ∧
      f.primitives = [.flash (.circle (254 / 10) {}) (0, 0) "dark" "metric"] := by
    refine ⟨_, rfl, ?_⟩
    decide +kernel
  obtain ⟨c, F, c1, c2, c3⟩ := dot_size K parts (by norm_num) h2
  obtain ⟨d, H, d1, d2, d3⟩ := dot_size K parts (by norm_num) g2
  refine ⟨f, g, c, d, F, H, h1, g1, c1, d1, c2, d2, by rw [c3]; norm_num, by rw [d3]; norm_num⟩

/-- Pictures only depend on the primitives. -/
theorem render_congr {f g : GerberFile G} (h : f.primitives = g.primitives) (K : Engine)
    (parts : G → Pt → PyR (List (Bool × Cairo.Shape))) (c : Cairo.Ctx) (invert : Bool) :
    f.render K parts c invert = g.render K parts c invert := by
  simp only [GerberFile.render, h]

/-- **C75 fails** for files that repeat their content: `%SRX2Y1I1.0J0*%` asks for a second copy to the right, but the
picture is the same as without. -/
theorem C75_step_repeat_violated : ∃ f g,
    readLines ["%FSLAX24Y24*%", "%MOIN*%", "%ADD10C,0.1*%", "%SRX2Y1I1.0J0*%", "D10*", "X0Y0D03*", "%SR*%", "M02*"] =
      .ok f ∧
    readLines ["%FSLAX24Y24*%", "%MOIN*%", "%ADD10C,0.1*%", "D10*", "X0Y0D03*", "M02*"] = .ok g ∧
    f.primitives.length = 1 ∧ ∀ K parts c invert, f.render K parts c invert = g.render K parts c invert := by
  obtain ⟨f, h1, h2⟩ : ∃ f, readLines ["%FSLAX24Y24*%", "%MOIN*%", "%ADD10C,0.1*%", "%SRX2Y1I1.0J0*%", "D10*", "X0Y0D03*",
      "%SR*%", "M02*"] = .ok f ∧ f.primitives = [.flash (.circle (1 / 10) {}) (0, 0) "dark" "inch"] := by
    refine ⟨_, rfl, ?_⟩
    decide +kernel
  obtain ⟨g, g1, g2⟩ : ∃ f, readLines ["%FSLAX24Y24*%", "%MOIN*%", "%ADD10C,0.1*%", "D10*", "X0Y0D03*", "M02*"] = .ok f ∧
      f.primitives = [.flash (.circle (1 / 10) {}) (0, 0) "dark" "inch"] := by
    refine ⟨_, rfl, ?_⟩
    decide +kernel
  exact ⟨f, g, h1, g1, by rw [h2]; rfl, render_congr (h2.trans g2.symm)⟩

/-- **C75 fails** for negative images: `%IPNEG*%` asks for the dark and the clear parts to be exchanged, but the picture
is the same as that of the positive image. -/
theorem C75_negative_violated : ∃ f g,
    readLines ["%FSLAX24Y24*%", "%MOIN*%", "%IPNEG*%", "%ADD10C,0.1*%", "D10*", "X0Y0D03*", "M02*"] = .ok f ∧
    readLines ["%FSLAX24Y24*%", "%MOIN*%", "%IPPOS*%", "%ADD10C,0.1*%", "D10*", "X0Y0D03*", "M02*"] = .ok g ∧
    ∀ K parts c invert, f.render K parts c invert = g.render K parts c invert := by
  obtain ⟨f, h1, h2⟩ : ∃ f, readLines ["%FSLAX24Y24*%", "%MOIN*%", "%IPNEG*%", "%ADD10C,0.1*%", "D10*", "X0Y0D03*",
      "M02*"] = .ok f ∧ f.primitives = [.flash (.circle (1 / 10) {}) (0, 0) "dark" "inch"] := by
    refine ⟨_, rfl, ?_⟩
    decide +kernel
  obtain ⟨g, g1, g2⟩ : ∃ f, readLines ["%FSLAX24Y24*%", "%MOIN*%", "%IPPOS*%", "%ADD10C,0.1*%", "D10*", "X0Y0D03*",
      "M02*"] = .ok f ∧ f.primitives = [.flash (.circle (1 / 10) {}) (0, 0) "dark" "inch"] := by
    refine ⟨_, rfl, ?_⟩
    decide +kernel
  exact ⟨f, g, h1, g1, render_congr (h2.trans g2.symm)⟩

end Verif.Gerber
