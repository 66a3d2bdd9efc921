import Verif.Props.File
import Verif.Model.Macro

/-! # Unit conversion of Gerber files (C21, and C09 for statements) -/

namespace Verif.Gerber
open Verif.Py Verif.Cam Verif.Utils

variable {G : Type}

/-! ## What a scaled picture is -/

def Pt.scale (k : ℚ) (p : Pt) : Pt := (k * p.1, k * p.2)

def Hole.scale (k : ℚ) (h : Hole) : Hole := ⟨k * h.diameter, k * h.width, k * h.height⟩

/-- Scaling multiplies lengths; it does not change numbers of vertices and rotations.  `sg` says what
it does to a macro aperture. -/
def Shape.scale (k : ℚ) (sg : G → G) : Shape G → Shape G
  | .circle d h => .circle (k * d) (h.scale k)
  | .rect a b h => .rect (k * a) (k * b) (h.scale k)
  | .obround a b h => .obround (k * a) (k * b) (h.scale k)
  | .polygon n r rot h => .polygon n (k * r) rot (h.scale k)
  | .group g => .group (sg g)

/-- The units become `u` (`None` stays `None`). -/
def Aperture.scale (k : ℚ) (u : String) (sg : G → G) (a : Aperture G) : Aperture G :=
  ⟨a.shape.scale k sg, a.units.map fun _ => u⟩

def Edge.scale (k : ℚ) (u : String) (sg : G → G) : Edge G → Edge G
  | .line s e a p _ => .line (Pt.scale k s) (Pt.scale k e) (a.scale k u sg) p u
  | .arc s e c d a q p _ =>
    .arc (Pt.scale k s) (Pt.scale k e) (c.map (Pt.scale k)) d (a.scale k u sg) q p u

def Prim.scale (k : ℚ) (u : String) (sg : G → G) : Prim G → Prim G
  | .edge e => .edge (e.scale k u sg)
  | .flash s pos p _ => .flash (s.scale k sg) (Pt.scale k pos) p u
  | .region es p _ => .region (es.map (Edge.scale k u sg)) p u

/-! ## Files for which it holds -/

/-- Some earlier statement sets the units. -/
def unitsGiven (h : List Stmt) : Prop := ∃ m, .mo m ∈ h

/-- Units are set before anything is defined or drawn; apertures have allowed shapes;
the search for the centre of a single-quadrant arc commutes with scaling. -/
def ScaleFor (allowed : Str → Prop) (env : EvalEnv G) (k : ℚ) (h : List Stmt) : Stmt → Prop
  | .ad _ s _ => unitsGiven h ∧ allowed s
  | .coord c => (actionAt h c ≠ none → unitsGiven h) ∧
      (actionAt h c = some .draw → ((modeOf h).after c.function).linear = false →
        quadrantOf h = "single-quadrant" → ∀ dir,
        env.center dir (Pt.scale k (pen h)) (Pt.scale k (pen (.coord c :: h)))
          (Pt.scale k (c.i.getD 0, c.j.getD 0)) =
        (env.center dir (pen h) (pen (.coord c :: h)) (c.i.getD 0, c.j.getD 0)).map (Pt.scale k))
  | .region _ => unitsGiven h
  | _ => True

def AllScaleFor (allowed : Str → Prop) (env : EvalEnv G) (k : ℚ) : List Stmt → Prop
  | [] => True
  | s :: h => AllScaleFor allowed env k h ∧ ScaleFor allowed env k h s

/-- Apertures are circles, rectangles or obrounds. -/
abbrev AllScaleOK (env : EvalEnv G) (k : ℚ) (h : List Stmt) : Prop :=
  AllScaleFor (· ∈ [['C'], ['R'], ['O']]) env k h

/-! ## Conversion as scaling -/

/-- Common form of the two conversions. -/
def Stmt.scale (k : ℚ) (u : String) (g : Option Str → Option Str) : Stmt → Stmt
  | .mo _ => .mo u
  | .ad d s mods => .ad d s (mods.map (·.map (k * ·)))
  | .of_ a b => .of_ (k * a) (k * b)
  | .sf a b => .sf (k * a) (k * b)
  | .coord c => .coord ⟨g c.function, c.x.map (k * ·), c.y.map (k * ·),
      c.i.map (k * ·), c.j.map (k * ·), c.op⟩
  | s => s

theorem metric_eq : (metric : ℚ → ℚ) = (mmPerInch * ·) := by
  funext v; simp [metric, mul_comm]

theorem inch_eq : (inch : ℚ → ℚ) = (mmPerInch⁻¹ * ·) := by
  funext v; simp [inch, div_eq_inv_mul]

theorem inchToMetric_eq : Stmt.inchToMetric = Stmt.scale mmPerInch "metric" metricFunction := by
  funext s
  cases s <;> simp only [Stmt.inchToMetric, Stmt.scale, metric_eq]

theorem metricToInch_eq : Stmt.metricToInch = Stmt.scale mmPerInch⁻¹ "inch" inchFunction := by
  funext s
  cases s <;> simp only [Stmt.metricToInch, Stmt.scale, inch_eq]

/-- The function codes are kept but for the two unit codes. -/
structure FnOK (g : Option Str → Option Str) : Prop where
  none_iff : ∀ f, g f = none ↔ f = none
  after : ∀ (m : Mode) f, m.after (g f) = m.after f

theorem metricFunction_ok : FnOK metricFunction := by
  constructor
  · intro f; unfold metricFunction; split <;> simp_all
  · intro m f
    unfold metricFunction
    split
    · rename_i h; subst h; rfl
    · rfl

theorem inchFunction_ok : FnOK inchFunction := by
  constructor
  · intro f; unfold inchFunction; split <;> simp_all
  · intro m f
    unfold inchFunction
    split
    · rename_i h; subst h; rfl
    · rfl

section
variable (k : ℚ) (u : String) {g : Option Str → Option Str} (hg : FnOK g)

/-- The scaled coordinate statement. -/
def Coord.scale (k : ℚ) (g : Option Str → Option Str) (c : Coord) : Coord :=
  ⟨g c.function, c.x.map (k * ·), c.y.map (k * ·), c.i.map (k * ·), c.j.map (k * ·), c.op⟩

include hg in
theorem bare_scale (c : Coord) : (c.scale k g).Bare ↔ c.Bare := by
  obtain ⟨f, x, y, i, j, o⟩ := c
  have h1 := hg.none_iff f
  constructor
  · rintro ⟨f', h⟩
    simp only [Coord.scale, Coord.mk.injEq, Option.map_eq_none_iff] at h
    obtain ⟨a, rfl, rfl, rfl, rfl, rfl⟩ := h
    cases f with
    | none => rw [h1.2 rfl] at a; cases a
    | some f => exact ⟨f, rfl⟩
  · rintro ⟨f', h⟩
    simp only [Coord.mk.injEq] at h
    obtain ⟨rfl, rfl, rfl, rfl, rfl, rfl⟩ := h
    cases hgf : g (some f') with
    | none => have := h1.1 hgf; cases this
    | some a => exact ⟨a, by simp [Coord.scale, hgf]⟩

theorem opOf_scale (g) (h : List Stmt) : opOf (h.map (Stmt.scale k u g)) = opOf h := by
  induction h with
  | nil => rfl
  | cons s h ih => cases s <;> simp [Stmt.scale, opOf, ih]

theorem selected_scale (g) (h : List Stmt) : selected (h.map (Stmt.scale k u g)) = selected h := by
  induction h with
  | nil => rfl
  | cons s h ih => cases s <;> simp [Stmt.scale, selected, ih]

theorem polarityOf_scale (g) (h : List Stmt) :
    polarityOf (h.map (Stmt.scale k u g)) = polarityOf h := by
  induction h with
  | nil => rfl
  | cons s h ih => cases s <;> simp [Stmt.scale, polarityOf, ih]

theorem regionOn_scale (g) (h : List Stmt) : regionOn (h.map (Stmt.scale k u g)) = regionOn h := by
  induction h with
  | nil => rfl
  | cons s h ih => cases s <;> simp [Stmt.scale, regionOn, ih]

theorem quadrantOf_scale (g) (h : List Stmt) :
    quadrantOf (h.map (Stmt.scale k u g)) = quadrantOf h := by
  induction h with
  | nil => rfl
  | cons s h ih => cases s <;> simp [Stmt.scale, quadrantOf, ih]

theorem unitsOf_scale (g) {h : List Stmt} (hu : unitsGiven h) :
    unitsOf (h.map (Stmt.scale k u g)) = u := by
  induction h with
  | nil => obtain ⟨m, hm⟩ := hu; cases hm
  | cons s h ih =>
    cases s with
    | mo m => rfl
    | _ =>
      refine ih ?_
      obtain ⟨m, hm⟩ := hu
      exact ⟨m, by simpa using hm⟩

include hg in
theorem actionAt_scale (h : List Stmt) (c : Coord) :
    actionAt (h.map (Stmt.scale k u g)) (c.scale k g) = actionAt h c := by
  have h1 := opOf_scale k u g (.coord c :: h)
  have h2 := bare_scale k hg c
  simp only [List.map_cons, Stmt.scale] at h1
  simp only [Coord.scale] at h2 ⊢
  simp only [actionAt, h2, h1]

include hg in
theorem modeOf_scale (h : List Stmt) : modeOf (h.map (Stmt.scale k u g)) = modeOf h := by
  induction h with
  | nil => rfl
  | cons s h ih =>
    cases s with
    | coord c =>
      have := actionAt_scale k u hg h c
      simp only [Coord.scale] at this
      simp only [List.map_cons, Stmt.scale, modeOf, this, regionOn_scale, ih, hg.after]
    | _ => simp [Stmt.scale, modeOf, ih]

theorem penX_scale (g) (h : List Stmt) : penX (h.map (Stmt.scale k u g)) = k * penX h := by
  induction h with
  | nil => simp [penX]
  | cons s h ih =>
    cases s with
    | coord c => cases hc : c.x <;> simp [Stmt.scale, penX, hc, ih]
    | _ => simpa [Stmt.scale, penX] using ih

theorem penY_scale (g) (h : List Stmt) : penY (h.map (Stmt.scale k u g)) = k * penY h := by
  induction h with
  | nil => simp [penY]
  | cons s h ih =>
    cases s with
    | coord c => cases hc : c.y <;> simp [Stmt.scale, penY, hc, ih]
    | _ => simpa [Stmt.scale, penY] using ih

theorem pen_scale (g) (h : List Stmt) : pen (h.map (Stmt.scale k u g)) = Pt.scale k (pen h) := by
  simp [pen, penX_scale, penY_scale, Pt.scale]

theorem holeOf_scale (m : List ℚ) (n : ℕ) : holeOf (m.map (k * ·)) n = (holeOf m n).scale k := by
  unfold holeOf
  simp only [List.length_map]
  split
  · rename_i h
    simp [Hole.scale, List.getD_eq_getElem?_getD, h]
  · split
    · rename_i h
      simp [Hole.scale, List.getD_eq_getElem?_getD, h]
    · simp [Hole.scale]

theorem modAt_scale (m : List ℚ) (n : ℕ) : modAt (m.map (k * ·)) n = (modAt m n).map (k * ·) := by
  unfold modAt
  rw [List.getElem?_map]
  cases m[n]? <;> rfl

theorem shapeOf_scale (env env' : EvalEnv G) (sg : G → G) (ms ms' : Str → Option (Str × String)) {s : Str}
    (hs : s ∈ [['C'], ['R'], ['O']]) (mods : List (List ℚ)) :
    shapeOf env' ms' s (mods.map (·.map (k * ·))) = (shapeOf env ms s mods).map (Shape.scale k sg) := by
  have hc : (['R'] : Str) ≠ ['C'] := by decide
  have hc2 : (['O'] : Str) ≠ ['C'] := by decide
  have hc3 : (['O'] : Str) ≠ ['R'] := by decide
  simp only [List.mem_cons, List.not_mem_nil, or_false] at hs
  rcases hs with rfl | rfl | rfl
  · unfold shapeOf
    rw [if_pos rfl, if_pos rfl]
    cases mods with
    | nil => rfl
    | cons m _ =>
      simp only [firstMods, List.map_cons, bind, Except.bind, modAt_scale, holeOf_scale]
      cases modAt m 0 <;> rfl
  · unfold shapeOf
    rw [if_neg hc, if_neg hc, if_pos rfl, if_pos rfl]
    cases mods with
    | nil => rfl
    | cons m _ =>
      simp only [firstMods, List.map_cons, bind, Except.bind, modAt_scale, holeOf_scale]
      cases modAt m 0 <;> cases modAt m 1 <;> rfl
  · unfold shapeOf
    rw [if_neg hc2, if_neg hc2, if_neg hc3, if_neg hc3, if_pos rfl, if_pos rfl]
    cases mods with
    | nil => rfl
    | cons m _ =>
      simp only [firstMods, List.map_cons, bind, Except.bind, modAt_scale, holeOf_scale]
      cases modAt m 0 <;> cases modAt m 1 <;> rfl

/-- `env'` makes of scaled statements what `env` makes of the statements, scaled. -/
structure EnvScale (allowed : Str → Prop) (env env' : EvalEnv G) (k : ℚ) (sg : G → G) : Prop where
  center : env'.center = env.center
  shape : ∀ s, allowed s → ∀ (ms ms' : Str → Option (Str × String)),
    (∀ n, (ms' n).map Prod.fst = (ms n).map Prod.fst) → ∀ mods : List (List ℚ),
    shapeOf env' ms' s (mods.map (·.map (k * ·))) = (shapeOf env ms s mods).map (Shape.scale k sg)

theorem EnvScale.plain (env : EvalEnv G) (sg : G → G) :
    EnvScale (· ∈ [['C'], ['R'], ['O']]) env env k sg :=
  ⟨rfl, fun _ hs ms ms' _ mods => shapeOf_scale k env env sg ms ms' hs mods⟩

theorem macroDef_scale (g) (h : List Stmt) (n : Str) :
    (macroDef (h.map (Stmt.scale k u g)) n).map Prod.fst = (macroDef h n).map Prod.fst := by
  induction h with
  | nil => rfl
  | cons s h ih =>
    cases s with
    | am m b l =>
      simp only [List.map_cons, Stmt.scale, macroDef]
      split
      · rfl
      · exact ih
    | _ => simpa [Stmt.scale, macroDef] using ih

section
variable {allowed : Str → Prop} {env env' : EvalEnv G} {sg : G → G} (hE : EnvScale allowed env env' k sg)
include hE

theorem apertureDef_scale (g) {h : List Stmt} (ho : AllScaleFor allowed env k h)
    (n : ℕ) : apertureDef env' (h.map (Stmt.scale k u g)) n =
      (apertureDef env h n).map (Aperture.scale k u sg) := by
  induction h with
  | nil => rfl
  | cons s h ih =>
    have ih' := ih ho.1
    cases s with
    | ad d s m =>
      obtain ⟨hu, hs⟩ := ho.2
      simp only [List.map_cons, Stmt.scale, apertureDef,
        hE.shape _ hs (macroDef h) (macroDef (h.map (Stmt.scale k u g))) (macroDef_scale k u g h),
        unitsOf_scale k u g hu, ih']
      split
      · cases shapeOf env (macroDef h) s m <;> rfl
      · rfl
    | _ => simpa [Stmt.scale, apertureDef] using ih'

theorem currentAperture_scale (g) {h : List Stmt}
    (ho : AllScaleFor allowed env k h) : currentAperture env' (h.map (Stmt.scale k u g)) =
      (currentAperture env h).map (Aperture.scale k u sg) := by
  rw [currentAperture, selected_scale, apertureDef_scale k u hE g ho, currentAperture]

include hg in
theorem segment_scale {h : List Stmt} {c : Coord}
    (hd : actionAt h c = some .draw) (ho : ScaleFor allowed env k h (.coord c)) (ap : Aperture G) :
    segment env' (h.map (Stmt.scale k u g)) (c.scale k g) (ap.scale k u sg) =
      (segment env h c ap).scale k u sg := by
  obtain ⟨hu, hcen⟩ := ho
  have hu' := hu (by rw [hd]; simp)
  have h1 := pen_scale k u g h
  have h2 := pen_scale k u g (.coord c :: h)
  simp only [List.map_cons, Stmt.scale] at h2
  have hi : ((c.scale k g).i.getD 0, (c.scale k g).j.getD 0) = Pt.scale k (c.i.getD 0, c.j.getD 0) := by
    simp only [Coord.scale, Pt.scale]
    cases c.i <;> cases c.j <;> simp
  have hf : (c.scale k g).function = g c.function := rfl
  have h2' : pen (.coord (c.scale k g) :: h.map (Stmt.scale k u g)) = Pt.scale k (pen (.coord c :: h)) := h2
  unfold segment
  dsimp only
  rw [hi, h1, h2', hf, hg.after, modeOf_scale k u hg, polarityOf_scale, unitsOf_scale k u g hu',
    quadrantOf_scale]
  cases hl : ((modeOf h).after c.function).linear with
  | true => simp [Edge.scale]
  | false =>
    by_cases hq : quadrantOf h = "single-quadrant"
    · simp [Edge.scale, hq, hE.center, hcen hd hl hq]
    · have hi1 := (Prod.mk.inj hi).1
      have hi2 := (Prod.mk.inj hi).2
      simp [Edge.scale, hq, Pt.scale, mul_add, hi1, hi2]

include hg in
theorem contour_scale {h : List Stmt} (ho : AllScaleFor allowed env k h) :
    contour env' (h.map (Stmt.scale k u g)) = (contour env h).map (Edge.scale k u sg) := by
  induction h with
  | nil => rfl
  | cons s h ih =>
    have ih' := ih ho.1
    cases s with
    | coord c =>
      have ha := actionAt_scale k u hg h c
      have e : Stmt.scale k u g (.coord c) = .coord (c.scale k g) := rfl
      simp only [List.map_cons, e, contour, regionOn_scale, ha, ih',
        currentAperture_scale k u hE g ho.1]
      split
      · split
        · rename_i hd
          have hap : ((currentAperture env h).map (Aperture.scale k u sg)).getD noAperture =
              ((currentAperture env h).getD noAperture).scale k u sg := by
            cases currentAperture env h with
            | none => simp [noAperture, Aperture.scale, Shape.scale, Hole.scale]
            | some a => rfl
          rw [hap, segment_scale k u hg hE hd ho.2]; simp
        · rfl
        · rfl
      · rfl
    | region m =>
      simp only [List.map_cons, Stmt.scale, contour, regionOn_scale, ih']
      split <;> rfl
    | _ => simpa [Stmt.scale, contour] using ih'

include hg in
theorem added_scale {h : List Stmt} {s : Stmt}
    (ho : AllScaleFor allowed env k (s :: h)) :
    added env' (h.map (Stmt.scale k u g)) (s.scale k u g) =
      (added env h s).map (Prim.scale k u sg) := by
  cases s with
  | coord c =>
    have ha := actionAt_scale k u hg h c
    have e : Stmt.scale k u g (.coord c) = .coord (c.scale k g) := rfl
    have hu := ho.2.1
    simp only [e, added, ha, regionOn_scale, currentAperture_scale k u hE g ho.1,
      contour_scale k u hg hE ho.1, List.length_map, polarityOf_scale]
    split
    · rename_i hd _
      rw [Option.toList_map, List.map_map, List.map_map]
      congr 1
      funext ap
      simp [Prim.scale, segment_scale k u hg hE hd ho.2]
    · rename_i hd _
      rw [unitsOf_scale k u g (hu (by rw [hd]; simp))]
      split <;> rfl
    · rename_i hd
      have := pen_scale k u g (.coord c :: h)
      rw [List.map_cons, e] at this
      rw [unitsOf_scale k u g (hu (by rw [hd]; simp)), this, Option.toList_map, List.map_map, List.map_map]
      rfl
    · rfl
  | region m =>
    simp only [Stmt.scale, added, regionOn_scale, contour_scale k u hg hE ho.1,
      polarityOf_scale, unitsOf_scale k u g ho.2, ne_eq, List.map_eq_nil_iff]
    split <;> rfl
  | _ => rfl

include hg in
theorem picture_scale {h : List Stmt} (ho : AllScaleFor allowed env k h) :
    picture env' (h.map (Stmt.scale k u g)) = (picture env h).map (Prim.scale k u sg) := by
  induction h with
  | nil => rfl
  | cons s h ih =>
    simp only [List.map_cons, picture, List.map_append, ih ho.1, added_scale k u hg hE ho]

include hg in
theorem allDefined_scale {h : List Stmt} (ho : AllScaleFor allowed env k h) :
    AllDefined env' (h.map (Stmt.scale k u g)) ↔ AllDefined env h := by
  induction h with
  | nil => rfl
  | cons s h ih =>
    simp only [List.map_cons, AllDefined, ih ho.1]
    refine and_congr_right fun _ => ?_
    cases s with
    | coord c =>
      have e : Stmt.scale k u g (.coord c) = .coord (c.scale k g) := rfl
      simp only [e, Defined, actionAt_scale k u hg h c, regionOn_scale,
        currentAperture_scale k u hE g ho.1, Option.isSome_map]
    | ad d s m =>
      simp only [Stmt.scale, Defined,
        hE.shape _ ho.2.2 (macroDef h) (macroDef (h.map (Stmt.scale k u g))) (macroDef_scale k u g h)]
      cases shapeOf env (macroDef h) s m <;> simp [Except.map]
    | _ => rfl

include hg in
theorem evalAll_scale (stmts : List Stmt)
    (hm : ∀ s ∈ stmts, s.ModeOK) (ho : AllScaleFor allowed env k stmts.reverse) {st : EvalState G}
    {l : List Stmt} (h : evalAll env initState stmts = .ok (st, l)) :
    ∃ st' l', evalAll env' initState (stmts.map (Stmt.scale k u g)) = .ok (st', l') ∧
      st'.primitives = st.primitives.map (Prim.scale k u sg) := by
  have hm' : ∀ s ∈ stmts.map (Stmt.scale k u g), s.ModeOK := by
    intro s hs
    obtain ⟨t, ht, rfl⟩ := List.mem_map.1 hs
    have := hm t ht
    cases t <;> exact this
  have e : (stmts.map (Stmt.scale k u g)).reverse = stmts.reverse.map (Stmt.scale k u g) := by
    rw [List.map_reverse]
  have hd := (C14_total env stmts hm).1 ⟨_, h⟩
  obtain ⟨⟨st', l'⟩, h'⟩ := (C14_total env' _ hm').2 (by
    rw [e]; exact (allDefined_scale k u hg hE ho).2 hd)
  refine ⟨st', l', h', ?_⟩
  rw [(C14_picture env' _ hm' h').1, e, picture_scale k u hg hE ho, (C14_picture env _ hm h).1]

end

end

/-! ## C21 -/

/-- Interpreting the statements after `to_metric` gives the same primitives with every length
multiplied by 25.4 and the units metric - for files in inch whose apertures are circles, rectangles and
obrounds and that set their units before they define or draw anything.  Missing: polygons and macros,
whose modifiers are all scaled (`C21_polygon_violated`, `C21_macro_violated`), and files without a units
statement, which keep their default units (`C21_no_units_violated`). -/
theorem C21_to_metric_partial (env : EvalEnv G) (sg : G → G) (p : Program) (hu : p.units = "inch")
    (hm : ∀ s ∈ p.statements, s.ModeOK) (ho : AllScaleOK env (254 / 10) p.statements.reverse)
    {st : EvalState G} {l : List Stmt} (h : evalAll env initState p.statements = .ok (st, l)) :
    ∃ st' l', evalAll env initState p.toMetric.statements = .ok (st', l') ∧
      st'.primitives = st.primitives.map (Prim.scale (254 / 10) "metric" sg) := by
  have e : p.toMetric.statements = p.statements.map (Stmt.scale mmPerInch "metric" metricFunction) := by
    simp [Program.toMetric, hu, inchToMetric_eq]
  rw [e]
  exact evalAll_scale _ _ metricFunction_ok (EnvScale.plain _ env sg) _ hm ho h

/-- The same for `to_inch`, where lengths are divided by 25.4. -/
theorem C21_to_inch_partial (env : EvalEnv G) (sg : G → G) (p : Program) (hu : p.units = "metric")
    (hm : ∀ s ∈ p.statements, s.ModeOK) (ho : AllScaleOK env (254 / 10)⁻¹ p.statements.reverse)
    {st : EvalState G} {l : List Stmt} (h : evalAll env initState p.statements = .ok (st, l)) :
    ∃ st' l', evalAll env initState p.toInch.statements = .ok (st', l') ∧
      st'.primitives = st.primitives.map (Prim.scale (254 / 10)⁻¹ "inch" sg) := by
  have e : p.toInch.statements = p.statements.map (Stmt.scale mmPerInch⁻¹ "inch" inchFunction) := by
    simp [Program.toInch, hu, metricToInch_eq]
  rw [e]
  exact evalAll_scale _ _ inchFunction_ok (EnvScale.plain _ env sg) _ hm ho h

/-- A file with units, an aperture with a hole, a line and a flash. -/
def sampleInch : Program := ⟨[.mo "inch", .ad 10 ['R'] [[1 / 2, 1, 1 / 4]], .aperture 10 false,
  .coord { x := some 1, y := some 1, op := some ['D', '0', '2'] },
  .coord { x := some 3, op := some ['D', '0', '1'] }, .coord { op := some ['D', '0', '3'] }], "inch"⟩

example : AllScaleOK plainEnv (254 / 10) sampleInch.statements.reverse ∧
    ((evalAll plainEnv initState sampleInch.toMetric.statements).toOption.map
      fun r => r.1.primitives) = some
      [.edge (.line (127 / 5, 127 / 5) (381 / 5, 127 / 5)
        ⟨.rect (127 / 10) (127 / 5) { diameter := 127 / 20 }, some "metric"⟩ "dark" "metric"),
       .flash (.rect (127 / 10) (127 / 5) { diameter := 127 / 20 }) (381 / 5, 127 / 5) "dark"
        "metric"] := by
  constructor
  · simp only [sampleInch, List.reverse_cons, List.reverse_nil, List.nil_append, List.cons_append,
      AllScaleFor, ScaleFor, unitsGiven, true_and, and_true, List.mem_cons]
    refine ⟨⟨⟨⟨⟨_, .inl rfl⟩, by simp⟩, fun _ => ⟨"inch", by simp⟩, fun h => absurd h (by decide +kernel)⟩,
      fun _ => ⟨"inch", by simp⟩, fun _ h => absurd h (by decide +kernel)⟩,
      fun _ => ⟨"inch", by simp⟩, fun h => absurd h (by decide +kernel)⟩
  · decide +kernel

/-- A hexagon becomes a polygon with 152 sides, rotated by 762 instead of 30 degrees. -/
theorem C21_polygon_violated :
    let p : Program := ⟨[.mo "inch", .ad 10 ['P'] [[1, 6, 30]], .aperture 10 false,
      .coord { x := some 0, y := some 0, op := some ['D', '0', '3'] }], "inch"⟩
    ((evalAll plainEnv initState p.statements).toOption.map fun r => r.1.primitives) =
      some [.flash (.polygon 6 (1 / 2) 30 {}) (0, 0) "dark" "inch"] ∧
    ((evalAll plainEnv initState p.toMetric.statements).toOption.map fun r => r.1.primitives) =
      some [.flash (.polygon 152 (127 / 10) 762 {}) (0, 0) "dark" "metric"] := by
  constructor <;> decide +kernel

/-- Macro apertures as the lists of values the macro text evaluates to. -/
def macroEnv : EvalEnv (List Macro.Out) := ⟨fun body _ mods => do
  let is ← Macro.readMacro body
  Macro.evalMacro is mods, fun _ _ _ _ => none⟩

/-- A macro with a circle of diameter 0.5: the text, and so the diameter, is the same after conversion
to millimetres. -/
theorem C21_macro_violated :
    let p : Program := ⟨[.mo "inch", .am "DOT".toList "1,1,0.5,0,0*".toList [],
      .ad 10 "DOT".toList [[]], .aperture 10 false,
      .coord { x := some 0, y := some 0, op := some ['D', '0', '3'] }], "inch"⟩
    ∃ g, ((evalAll macroEnv initState p.statements).toOption.map fun r => r.1.primitives) =
      some [.flash (.group g) (0, 0) "dark" "inch"] ∧
    ((evalAll macroEnv initState p.toMetric.statements).toOption.map fun r => r.1.primitives) =
      some [.flash (.group g) (0, 0) "dark" "metric"] := by
  refine ⟨[(1, [.num 1, .num (1 / 2), .num 0, .num 0])], ?_, ?_⟩ <;> decide +kernel

/-- A file without a units statement is in inch by default; after conversion it still has no units
statement, so its millimetres are read as inches. -/
theorem C21_no_units_violated :
    let p : Program := ⟨[.ad 10 ['C'] [[1]], .aperture 10 false,
      .coord { x := some 1, y := some 0, op := some ['D', '0', '3'] }], "inch"⟩
    ((evalAll plainEnv initState p.toMetric.statements).toOption.map fun r => r.1.primitives) =
      some [.flash (.circle (127 / 5) {}) (127 / 5, 0) "dark" "inch"] := by
  decide +kernel

/-! ## C09 for statements -/

/-- The unit statements say `u`, and no coordinate statement has the code of the other unit (none that
is read from text has either code). -/
def Program.Consistent (p : Program) : Prop :=
  (p.units = "inch" ∧ (∀ m, .mo m ∈ p.statements → m = "inch") ∧
    ∀ c, .coord c ∈ p.statements → c.function ≠ some ['G', '7', '1']) ∨
  (p.units = "metric" ∧ (∀ m, .mo m ∈ p.statements → m = "metric") ∧
    ∀ c, .coord c ∈ p.statements → c.function ≠ some ['G', '7', '0'])

theorem inch_metric (v : ℚ) : inch (metric v) = v := by
  simp [inch, metric, mmPerInch]

theorem metric_inch (v : ℚ) : metric (inch v) = v := by
  simp [inch, metric, mmPerInch]

theorem map_inch_metric (o : Option ℚ) : (o.map metric).map inch = o := by
  cases o <;> simp [inch_metric]

theorem map_metric_inch (o : Option ℚ) : (o.map inch).map metric = o := by
  cases o <;> simp [metric_inch]

theorem metricToInch_inchToMetric {s : Stmt} (hm : ∀ m, s = .mo m → m = "inch")
    (hf : ∀ c, s = .coord c → c.function ≠ some ['G', '7', '1']) :
    s.inchToMetric.metricToInch = s := by
  cases s with
  | mo m => rw [hm m rfl]; rfl
  | coord c =>
    obtain ⟨f, x, y, i, j, o⟩ := c
    have := hf _ rfl
    simp only [Stmt.inchToMetric, Stmt.metricToInch, map_inch_metric]
    congr 2
    simp only at this
    unfold metricFunction inchFunction
    split
    · simp_all
    · simp_all
  | ad d sh mods =>
    simp only [Stmt.inchToMetric, Stmt.metricToInch, List.map_map, Function.comp_def, inch_metric,
      List.map_id']
  | of_ a b => simp [Stmt.inchToMetric, Stmt.metricToInch, inch_metric]
  | sf a b => simp [Stmt.inchToMetric, Stmt.metricToInch, inch_metric]
  | _ => rfl

theorem inchToMetric_metricToInch {s : Stmt} (hm : ∀ m, s = .mo m → m = "metric")
    (hf : ∀ c, s = .coord c → c.function ≠ some ['G', '7', '0']) :
    s.metricToInch.inchToMetric = s := by
  cases s with
  | mo m => rw [hm m rfl]; rfl
  | coord c =>
    obtain ⟨f, x, y, i, j, o⟩ := c
    have := hf _ rfl
    simp only [Stmt.inchToMetric, Stmt.metricToInch, map_metric_inch]
    congr 2
    simp only at this
    unfold metricFunction inchFunction
    split
    · simp_all
    · simp_all
  | ad d sh mods =>
    simp only [Stmt.inchToMetric, Stmt.metricToInch, List.map_map, Function.comp_def, metric_inch,
      List.map_id']
  | of_ a b => simp [Stmt.inchToMetric, Stmt.metricToInch, metric_inch]
  | sf a b => simp [Stmt.inchToMetric, Stmt.metricToInch, metric_inch]
  | _ => rfl

/-- A call of one of the two conversions. -/
inductive Conv
  | toInch | toMetric
  deriving DecidableEq

def Conv.apply : Conv → Program → Program
  | .toInch, p => p.toInch
  | .toMetric, p => p.toMetric

theorem toInch_of_inch {p : Program} (h : p.units = "inch") : p.toInch = p := by
  simp [Program.toInch, h]

theorem toMetric_of_metric {p : Program} (h : p.units = "metric") : p.toMetric = p := by
  simp [Program.toMetric, h]

theorem toInch_toMetric {p : Program} (hc : p.Consistent) (h : p.units = "inch") :
    p.toMetric.toInch = p := by
  rcases hc with ⟨-, h1, h2⟩ | ⟨h', -, -⟩
  · obtain ⟨l, u⟩ := p
    simp only at h
    subst h
    simp only [Program.toMetric, Program.toInch, ne_eq, String.reduceEq, not_false_eq_true, if_true,
      List.map_map, Program.mk.injEq, and_true]
    rw [List.map_congr_left (g := id), List.map_id]
    intro s hs
    exact metricToInch_inchToMetric (fun m e => h1 m (e ▸ hs)) (fun c e => h2 c (e ▸ hs))
  · rw [h] at h'; exact absurd h' (by decide)

theorem toMetric_toInch {p : Program} (hc : p.Consistent) (h : p.units = "metric") :
    p.toInch.toMetric = p := by
  rcases hc with ⟨h', -, -⟩ | ⟨-, h1, h2⟩
  · rw [h] at h'; exact absurd h' (by decide)
  · obtain ⟨l, u⟩ := p
    simp only at h
    subst h
    simp only [Program.toMetric, Program.toInch, ne_eq, String.reduceEq, not_false_eq_true, if_true,
      List.map_map, Program.mk.injEq, and_true]
    rw [List.map_congr_left (g := id), List.map_id]
    intro s hs
    exact inchToMetric_metricToInch (fun m e => h1 m (e ▸ hs)) (fun c e => h2 c (e ▸ hs))

theorem toMetric_units (p : Program) : p.toMetric.units = "metric" := by
  unfold Program.toMetric; split
  · rfl
  · rename_i h; simpa using h

theorem toInch_units (p : Program) : p.toInch.units = "inch" := by
  unfold Program.toInch; split
  · rfl
  · rename_i h; simpa using h

/-- For the statements of a file, any sequence of conversions has the effect of its last one; so
converting twice is converting once, and converting there and back restores the statements. -/
theorem C09_statements {p : Program} (hc : p.Consistent) (calls : List Conv) (last : Conv) :
    (calls ++ [last]).foldl (fun q c => c.apply q) p = last.apply p ∧
      (last = .toInch → p.units = "inch" → last.apply p = p) ∧
      (last = .toMetric → p.units = "metric" → last.apply p = p) := by
  refine ⟨?_, fun h1 h2 => by subst h1; exact toInch_of_inch h2,
    fun h1 h2 => by subst h1; exact toMetric_of_metric h2⟩
  have key : ∀ l : List Conv, l.foldl (fun q c => c.apply q) p = p ∨
      l.foldl (fun q c => c.apply q) p = p.toMetric ∨ l.foldl (fun q c => c.apply q) p = p.toInch := by
    intro l
    induction l using List.reverseRecOn with
    | nil => exact .inl rfl
    | append_singleton l c ih =>
      rw [List.foldl_append]
      generalize List.foldl (fun q c => Conv.apply c q) p l = q at ih ⊢
      simp only [List.foldl_cons, List.foldl_nil]
      cases c with
      | toInch =>
        simp only [Conv.apply]
        rcases ih with ih | ih | ih <;> rw [ih]
        · right; right; rfl
        · rcases hc with hc' | hc'
          · left; exact toInch_toMetric (.inl hc') hc'.1
          · right; right; rw [toMetric_of_metric hc'.1]
        · right; right; exact toInch_of_inch (toInch_units p)
      | toMetric =>
        simp only [Conv.apply]
        rcases ih with ih | ih | ih <;> rw [ih]
        · right; left; rfl
        · right; left; exact toMetric_of_metric (toMetric_units p)
        · rcases hc with hc' | hc'
          · right; left; rw [toInch_of_inch hc'.1]
          · left; exact toMetric_toInch (.inr hc') hc'.1
  rw [List.foldl_append]
  have key' := key calls
  generalize List.foldl (fun q c => Conv.apply c q) p calls = q at key' ⊢
  simp only [List.foldl_cons, List.foldl_nil]
  have hu : p.units = "inch" ∨ p.units = "metric" := hc.imp (·.1) (·.1)
  cases last with
  | toInch =>
    simp only [Conv.apply]
    rcases key' with ih | ih | ih <;> rw [ih]
    · rcases hu with hu | hu
      · rw [toInch_toMetric hc hu, toInch_of_inch hu]
      · rw [toMetric_of_metric hu]
    · exact toInch_of_inch (toInch_units p)
  | toMetric =>
    simp only [Conv.apply]
    rcases key' with ih | ih | ih <;> rw [ih]
    · exact toMetric_of_metric (toMetric_units p)
    · rcases hu with hu | hu
      · rw [toInch_of_inch hu]
      · rw [toMetric_toInch hc hu, toMetric_of_metric hu]

example : sampleInch.Consistent ∧ sampleInch.toMetric ≠ sampleInch := by
  constructor
  · refine .inl ⟨rfl, ?_, ?_⟩
    · intro m hm; simpa [sampleInch] using hm
    · intro c hc h; simp [sampleInch] at hc
      rcases hc with rfl | rfl | rfl <;> simp at h
  · decide +kernel

end Verif.Gerber
