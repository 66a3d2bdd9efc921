import Verif.Spec.GerberEval
import Verif.Lemmas.Parsed

/-! # C14, C15, C16, C18: the interpreter draws what the statements say -/

namespace Verif.Gerber
open Verif.Py Verif.Cam

variable {G : Type}

theorem evBind {α β : Type} {x : PyR α} {f : α → PyR β} {b : β} (h : (x >>= f) = .ok b) :
    ∃ a, x = .ok a ∧ f a = .ok b := by
  cases x with
  | error e => cases h
  | ok a => exact ⟨a, rfl, h⟩

/-! ## Codes -/

theorem onlyFunction_iff (c : Coord) : c.onlyFunction = true ↔ c.Bare := by
  obtain ⟨f, x, y, i, j, o⟩ := c
  simp only [Coord.onlyFunction, Coord.Bare, Bool.and_eq_true, Option.isSome_iff_exists,
    Option.isNone_iff_eq_none, Coord.mk.injEq]
  constructor
  · rintro ⟨⟨⟨⟨⟨⟨f, rfl⟩, rfl⟩, rfl⟩, rfl⟩, rfl⟩, rfl⟩
    exact ⟨f, rfl, rfl, rfl, rfl, rfl, rfl⟩
  · rintro ⟨f, rfl, rfl, rfl, rfl, rfl, rfl⟩
    exact ⟨⟨⟨⟨⟨⟨f, rfl⟩, rfl⟩, rfl⟩, rfl⟩, rfl⟩, rfl⟩

theorem actionOf_cases (o : Str) :
    (actionOf o = some .draw ∧ isD1 o = true) ∨
    (actionOf o = some .move ∧ isD1 o = false ∧ isD2 o = true) ∨
    (actionOf o = some .flash ∧ isD1 o = false ∧ isD2 o = false ∧ isD3 o = true) ∨
    (actionOf o = none ∧ isD1 o = false ∧ isD2 o = false ∧ isD3 o = false) := by
  unfold actionOf isD1 isD2 isD3
  by_cases h1 : o ∈ [['D', '0', '1'], ['D', '1']]
  · left
    rw [if_pos h1]
    simpa using h1
  rw [if_neg h1]
  have h1' : (decide (o = ['D', '0', '1']) || decide (o = ['D', '1'])) = false := by
    simpa using h1
  rw [h1']
  by_cases h2 : o ∈ [['D', '0', '2'], ['D', '2']]
  · right; left
    rw [if_pos h2]
    simpa using h2
  rw [if_neg h2]
  have h2' : (decide (o = ['D', '0', '2']) || decide (o = ['D', '2'])) = false := by
    simpa using h2
  rw [h2']
  by_cases h3 : o ∈ [['D', '0', '3'], ['D', '3']]
  · right; right; left
    rw [if_pos h3]
    simpa using h3
  · right; right; right
    rw [if_neg h3]
    simpa using h3

/-! ## The state agrees with the history -/

/-- Direction as the interpreter names it. -/
def dirName (m : Mode) : String := if m.clockwise then "clockwise" else "counterclockwise"

/-- Interpolation as the interpreter names it. -/
def interpName (m : Mode) : String := if m.linear then "linear" else "arc"

/-- The state agrees with the history. -/
structure Agrees (env : EvalEnv G) (st : EvalState G) (h : List Stmt) : Prop where
  x : st.x = penX h
  y : st.y = penY h
  op : st.op = opOf h
  aperture : st.aperture = selected h
  interp : st.interpolation = interpName (modeOf h)
  dir : st.direction = dirName (modeOf h)
  pol : st.levelPolarity = polarityOf h
  units : st.settings.units = unitsOf h
  region : st.regionMode = if regionOn h then "on" else "off"
  quad : st.quadrantMode = quadrantOf h
  macros : st.macros = macroDef h
  apertures : st.apertures = apertureDef env h
  cur : st.currentRegion.getD [] = contour env h
  prims : st.primitives = picture env h

theorem agrees_init (env : EvalEnv G) : Agrees env initState [] := by
  constructor <;> rfl

theorem setFunction_eq (st : EvalState G) (f : Option Str) (m : Mode)
    (h1 : st.interpolation = interpName m) (h2 : st.direction = dirName m) :
    setFunction st f = { st with
      interpolation := interpName (m.after f), direction := dirName (m.after f) } := by
  unfold setFunction Mode.after isG1 isG2 isG3
  by_cases g1 : f ∈ [some ['G', '0', '1'], some ['G', '1']]
  · rw [if_pos g1, if_pos (by simpa using g1)]
    obtain ⟨l, c⟩ := m
    simp [interpName, h2, dirName]
  rw [if_neg g1, if_neg (by simpa using g1)]
  by_cases g2 : f ∈ [some ['G', '0', '2'], some ['G', '2']]
  · rw [if_pos g2, if_pos (by simpa using g2)]
    simp [interpName, dirName]
  rw [if_neg g2, if_neg (by simpa using g2)]
  by_cases g3 : f ∈ [some ['G', '0', '3'], some ['G', '3']]
  · rw [if_pos g3, if_pos (by simpa using g3)]
    simp [interpName, dirName]
  rw [if_neg g3, if_neg (by simpa using g3), ← h1, ← h2]

/-- The state after the interpolation code and the operation code of a coordinate statement. -/
def prepared (st : EvalState G) (h : List Stmt) (c : Coord) : EvalState G :=
  { st with
    interpolation := interpName ((modeOf h).after c.function)
    direction := dirName ((modeOf h).after c.function)
    op := opOf (.coord c :: h) }

theorem evalCoord_eq (env : EvalEnv G) {st : EvalState G} {h : List Stmt} (ha : Agrees env st h)
    (c : Coord) (hb : ¬ c.Bare) : evalCoord env st c = (do
      let st' ← evalOp env (prepared st h c) { c with op := some (opOf (.coord c :: h)) }
        (penX (.coord c :: h)) (penY (.coord c :: h))
      .ok ({ st' with x := penX (.coord c :: h), y := penY (.coord c :: h) },
        { c with op := some (opOf (.coord c :: h)) })) := by
  have hof : c.onlyFunction = false := by
    rw [Bool.eq_false_iff]; exact fun h => hb ((onlyFunction_iff c).1 h)
  unfold evalCoord
  dsimp only
  rw [setFunction_eq st c.function (modeOf h) ha.interp ha.dir, hof, if_neg (by simp)]
  rw [show penX (.coord c :: h) = c.x.getD st.x by rw [ha.x]; rfl,
    show penY (.coord c :: h) = c.y.getD st.y by rw [ha.y]; rfl]
  cases ho : c.op with
  | none =>
    have e : opOf (.coord c :: h) = opOf h := by simp [opOf, ho]
    simp only [prepared, e, ha.op]
  | some o =>
    cases o with
    | nil =>
      have e : opOf (.coord c :: h) = opOf h := by simp [opOf, ho]
      simp only [prepared, e, ha.op]
    | cons ch o =>
      have e : opOf (.coord c :: h) = ch :: o := by simp [opOf, ho]
      have ec : { c with op := some (ch :: o) } = c := by rw [← ho]
      simp only [prepared, e, ec]

theorem edgeTo_eq (env : EvalEnv G) {st : EvalState G} {h : List Stmt} (ha : Agrees env st h)
    (c : Coord) (o : Option Str) (ap : Aperture G) :
    edgeTo env (prepared st h c) { c with op := o } (penX (.coord c :: h)) (penY (.coord c :: h)) ap =
      segment env h c ap := by
  unfold edgeTo segment
  simp only [prepared, findCenter, ha.x, ha.y, ha.pol, ha.units, ha.quad, interpName]
  cases ((modeOf h).after c.function).linear with
  | false => rfl
  | true => rfl

theorem region_on {env : EvalEnv G} {st : EvalState G} {h : List Stmt} (ha : Agrees env st h) :
    (st.regionMode = "on" ↔ regionOn h = true) ∧ (st.regionMode = "off" ↔ regionOn h = false) := by
  rw [ha.region]
  cases regionOn h <;> decide

/-- What evaluating a coordinate statement does. -/
theorem step_coord (env : EvalEnv G) {st : EvalState G} {h : List Stmt} (ha : Agrees env st h)
    (c : Coord) :
    (Defined env h (.coord c) → ∃ st', evaluate env st (.coord c) = .ok (st', explicit h (.coord c)) ∧
      Agrees env st' (.coord c :: h)) ∧
    (¬ Defined env h (.coord c) → evaluate env st (.coord c) = .error .keyError) := by
  by_cases hb : c.Bare
  · have hact : actionAt h c = none := by simp [actionAt, hb]
    constructor
    · intro _
      refine ⟨setFunction st c.function, ?_, ?_⟩
      · simp only [evaluate, evalCoord, (onlyFunction_iff c).2 hb, if_true, explicit, if_pos hb]
        rfl
      · obtain ⟨f, rfl⟩ := hb
        rw [setFunction_eq st _ (modeOf h) ha.interp ha.dir]
        exact ⟨by simp [penX, ha.x], by simp [penY, ha.y], by simp [opOf, ha.op],
          ha.aperture, by simp [modeOf, hact], by simp [modeOf, hact], ha.pol, ha.units,
          ha.region, ha.quad, ha.macros, ha.apertures, by simp [contour, hact, ha.cur],
          by simp [picture, added, hact, ha.prims]⟩
    · intro hnd
      exfalso; apply hnd
      simp [Defined, hact]
  · have hact : actionAt h c = actionOf (opOf (.coord c :: h)) := by simp [actionAt, hb]
    have hexp : explicit h (.coord c) = .coord { c with op := some (opOf (.coord c :: h)) } := by
      simp [explicit, hb]
    have hev : evaluate env st (.coord c) = (do
        let st' ← evalOp env (prepared st h c) { c with op := some (opOf (.coord c :: h)) }
          (penX (.coord c :: h)) (penY (.coord c :: h))
        .ok ({ st' with x := penX (.coord c :: h), y := penY (.coord c :: h) },
          explicit h (.coord c))) := by
      show (do let (st, c) ← evalCoord env st c; .ok (st, Stmt.coord c)) = _
      rw [evalCoord_eq env ha c hb, hexp]
      cases evalOp env (prepared st h c) { c with op := some (opOf (.coord c :: h)) }
          (penX (.coord c :: h)) (penY (.coord c :: h)) <;> rfl
    have hap : (prepared st h c).apertures (prepared st h c).aperture = currentAperture env h := by
      simp only [prepared, ha.apertures, ha.aperture]; rfl
    obtain ⟨hon, hoff⟩ := region_on ha
    rw [hev]
    rcases actionOf_cases (opOf (.coord c :: h)) with ⟨h1, h2⟩ | ⟨h1, h2, h3⟩ | ⟨h1, h2, h3, h4⟩ |
      ⟨h1, h2, h3, h4⟩
    · -- draw
      cases hr : regionOn h with
      | false =>
        have hr' : (prepared st h c).regionMode = "off" := hoff.2 hr
        have hop : evalOp env (prepared st h c) { c with op := some (opOf (.coord c :: h)) }
            (penX (.coord c :: h)) (penY (.coord c :: h)) =
            match currentAperture env h with
            | none => .error .keyError
            | some ap => .ok { prepared st h c with
                primitives := st.primitives ++ [.edge (segment env h c ap)] } := by
          unfold evalOp
          rw [show (prepared st h c).op = opOf (.coord c :: h) from rfl, h2, if_pos rfl, if_pos hr',
            hap]
          cases currentAperture env h with
          | none => rfl
          | some ap => simp only [edgeTo_eq env ha]; rfl
        rw [hop]
        cases hca : currentAperture env h with
        | none =>
          constructor
          · intro hd
            simp [Defined, hact, h1, hr, hca] at hd
          · intro _; rfl
        | some ap =>
          constructor
          · intro _
            refine ⟨_, rfl, ?_⟩
            exact ⟨rfl, rfl, rfl, ha.aperture, by simp [modeOf, hr, prepared],
              by simp [modeOf, hr, prepared], ha.pol, ha.units, ha.region, ha.quad, ha.macros,
              ha.apertures, by simp [contour, hr, ← ha.cur, prepared],
              by simp [picture, added, hact, h1, hr, hca, ha.prims]⟩
          · intro hnd
            exfalso; apply hnd
            simp [Defined, hact, h1, hr, hca]
      | true =>
        have hr' : ¬ (prepared st h c).regionMode = "off" := by
          rw [show (prepared st h c).regionMode = st.regionMode from rfl, hoff, hr]; simp
        constructor
        · intro _
          unfold evalOp
          rw [show (prepared st h c).op = opOf (.coord c :: h) from rfl, h2, if_pos rfl, if_neg hr',
            hap]
          simp only [edgeTo_eq env ha]
          refine ⟨_, rfl, ?_⟩
          exact ⟨rfl, rfl, rfl, ha.aperture, by simp [modeOf, hr, hact, h1, interpName],
              by simp [modeOf, hr, hact, h1, prepared, dirName], ha.pol, ha.units, ha.region, ha.quad,
              ha.macros, ha.apertures, by
                simp only [contour, hr, hact, h1, ← ha.cur, prepared, if_true, Option.getD_some]
                cases st.currentRegion <;> rfl,
              by simp [picture, added, hact, h1, hr, ha.prims, prepared]⟩
        · intro hnd
          exfalso; apply hnd
          simp [Defined, hact, h1, hr]
    · -- move
      refine ⟨fun _ => ?_, fun hnd => ?_⟩
      · unfold evalOp
        rw [show (prepared st h c).op = opOf (.coord c :: h) from rfl, h2, if_neg (by simp), h3,
          if_pos rfl]
        cases hr : regionOn h with
        | false =>
          have hr' : ¬ (prepared st h c).regionMode = "on" := by
            rw [show (prepared st h c).regionMode = st.regionMode from rfl, hon, hr]; simp
          rw [if_neg hr']
          refine ⟨_, rfl, ?_⟩
          exact ⟨rfl, rfl, rfl, ha.aperture, by simp [modeOf, hr, prepared],
              by simp [modeOf, hr, prepared], ha.pol, ha.units, ha.region, ha.quad, ha.macros,
              ha.apertures, by simp [contour, hr, ← ha.cur, prepared],
              by simp [picture, added, hact, h1, hr, ha.prims, prepared]⟩
        | true =>
          have hr' : (prepared st h c).regionMode = "on" := hon.2 hr
          rw [if_pos hr']
          refine ⟨_, rfl, ?_⟩
          refine ⟨rfl, rfl, rfl, ha.aperture, by simp [modeOf, hact, h1, prepared],
              by simp [modeOf, hact, h1, prepared], ha.pol, ha.units, ha.region, ha.quad, ha.macros,
              ha.apertures, by simp [contour, hr, hact, h1], ?_⟩
          simp only [picture, added, hact, h1, hr, ← ha.prims, ← ha.cur, ← ha.pol, ← ha.units, prepared]
          cases st.currentRegion with
          | none => simp
          | some l =>
            simp only [Option.getD_some]
            by_cases hl : l.length > 1
            · rw [if_pos hl, if_pos (show 2 ≤ l.length from hl)]
            · rw [if_neg hl, if_neg (show ¬ 2 ≤ l.length from hl), List.append_nil]
      · exfalso; apply hnd
        simp [Defined, hact, h1]
    · -- flash
      have hop : evalOp env (prepared st h c) { c with op := some (opOf (.coord c :: h)) }
          (penX (.coord c :: h)) (penY (.coord c :: h)) =
          match currentAperture env h with
          | none => .error .keyError
          | some ap => .ok { prepared st h c with
              primitives := st.primitives ++
                [.flash ap.shape (pen (.coord c :: h)) (polarityOf h) (unitsOf h)] } := by
        unfold evalOp
        rw [show (prepared st h c).op = opOf (.coord c :: h) from rfl, h2, if_neg (by simp), h3,
          if_neg (by simp), h4, if_pos rfl, hap, ← ha.pol, ← ha.units]
        rfl
      rw [hop]
      cases hca : currentAperture env h with
      | none =>
        constructor
        · intro hd
          simp [Defined, hact, h1, hca] at hd
        · intro _; rfl
      | some ap =>
        constructor
        · intro _
          refine ⟨_, rfl, ?_⟩
          exact ⟨rfl, rfl, rfl, ha.aperture, by simp [modeOf, hact, h1, prepared],
            by simp [modeOf, hact, h1, prepared], ha.pol, ha.units, ha.region, ha.quad, ha.macros,
            ha.apertures, by simp [contour, hact, h1, ← ha.cur, prepared],
            by simp [picture, added, hact, h1, hca, ha.prims]⟩
        · intro hnd
          exfalso; apply hnd
          simp [Defined, hact, h1, hca]
    · -- unknown operation
      refine ⟨fun _ => ?_, fun hnd => ?_⟩
      · unfold evalOp
        rw [show (prepared st h c).op = opOf (.coord c :: h) from rfl, h2, if_neg (by simp), h3,
          if_neg (by simp), h4, if_neg (by simp)]
        refine ⟨_, rfl, ?_⟩
        exact ⟨rfl, rfl, rfl, ha.aperture, by simp [modeOf, hact, h1, prepared],
            by simp [modeOf, hact, h1, prepared], ha.pol, ha.units, ha.region, ha.quad, ha.macros,
            ha.apertures, by simp [contour, hact, h1, ← ha.cur, prepared],
            by simp [picture, added, hact, h1, ha.prims, prepared]⟩
      · exfalso; apply hnd
        simp [Defined, hact, h1]

theorem step_region (env : EvalEnv G) {st : EvalState G} {h : List Stmt} (ha : Agrees env st h)
    (m : String) (hm : m = "on" ∨ m = "off") : Agrees env (evalRegion st m) (.region m :: h) := by
  obtain ⟨hon, -⟩ := region_on ha
  have hreg : m = if regionOn (.region m :: h) then "on" else "off" := by
    rcases hm with rfl | rfl <;> rfl
  unfold evalRegion
  by_cases hc : st.regionMode = "on" ∧ m = "off"
  · have hr := hon.1 hc.1
    rw [if_pos hc]
    refine ⟨ha.x, ha.y, ha.op, ha.aperture, ha.interp, ha.dir, ha.pol, ha.units, hreg, ha.quad,
      ha.macros, ha.apertures, ?_, ?_⟩
    · simp [contour, hr, hc.2]
    · simp only [picture, added, hr, hc.2, ← ha.cur, ← ha.prims, ← ha.pol, ← ha.units]
      match hcr : st.currentRegion with
      | none => simp
      | some [] => simp
      | some (e :: es) => simp
  · have hc' : ¬ (regionOn h = true ∧ m = "off") := by rwa [← hon]
    have hc'' : ¬ (regionOn h = true ∧ m = "off" ∧ contour env h ≠ []) := fun h' =>
      hc' ⟨h'.1, h'.2.1⟩
    rw [if_neg hc]
    refine ⟨ha.x, ha.y, ha.op, ha.aperture, ha.interp, ha.dir, ha.pol, ha.units, hreg, ha.quad,
      ha.macros, ha.apertures, ?_, ?_⟩
    · simp [contour, hc', ha.cur]
    · simp [picture, added, hc'', ha.prims]

/-- One statement: succeeds exactly if everything it refers to is defined, and keeps the state in
agreement with the history. -/
theorem step_agrees (env : EvalEnv G) {st : EvalState G} {h : List Stmt} (ha : Agrees env st h)
    (s : Stmt) (hm : s.ModeOK) :
    (Defined env h s → ∃ st', evaluate env st s = .ok (st', explicit h s) ∧ Agrees env st' (s :: h)) ∧
    (¬ Defined env h s → ∃ e, evaluate env st s = .error e) := by
  cases s with
  | coord c => exact ⟨(step_coord env ha c).1, fun h' => ⟨_, (step_coord env ha c).2 h'⟩⟩
  | region m => exact ⟨fun _ => ⟨_, rfl, step_region env ha m hm⟩, fun h' => absurd trivial h'⟩
  | lp p =>
    exact ⟨fun _ => ⟨_, rfl, ha.x, ha.y, ha.op, ha.aperture, ha.interp, ha.dir, rfl, ha.units,
      ha.region, ha.quad, ha.macros, ha.apertures, ha.cur, by simp [picture, added, ha.prims]⟩,
      fun h' => absurd trivial h'⟩
  | mo m =>
    exact ⟨fun _ => ⟨_, rfl, ha.x, ha.y, ha.op, ha.aperture, ha.interp, ha.dir, ha.pol, rfl,
      ha.region, ha.quad, ha.macros, ha.apertures, ha.cur, by simp [picture, added, ha.prims]⟩,
      fun h' => absurd trivial h'⟩
  | fs z n f =>
    refine ⟨fun _ => ⟨_, rfl, ha.x, ha.y, ha.op, ha.aperture, ha.interp, ha.dir, ha.pol, ?_,
      ha.region, ha.quad, ha.macros, ha.apertures, ha.cur, by simp [picture, added, ha.prims]⟩,
      fun h' => absurd trivial h'⟩
    simp only [unitsOf, ← ha.units, FileSettings.setZeroSuppression]
  | aperture d dep =>
    exact ⟨fun _ => ⟨_, rfl, ha.x, ha.y, ha.op, rfl, ha.interp, ha.dir, ha.pol, ha.units,
      ha.region, ha.quad, ha.macros, ha.apertures, ha.cur, by simp [picture, added, ha.prims]⟩,
      fun h' => absurd trivial h'⟩
  | quad m =>
    exact ⟨fun _ => ⟨_, rfl, ha.x, ha.y, ha.op, ha.aperture, ha.interp, ha.dir, ha.pol, ha.units,
      ha.region, rfl, ha.macros, ha.apertures, ha.cur, by simp [picture, added, ha.prims]⟩,
      fun h' => absurd trivial h'⟩
  | am n b l =>
    refine ⟨fun _ => ⟨_, rfl, ha.x, ha.y, ha.op, ha.aperture, ha.interp, ha.dir, ha.pol, ha.units,
      ha.region, ha.quad, ?_, ha.apertures, ha.cur, by simp [picture, added, ha.prims]⟩,
      fun h' => absurd trivial h'⟩
    funext k
    simp only [macroDef, ha.macros, ha.units]
  | ad d sh mods =>
    constructor
    · rintro ⟨s, hs⟩
      refine ⟨{ st with apertures := fun k =>
        if k = d then some ⟨s, some st.settings.units⟩ else st.apertures k }, ?_, ?_⟩
      · simp only [evaluate, ha.macros, hs]; rfl
      · refine ⟨ha.x, ha.y, ha.op, ha.aperture, ha.interp, ha.dir, ha.pol, ha.units,
          ha.region, ha.quad, ha.macros, ?_, ha.cur, by simp [picture, added, ha.prims]⟩
        funext k
        simp only [apertureDef, hs, ha.apertures, ha.units]
    · intro hnd
      simp only [evaluate, ha.macros]
      cases hs : shapeOf env (macroDef h) sh mods with
      | error e => exact ⟨e, rfl⟩
      | ok s => exact absurd ⟨s, hs⟩ hnd
  | as_ _ | in_ _ | ip _ | ir _ | mi _ _ | of_ _ _ | sf _ _ | ln _ | deprecated _ | comment _ | eof
  | unknown _ =>
    exact ⟨fun _ => ⟨_, rfl, ha.x, ha.y, ha.op, ha.aperture, ha.interp, ha.dir, ha.pol, ha.units,
      ha.region, ha.quad, ha.macros, ha.apertures, ha.cur, by simp [picture, added, ha.prims]⟩,
      fun h' => absurd trivial h'⟩

/-- The statements with explicit operation codes. -/
def explicitAll (h : List Stmt) : List Stmt → List Stmt
  | [] => []
  | s :: l => explicit h s :: explicitAll (s :: h) l

/-- Everything in `l` is defined where it is used, after the history `h`. -/
def DefinedFrom (env : EvalEnv G) (h : List Stmt) : List Stmt → Prop
  | [] => True
  | s :: l => Defined env h s ∧ DefinedFrom env (s :: h) l

theorem evalAll_agrees (env : EvalEnv G) (l : List Stmt) {st : EvalState G} {h : List Stmt}
    (ha : Agrees env st h) (hm : ∀ s ∈ l, s.ModeOK) :
    (DefinedFrom env h l → ∃ st', evalAll env st l = .ok (st', explicitAll h l) ∧
      Agrees env st' (l.reverse ++ h)) ∧
    (¬ DefinedFrom env h l → ∃ e, evalAll env st l = .error e) := by
  induction l generalizing st h with
  | nil => exact ⟨fun _ => ⟨st, rfl, ha⟩, fun h' => absurd trivial h'⟩
  | cons s l ih =>
    have hs := step_agrees env ha s (hm s (by simp))
    have hm' : ∀ t ∈ l, t.ModeOK := fun t ht => hm t (List.mem_cons_of_mem _ ht)
    constructor
    · rintro ⟨h1, h2⟩
      obtain ⟨st1, e1, a1⟩ := hs.1 h1
      obtain ⟨st2, e2, a2⟩ := (ih a1 hm').1 h2
      refine ⟨st2, ?_, by simpa using a2⟩
      simp only [evalAll, e1, bind, Except.bind, e2, explicitAll]
    · intro hnd
      by_cases h1 : Defined env h s
      · obtain ⟨st1, e1, a1⟩ := hs.1 h1
        obtain ⟨e, he⟩ := (ih a1 hm').2 fun h2 => hnd ⟨h1, h2⟩
        exact ⟨e, by simp only [evalAll, e1, bind, Except.bind, he]⟩
      · obtain ⟨e, he⟩ := hs.2 h1
        exact ⟨e, by simp only [evalAll, he, bind, Except.bind]⟩

theorem definedFrom_iff (env : EvalEnv G) (h l : List Stmt) :
    (AllDefined env h ∧ DefinedFrom env h l) ↔ AllDefined env (l.reverse ++ h) := by
  induction l generalizing h with
  | nil => simp [DefinedFrom]
  | cons s l ih =>
    have := ih (s :: h)
    simp only [DefinedFrom, List.reverse_cons, List.append_assoc, List.singleton_append, ← this,
      AllDefined]
    tauto

/-! ## C14 -/

/-- For every statement sequence: the primitives of a successful interpretation are exactly those
the statements say, in order, and the current point is the one last given. -/
theorem C14_picture (env : EvalEnv G) (stmts : List Stmt) (hm : ∀ s ∈ stmts, s.ModeOK)
    {st : EvalState G} {stmts' : List Stmt} (h : evalAll env initState stmts = .ok (st, stmts')) :
    st.primitives = picture env stmts.reverse ∧ (st.x, st.y) = pen stmts.reverse := by
  have ha := evalAll_agrees env stmts (agrees_init env) hm
  by_cases hd : DefinedFrom env [] stmts
  · obtain ⟨st', e, a⟩ := ha.1 hd
    rw [h] at e
    cases e
    rw [List.append_nil] at a
    exact ⟨a.prims, by rw [a.x, a.y]; rfl⟩
  · obtain ⟨e, he⟩ := ha.2 hd
    rw [h] at he; cases he

/-- Interpretation succeeds exactly if every aperture and macro is defined, with enough modifiers,
before it is used. -/
theorem C14_total (env : EvalEnv G) (stmts : List Stmt) (hm : ∀ s ∈ stmts, s.ModeOK) :
    (∃ r, evalAll env initState stmts = .ok r) ↔ AllDefined env stmts.reverse := by
  have ha := evalAll_agrees env stmts (agrees_init env) hm
  have hd := definedFrom_iff env [] stmts
  rw [List.append_nil] at hd
  rw [← hd]
  simp only [AllDefined, true_and]
  constructor
  · rintro ⟨r, hr⟩
    by_contra hn
    obtain ⟨e, he⟩ := ha.2 hn
    rw [hr] at he; cases he
  · intro h
    obtain ⟨st', e, _⟩ := ha.1 h
    exact ⟨_, e⟩

theorem evalAll_append (env : EvalEnv G) (a b : List Stmt) (st : EvalState G) :
    evalAll env st (a ++ b) = (do
      let (st1, a') ← evalAll env st a
      let (st2, b') ← evalAll env st1 b
      .ok (st2, a' ++ b')) := by
  induction a generalizing st with
  | nil =>
    simp only [List.nil_append, evalAll, bind, Except.bind]
    cases evalAll env st b <;> rfl
  | cons s a ih =>
    simp only [List.cons_append, evalAll]
    cases evaluate env st s with
    | error e => rfl
    | ok x =>
      simp only [bind, Except.bind, ih]
      cases evalAll env x.1 a with
      | error e => rfl
      | ok y =>
        simp only
        cases evalAll env y.1 b <;> rfl

/-- The state before the last statement agrees with the history. -/
theorem evalAll_before (env : EvalEnv G) (pre l : List Stmt) (hm : ∀ s ∈ pre, s.ModeOK)
    {st : EvalState G} {stmts' : List Stmt} (h : evalAll env initState (pre ++ l) = .ok (st, stmts')) :
    ∃ st0, evalAll env initState pre = .ok (st0, explicitAll [] pre) ∧ Agrees env st0 pre.reverse ∧
      ∃ l', evalAll env st0 l = .ok (st, l') ∧ stmts' = explicitAll [] pre ++ l' := by
  rw [evalAll_append] at h
  obtain ⟨⟨st0, a'⟩, h1, h2⟩ := evBind h
  obtain ⟨⟨st2, b'⟩, h3, h4⟩ := evBind h2
  have ha := evalAll_agrees env pre (agrees_init env) hm
  by_cases hd : DefinedFrom env [] pre
  · obtain ⟨st', e, a⟩ := ha.1 hd
    rw [h1] at e
    cases e
    cases h4
    rw [List.append_nil] at a
    exact ⟨st0, h1, a, b', h3, rfl⟩
  · obtain ⟨e, he⟩ := ha.2 hd
    rw [h1] at he; cases he

theorem added_coord (env : EvalEnv G) {st st' : EvalState G} {h : List Stmt} (ha : Agrees env st h)
    {c : Coord} {l : List Stmt} (he : evalAll env st [.coord c] = .ok (st', l)) :
    Defined env h (.coord c) ∧ st'.primitives = st.primitives ++ added env h (.coord c) := by
  have hs := step_coord env ha c
  by_cases hd : Defined env h (.coord c)
  · obtain ⟨st1, e1, a1⟩ := hs.1 hd
    simp only [evalAll, e1, bind, Except.bind] at he
    cases he
    refine ⟨hd, ?_⟩
    rw [a1.prims, ha.prims]; rfl
  · simp only [evalAll, hs.2 hd, bind, Except.bind] at he
    cases he

/-- A draw operation outside regions adds one line or arc, from the current point to the new one,
with the current aperture; it is a line exactly in linear mode. -/
theorem C14_draw (env : EvalEnv G) (pre : List Stmt) (c : Coord) (hm : ∀ s ∈ pre, s.ModeOK)
    {st st' : EvalState G} {l l' : List Stmt} (h : evalAll env initState pre = .ok (st, l))
    (h' : evalAll env initState (pre ++ [.coord c]) = .ok (st', l'))
    (hr : regionOn pre.reverse = false) (hact : actionAt pre.reverse c = some .draw) :
    ∃ e ap, st'.primitives = st.primitives ++ [.edge e] ∧ currentAperture env pre.reverse = some ap ∧
      e.ap = ap ∧ e.start = (st.x, st.y) ∧ e.stop = (c.x.getD st.x, c.y.getD st.y) ∧
      ((∃ s t a p u, e = .line s t a p u) ↔ ((modeOf pre.reverse).after c.function).linear = true) := by
  obtain ⟨st0, e0, a0, l1, e1, -⟩ := evalAll_before env pre _ hm h'
  rw [h] at e0; cases e0
  obtain ⟨hd, hp⟩ := added_coord env a0 e1
  simp only [Defined, hact, hr, Option.isSome_iff_exists] at hd
  obtain ⟨ap, hap⟩ := hd
  refine ⟨segment env pre.reverse c ap, ap, ?_, hap, ?_, ?_, ?_, ?_⟩
  · rw [hp]; simp [added, hact, hr, hap]
  · simp only [segment]; split <;> rfl
  · rw [a0.x, a0.y]; simp only [segment]; split <;> rfl
  · rw [a0.x, a0.y]; simp only [segment]; split <;> rfl
  · simp only [segment]
    split
    · simp_all
    · simp_all

/-- A flash adds one copy of the current aperture at the new point. -/
theorem C14_flash (env : EvalEnv G) (pre : List Stmt) (c : Coord) (hm : ∀ s ∈ pre, s.ModeOK)
    {st st' : EvalState G} {l l' : List Stmt} (h : evalAll env initState pre = .ok (st, l))
    (h' : evalAll env initState (pre ++ [.coord c]) = .ok (st', l'))
    (hact : actionAt pre.reverse c = some .flash) :
    ∃ ap, currentAperture env pre.reverse = some ap ∧ st'.primitives = st.primitives ++
      [.flash ap.shape (c.x.getD st.x, c.y.getD st.y) (polarityOf pre.reverse)
        (unitsOf pre.reverse)] := by
  obtain ⟨st0, e0, a0, l1, e1, -⟩ := evalAll_before env pre _ hm h'
  rw [h] at e0; cases e0
  obtain ⟨hd, hp⟩ := added_coord env a0 e1
  have hd' : ∃ ap, currentAperture env pre.reverse = some ap := by
    cases hr : regionOn pre.reverse <;>
      simpa [Defined, hact, hr, Option.isSome_iff_exists] using hd
  obtain ⟨ap, hap⟩ := hd'
  refine ⟨ap, hap, ?_⟩
  rw [hp, a0.x, a0.y]
  simp [added, hact, hap, pen, penX, penY]

/-- A move outside regions, and a statement with nothing but an interpolation code, add nothing. -/
theorem C14_move (env : EvalEnv G) (pre : List Stmt) (c : Coord) (hm : ∀ s ∈ pre, s.ModeOK)
    {st st' : EvalState G} {l l' : List Stmt} (h : evalAll env initState pre = .ok (st, l))
    (h' : evalAll env initState (pre ++ [.coord c]) = .ok (st', l'))
    (hact : (actionAt pre.reverse c = some .move ∧ regionOn pre.reverse = false) ∨ c.Bare) :
    st'.primitives = st.primitives ∧ (st'.x, st'.y) = (c.x.getD st.x, c.y.getD st.y) := by
  obtain ⟨st0, e0, a0, l1, e1, -⟩ := evalAll_before env pre _ hm h'
  rw [h] at e0; cases e0
  obtain ⟨hd, hp⟩ := added_coord env a0 e1
  obtain ⟨st1, e2, a1⟩ := (step_coord env a0 c).1 hd
  simp only [evalAll, e2, bind, Except.bind] at e1
  cases e1
  refine ⟨?_, by rw [a1.x, a1.y, a0.x, a0.y]; rfl⟩
  rw [hp]
  rcases hact with ⟨h1, h2⟩ | hb
  · simp [added, h1, h2]
  · simp [added, actionAt, hb]

/-! ### A concrete file -/

/-- No macros, no single-quadrant arcs. -/
def plainEnv : EvalEnv Unit := ⟨fun _ _ _ => .error .valueError, fun _ _ _ _ => none⟩

/-- `ADD10C,0.5; D10; X1Y1D02; X3D01; Y2; G03 X2 Y3 I1 D01; LPC; D03; G36; X0D01 Y0 D02 G37` -/
def sampleDrawing : List Stmt := [.ad 10 ['C'] [[1 / 2]], .aperture 10 false,
  .coord { x := some 1, y := some 1, op := some ['D', '0', '2'] },
  .coord { x := some 3, op := some ['D', '0', '1'] }, .coord { y := some 2 },
  .coord { function := some ['G', '0', '3'], x := some 2, y := some 3, i := some 1,
           op := some ['D', '0', '1'] },
  .lp "clear", .coord { op := some ['D', '0', '3'] }, .coord { function := some ['G', '0', '1'] },
  .region "on", .coord { x := some 0, op := some ['D', '1'] }, .coord { y := some 0 },
  .coord { x := some 2, y := some 3 }, .region "off"]

/-- Aperture of the concrete file. -/
def sampleAp : Aperture Unit := ⟨.circle (1 / 2) {}, some "inch"⟩

example : (∀ s ∈ sampleDrawing, s.ModeOK) ∧
    (evalAll plainEnv initState sampleDrawing).toOption.map (fun r => r.1.primitives) = some
      [.edge (.line (1, 1) (3, 1) sampleAp "dark" "inch"),
       .edge (.line (3, 1) (3, 2) sampleAp "dark" "inch"),
       .edge (.arc (3, 2) (2, 3) (some (4, 2)) "counterclockwise" sampleAp "multi-quadrant" "dark"
         "inch"),
       .flash (.circle (1 / 2) {}) (2, 3) "clear" "inch",
       .region [.line (2, 3) (0, 3) sampleAp "clear" "inch",
         .line (0, 3) (0, 0) sampleAp "clear" "inch",
         .line (0, 0) (2, 3) sampleAp "clear" "inch"] "clear" "inch"] := by
  constructor
  · intro s hs
    simp only [sampleDrawing, List.mem_cons, List.not_mem_nil, or_false] at hs
    rcases hs with rfl | rfl | rfl | rfl | rfl | rfl | rfl | rfl | rfl | rfl | rfl | rfl | rfl | rfl <;>
      first | trivial | exact .inl rfl | exact .inr rfl
  · decide +kernel

/-- Hypotheses of `C14_draw` (fourth statement) and `C14_flash` (eighth). -/
example : regionOn (sampleDrawing.take 3).reverse = false ∧
    actionAt (sampleDrawing.take 3).reverse { x := some 3, op := some ['D', '0', '1'] } = some .draw ∧
    actionAt (sampleDrawing.take 4).reverse { y := some 2 } = some .draw ∧
    actionAt (sampleDrawing.take 7).reverse { op := some ['D', '0', '3'] } = some .flash ∧
    actionAt (sampleDrawing.take 2).reverse { x := some 1, y := some 1, op := some ['D', '0', '2'] } =
      some .move := by
  decide +kernel

/-! ## C15 -/

theorem added_polarity (env : EvalEnv G) (h : List Stmt) (s : Stmt) :
    ∀ p ∈ added env h s, p.polarity = polarityOf h := by
  intro p hp
  cases s with
  | coord c =>
    simp only [added] at hp
    split at hp
    · simp only [List.mem_map] at hp
      obtain ⟨ap, _, rfl⟩ := hp
      simp only [segment]
      split <;> rfl
    · split at hp
      · simp only [List.mem_singleton] at hp; subst hp; rfl
      · cases hp
    · simp only [List.mem_map] at hp
      obtain ⟨ap, _, rfl⟩ := hp
      rfl
    · cases hp
  | region m =>
    simp only [added] at hp
    split at hp
    · simp only [List.mem_singleton] at hp; subst hp; rfl
    · cases hp
  | _ => cases hp

theorem picture_chunks (env : EvalEnv G) (h l : List Stmt) : picture env (l.reverse ++ h) =
    picture env h ++ ((List.range l.length).map fun k =>
      match l[k]? with
      | some s => added env ((l.take k).reverse ++ h) s
      | none => []).flatten := by
  induction l generalizing h with
  | nil => simp
  | cons s l ih =>
    rw [List.reverse_cons, List.append_assoc, List.singleton_append, ih, picture, List.length_cons,
      List.range_succ_eq_map, List.map_cons, List.flatten_cons, List.map_map, List.append_assoc]
    congr 1
    congr 1
    simp only [Function.comp_def, List.getElem?_cons_succ, List.take_succ_cons, List.reverse_cons,
      List.append_assoc, List.singleton_append]

/-- For every statement sequence: the primitives can be attributed to the statements that produced
them, in order, and each has the polarity set by the latest `LP` statement before that statement
(dark if there is none). -/
theorem C15_polarity (env : EvalEnv G) (stmts : List Stmt) (hm : ∀ s ∈ stmts, s.ModeOK)
    {st : EvalState G} {stmts' : List Stmt} (h : evalAll env initState stmts = .ok (st, stmts')) :
    ∃ chunks : List (List (Prim G)), chunks.length = stmts.length ∧ st.primitives = chunks.flatten ∧
      ∀ k ps, chunks[k]? = some ps → ∀ p ∈ ps, p.polarity = polarityOf (stmts.take k).reverse := by
  refine ⟨(List.range stmts.length).map fun k =>
      match stmts[k]? with
      | some s => added env ((stmts.take k).reverse ++ []) s
      | none => [], by simp, ?_, ?_⟩
  · rw [(C14_picture env stmts hm h).1]
    have := picture_chunks env [] stmts
    rw [List.append_nil] at this
    rw [this]; rfl
  · intro k ps hk p hp
    rw [List.getElem?_map] at hk
    by_cases hlt : k < stmts.length
    · rw [List.getElem?_range hlt] at hk
      simp only [Option.map_some, Option.some.injEq] at hk
      subst hk
      rw [List.getElem?_eq_getElem hlt] at hp
      have := added_polarity env _ _ p hp
      rwa [List.append_nil] at this
    · rw [List.getElem?_eq_none (by simpa using hlt)] at hk
      cases hk

/-- What the latest `LP` statement is. -/
theorem polarityOf_eq (stmts rest : List Stmt) (p : String)
    (h : ∀ s ∈ rest, ∀ q, s ≠ .lp q) :
    polarityOf (stmts ++ .lp p :: rest).reverse = p ∧ polarityOf rest.reverse = "dark" := by
  have key : ∀ (l tl : List Stmt), (∀ s ∈ l, ∀ q, s ≠ .lp q) →
      polarityOf (l ++ tl) = polarityOf tl := by
    intro l tl hl
    induction l with
    | nil => rfl
    | cons s l ih =>
      have ih' := ih fun s' hs' => hl s' (List.mem_cons_of_mem _ hs')
      have hs := hl s (by simp)
      cases s with
      | lp q => exact absurd rfl (hs q)
      | _ => exact ih'
  constructor
  · simp only [List.reverse_append, List.reverse_cons, List.append_assoc]
    rw [key _ _ (by simpa using h)]
    rfl
  · have := key rest.reverse [] (by simpa using h)
    rw [List.append_nil] at this
    rw [this]; rfl

example : (evalAll plainEnv initState sampleDrawing).toOption.map
    (fun r => r.1.primitives.map Prim.polarity) = some ["dark", "dark", "dark", "clear", "clear"] := by
  decide +kernel

/-! ## C16 -/

/-- The contours of a sequence of draws (`some`) and moves (`none`): the pieces between moves.
`cur` is the piece being collected. -/
def piecesFrom {α : Type} (cur : List α) : List (Option α) → List (List α)
  | [] => [cur]
  | none :: l => cur :: piecesFrom [] l
  | some e :: l => piecesFrom (cur ++ [e]) l

/-- The draws and moves of statements inside a region: for each draw its segment. -/
def strokes (env : EvalEnv G) (h : List Stmt) : List Stmt → List (Option (Edge G))
  | [] => []
  | .coord c :: l => match actionAt h c with
    | some .draw =>
      some (segment env h c ((currentAperture env h).getD noAperture)) :: strokes env (.coord c :: h) l
    | some .move => none :: strokes env (.coord c :: h) l
    | _ => strokes env (.coord c :: h) l
  | s :: l => strokes env (s :: h) l

/-- The maximal runs of draw operations: the non-empty pieces. -/
def runs {α : Type} (l : List (Option α)) : List (List α) := (piecesFrom [] l).filter (· ≠ [])

/-- Nothing in the statements but draws, moves, interpolation codes and statements other than
coordinates and region modes. -/
def InsideOK (h : List Stmt) : List Stmt → Prop
  | [] => True
  | s :: l => (match s with
      | .coord c => actionAt h c ≠ some .flash
      | .region _ => False
      | _ => True) ∧ InsideOK (s :: h) l

/-- Edges of a region. -/
def Prim.regionEdges : Prim G → Option (List (Edge G))
  | .region l _ _ => some l
  | _ => none

/-- The pieces that become regions: those closed by a move if they have at least two segments, the
last one if it has any. -/
def kept {α : Type} : List (List α) → List (List α)
  | [] => []
  | [p] => if p = [] then [] else [p]
  | p :: q :: l => (if 2 ≤ p.length then [p] else []) ++ kept (q :: l)

theorem piecesFrom_ne_nil {α : Type} (cur : List α) (l : List (Option α)) :
    piecesFrom cur l ≠ [] := by
  induction l generalizing cur with
  | nil => simp [piecesFrom]
  | cons a l ih =>
    cases a with
    | none => simp [piecesFrom]
    | some e => exact ih _

theorem kept_cons {α : Type} (p : List α) {l : List (List α)} (h : l ≠ []) :
    kept (p :: l) = (if 2 ≤ p.length then [p] else []) ++ kept l := by
  cases l with
  | nil => exact absurd rfl h
  | cons q l => rfl

theorem region_picture (env : EvalEnv G) (l h : List Stmt) (hr : regionOn h = true)
    (hin : InsideOK h l) : ∃ R, picture env (.region "off" :: (l.reverse ++ h)) = picture env h ++ R ∧
      R.map Prim.regionEdges = (kept (piecesFrom (contour env h) (strokes env h l))).map some := by
  induction l generalizing h with
  | nil =>
    refine ⟨added env h (.region "off"), rfl, ?_⟩
    simp only [added, strokes, piecesFrom, kept]
    by_cases hc : contour env h = []
    · simp [hc]
    · simp [hc, hr, Prim.regionEdges]
  | cons s l ih =>
    obtain ⟨hs, hin⟩ := hin
    have e : Stmt.region "off" :: ((s :: l).reverse ++ h) =
        .region "off" :: (l.reverse ++ (s :: h)) := by simp
    rw [e]
    have other : regionOn (s :: h) = true → added env h s = [] → contour env (s :: h) = contour env h →
        strokes env h (s :: l) = strokes env (s :: h) l →
        ∃ R, picture env (.region "off" :: (l.reverse ++ (s :: h))) = picture env h ++ R ∧
          R.map Prim.regionEdges =
            (kept (piecesFrom (contour env h) (strokes env h (s :: l)))).map some := by
      intro h1 h2 h3 h4
      obtain ⟨R, i1, i2⟩ := ih (s :: h) h1 hin
      refine ⟨R, ?_, ?_⟩
      · rw [i1, picture, h2, List.append_nil]
      · rw [i2, h3, h4]
    cases s with
    | coord c =>
      have hr' : regionOn (.coord c :: h) = true := hr
      obtain ⟨R, i1, i2⟩ := ih (.coord c :: h) hr' hin
      cases ha : actionAt h c with
      | none =>
        exact other hr' (by simp [added, ha]) (by simp [contour, ha]) (by simp [strokes, ha])
      | some a =>
        cases a with
        | flash => exact absurd ha hs
        | draw =>
          refine ⟨R, ?_, ?_⟩
          · rw [i1, picture]; simp [added, ha, hr]
          · rw [i2]
            simp [contour, ha, hr, strokes, piecesFrom]
        | move =>
          refine ⟨added env h (.coord c) ++ R, ?_, ?_⟩
          · rw [i1, picture, List.append_assoc]
          · rw [List.map_append, i2]
            simp only [strokes, ha, piecesFrom, contour, hr, if_true]
            rw [kept_cons _ (piecesFrom_ne_nil _ _), List.map_append]
            congr 1
            simp only [added, ha, hr]
            split <;> simp [Prim.regionEdges]
    | region m => exact absurd hs id
    | fs _ _ _ | mo _ | lp _ | ad _ _ _ | am _ _ _ | aperture _ _ | quad _ | as_ _ | in_ _ | ip _ | ir _
    | mi _ _ | of_ _ _ | sf _ _ | ln _ | deprecated _ | comment _ | eof | unknown _ =>
      exact other hr rfl rfl rfl

theorem contour_off (env : EvalEnv G) (h : List Stmt) (hm : ∀ s ∈ h, s.ModeOK)
    (hr : regionOn h = false) : contour env h = [] := by
  induction h with
  | nil => rfl
  | cons s h ih =>
    have ih' := ih (fun t ht => hm t (List.mem_cons_of_mem _ ht))
    cases s with
    | coord c =>
      have hr' : regionOn h = false := hr
      simp [contour, hr', ih' hr']
    | region m =>
      have hm' : m = "off" := (hm (.region m) (by simp)).resolve_left (by
        rintro rfl; cases hr)
      subst hm'
      cases hr' : regionOn h with
      | false => simp [contour, hr', ih' hr']
      | true => simp [contour, hr']
    | _ => exact ih' hr

/-- Between `G36` and `G37`, whatever the draws and moves: exactly the regions made of the pieces
between the moves are drawn, except that a piece with a single segment that is closed by a move is
lost. -/
theorem C16_regions_exact (env : EvalEnv G) (pre body : List Stmt) (hm : ∀ s ∈ pre, s.ModeOK)
    (hoff : regionOn pre.reverse = false)
    (hin : InsideOK (.region "on" :: pre.reverse) body) {st st' : EvalState G} {l l' : List Stmt}
    (h : evalAll env initState pre = .ok (st, l))
    (h' : evalAll env initState (pre ++ .region "on" :: (body ++ [.region "off"])) = .ok (st', l')) :
    ∃ R, st'.primitives = st.primitives ++ R ∧ R.map Prim.regionEdges =
      (kept (piecesFrom [] (strokes env (.region "on" :: pre.reverse) body))).map some := by
  have hmb : ∀ (b : List Stmt) h, InsideOK h b → ∀ s ∈ b, s.ModeOK := by
    intro b
    induction b with
    | nil => simp
    | cons s b ih =>
      rintro h ⟨h1, h2⟩ t ht
      rcases List.mem_cons.1 ht with rfl | ht
      · cases t with
        | region m => exact absurd h1 id
        | _ => trivial
      · exact ih _ h2 t ht
  have hm' : ∀ s ∈ pre ++ .region "on" :: (body ++ [.region "off"]), s.ModeOK := by
    intro s hs
    simp only [List.mem_append, List.mem_cons, List.not_mem_nil, or_false] at hs
    rcases hs with hs | rfl | hs | rfl
    · exact hm s hs
    · exact .inl rfl
    · exact hmb body _ hin s hs
    · exact .inr rfl
  have p1 := (C14_picture env pre hm h).1
  have p2 := (C14_picture env _ hm' h').1
  have hc : contour env (.region "on" :: pre.reverse) = [] := by
    simp [contour, hoff, contour_off env pre.reverse (by simpa using hm) hoff]
  obtain ⟨R, r1, r2⟩ := region_picture env body (.region "on" :: pre.reverse) rfl hin
  refine ⟨R, ?_, by rw [r2, hc]⟩
  rw [p2, p1]
  have e : (pre ++ Stmt.region "on" :: (body ++ [.region "off"])).reverse =
      .region "off" :: (body.reverse ++ (.region "on" :: pre.reverse)) := by simp
  rw [e, r1, picture]
  simp [added, hoff]

theorem kept_eq_filter {α : Type} (l : List (List α))
    (h : ∀ p ∈ l.dropLast, p = [] ∨ 2 ≤ p.length) : kept l = l.filter (· ≠ []) := by
  induction l with
  | nil => rfl
  | cons p l ih =>
    cases l with
    | nil => by_cases hp : p = [] <;> simp [kept, hp]
    | cons q l =>
      have hp := h p (by simp)
      have ih' := ih (fun r hr => h r (by simp [List.dropLast_cons_of_ne_nil, hr]))
      simp only [kept, ih']
      rcases hp with rfl | hp
      · simp
      · have hne : p ≠ [] := by rintro rfl; simp at hp
        simp [hp, hne]

theorem flatten_pieces {α : Type} (cur : List α) (l : List (Option α)) :
    (piecesFrom cur l).flatten = cur ++ l.reduceOption := by
  induction l generalizing cur with
  | nil => simp [piecesFrom, List.reduceOption]
  | cons a l ih =>
    cases a with
    | none => simp [piecesFrom, ih, List.reduceOption]
    | some e => simp [piecesFrom, ih, List.reduceOption]

theorem flatten_filter_ne_nil {α : Type} (l : List (List α)) :
    (l.filter (· ≠ [])).flatten = l.flatten := by
  induction l with
  | nil => rfl
  | cons p l ih => by_cases hp : p = [] <;> simp_all

/-- Between `G36` and `G37` every maximal run of draw operations becomes exactly one region with its
segments in order, nothing else is drawn, and no segment is lost or used twice - if no run of a
single draw operation is followed by a move.  Missing: such runs, which are lost
(`C16_single_segment_violated`), and flashes, which are drawn (`C16_flash_violated`). -/
theorem C16_regions_partial (env : EvalEnv G) (pre body : List Stmt) (hm : ∀ s ∈ pre, s.ModeOK)
    (hoff : regionOn pre.reverse = false)
    (hin : InsideOK (.region "on" :: pre.reverse) body)
    (hlong : ∀ p ∈ (piecesFrom [] (strokes env (.region "on" :: pre.reverse) body)).dropLast,
      p = [] ∨ 2 ≤ p.length)
    {st st' : EvalState G} {l l' : List Stmt}
    (h : evalAll env initState pre = .ok (st, l))
    (h' : evalAll env initState (pre ++ .region "on" :: (body ++ [.region "off"])) = .ok (st', l')) :
    ∃ R, st'.primitives = st.primitives ++ R ∧
      R.map Prim.regionEdges =
        (runs (strokes env (.region "on" :: pre.reverse) body)).map some ∧
      (runs (strokes env (.region "on" :: pre.reverse) body)).flatten =
        (strokes env (.region "on" :: pre.reverse) body).reduceOption := by
  obtain ⟨R, r1, r2⟩ := C16_regions_exact env pre body hm hoff hin h h'
  refine ⟨R, r1, ?_, ?_⟩
  · rw [r2, kept_eq_filter _ hlong]; rfl
  · rw [runs, flatten_filter_ne_nil, flatten_pieces, List.nil_append]

/-- Two contours, separated by a move. -/
def sampleBody : List Stmt := [.coord { x := some 1, op := some ['D', '0', '1'] },
  .coord { y := some 1 }, .coord { x := some 5, y := some 5, op := some ['D', '0', '2'] },
  .coord { x := some 6, op := some ['D', '0', '1'] }, .coord { x := some 7, y := some 7 }]

example : InsideOK [.region "on"] sampleBody ∧
    (∀ p ∈ (piecesFrom [] (strokes plainEnv [.region "on"] sampleBody)).dropLast,
      p = [] ∨ 2 ≤ p.length) ∧
    (evalAll plainEnv initState (.region "on" :: (sampleBody ++ [.region "off"]))).toOption.map
      (fun r => r.1.primitives.map fun p => p.regionEdges.map List.length) = some [some 2, some 2] := by
  refine ⟨?_, ?_, ?_⟩
  · simp only [InsideOK, sampleBody, and_true]
    decide +kernel
  · decide +kernel
  · decide +kernel

/-- A contour with one segment is lost if a move follows: the segment from (0, 0) to (1, 0) is drawn
nowhere. -/
theorem C16_single_segment_violated :
    (evalAll plainEnv initState [.region "on", .coord { x := some 1, op := some ['D', '0', '1'] },
      .coord { op := some ['D', '0', '2'] }, .region "off"]).toOption.map (fun r => r.1.primitives) =
      some [] := by
  decide +kernel

/-- A flash inside a region is drawn. -/
theorem C16_flash_violated :
    (evalAll plainEnv initState [.ad 10 ['C'] [[1 / 2]], .aperture 10 false, .region "on",
      .coord { x := some 1, op := some ['D', '0', '3'] }, .region "off"]).toOption.map
        (fun r => r.1.primitives) = some [.flash (.circle (1 / 2) {}) (1, 0) "dark" "inch"] := by
  decide +kernel

/-! ## C18 -/

theorem explicitAll_get (h l : List Stmt) (k : ℕ) {s' : Stmt} (hk : (explicitAll h l)[k]? = some s') :
    ∃ s, l[k]? = some s ∧ s' = explicit ((l.take k).reverse ++ h) s := by
  induction l generalizing h k with
  | nil => cases hk
  | cons s l ih =>
    cases k with
    | zero =>
      simp only [explicitAll, List.getElem?_cons_zero, Option.some.injEq] at hk
      exact ⟨s, rfl, by simpa using hk.symm⟩
    | succ k =>
      simp only [explicitAll, List.getElem?_cons_succ] at hk
      obtain ⟨t, h1, h2⟩ := ih _ k hk
      exact ⟨t, by simpa using h1, by simpa using h2⟩

theorem evalAll_stmts (env : EvalEnv G) (stmts : List Stmt) (hm : ∀ s ∈ stmts, s.ModeOK)
    {st : EvalState G} {stmts' : List Stmt} (h : evalAll env initState stmts = .ok (st, stmts')) :
    stmts' = explicitAll [] stmts := by
  have ha := evalAll_agrees env stmts (agrees_init env) hm
  by_cases hd : DefinedFrom env [] stmts
  · obtain ⟨st', e, a⟩ := ha.1 hd
    rw [h] at e
    cases e
    rfl
  · obtain ⟨e, he⟩ := ha.2 hd
    rw [h] at he; cases he

/-- After interpretation every coordinate statement, unless it has nothing but an interpolation
code, carries an operation code: the latest one given up to that statement, which is the one by
which it is interpreted (`actionAt`).  Nothing else in the statements is changed. -/
theorem C18_explicit_operations (env : EvalEnv G) (stmts : List Stmt) (hm : ∀ s ∈ stmts, s.ModeOK)
    {st : EvalState G} {stmts' : List Stmt} (h : evalAll env initState stmts = .ok (st, stmts'))
    (k : ℕ) {c' : Coord} (hk : stmts'[k]? = some (.coord c')) (hb : ¬ c'.Bare) :
    ∃ c, stmts[k]? = some (.coord c) ∧ c' = { c with op := c'.op } ∧
      c'.op = some (opOf (stmts.take (k + 1)).reverse) ∧
      actionAt (stmts.take k).reverse c = actionOf (opOf (stmts.take (k + 1)).reverse) := by
  rw [evalAll_stmts env stmts hm h] at hk
  obtain ⟨s, h1, h2⟩ := explicitAll_get [] stmts k hk
  rw [List.append_nil] at h2
  cases s with
  | coord c =>
    have ht : (stmts.take (k + 1)).reverse = .coord c :: (stmts.take k).reverse := by
      rw [List.take_add_one, h1]; simp
    refine ⟨c, h1, ?_⟩
    simp only [explicit] at h2
    split at h2
    · rename_i hb'
      cases h2
      exact absurd hb' hb
    · rename_i hb'
      cases h2
      exact ⟨rfl, by rw [ht], by rw [ht]; simp [actionAt, hb']⟩
  | _ => cases h2

example : (evalAll plainEnv initState sampleDrawing).toOption.bind (fun r => r.2[4]?) =
    some (.coord { y := some 2, op := some ['D', '0', '1'] }) := by decide +kernel

theorem evalCoord_again (env : EvalEnv G) {st st' : EvalState G} {c c' : Coord}
    (h : evalCoord env st c = .ok (st', c')) : evalCoord env st c' = .ok (st', c') := by
  obtain ⟨f, x, y, i, j, o⟩ := c
  have key : ∀ (st2 : EvalState G) (o1 o2 : Option Str), evalOp env st2 ⟨f, x, y, i, j, o1⟩ =
      evalOp env st2 ⟨f, x, y, i, j, o2⟩ := fun _ _ _ => rfl
  have hof : ∀ a : Str, (⟨f, x, y, i, j, some a⟩ : Coord).onlyFunction = false := by
    intro a; simp [Coord.onlyFunction]
  unfold evalCoord at h
  dsimp only at h
  by_cases hf : (⟨f, x, y, i, j, o⟩ : Coord).onlyFunction = true
  · rw [if_pos hf] at h
    cases h
    unfold evalCoord
    dsimp only
    rw [if_pos hf]
  · rw [if_neg hf] at h
    cases o with
    | none =>
      obtain ⟨st3, g1, g2⟩ := evBind h
      cases g2
      unfold evalCoord
      dsimp only
      rw [hof, if_neg (by simp)]
      cases hop : (setFunction st f).op with
      | nil =>
        dsimp only at g1 ⊢
        simp only [hop] at g1 ⊢
        rw [g1]; rfl
      | cons ch o' =>
        dsimp only at g1 ⊢
        have e : ({ setFunction st f with op := ch :: o' } : EvalState G) = setFunction st f := by
          rw [← hop]
        rw [e, key _ _ (some (setFunction st f).op), g1]; rfl
    | some o =>
      cases o with
      | nil =>
        obtain ⟨st3, g1, g2⟩ := evBind h
        cases g2
        unfold evalCoord
        dsimp only
        rw [hof, if_neg (by simp)]
        cases hop : (setFunction st f).op with
        | nil =>
          dsimp only at g1 ⊢
          simp only [hop] at g1 ⊢
          rw [g1]; rfl
        | cons ch o' =>
          dsimp only at g1 ⊢
          have e : ({ setFunction st f with op := ch :: o' } : EvalState G) = setFunction st f := by
            rw [← hop]
          rw [e, key _ _ (some (setFunction st f).op), g1]; rfl
      | cons ch o' =>
        obtain ⟨st3, g1, g2⟩ := evBind h
        cases g2
        unfold evalCoord
        dsimp only
        rw [hof, if_neg (by simp)]
        dsimp only at g1 ⊢
        rw [g1]; rfl

theorem evaluate_again (env : EvalEnv G) {st st' : EvalState G} {s s' : Stmt}
    (h : evaluate env st s = .ok (st', s')) : evaluate env st s' = .ok (st', s') := by
  cases s with
  | coord c =>
    obtain ⟨⟨st1, c1⟩, h1, h2⟩ := evBind h
    cases h2
    show (do let (st, c) ← evalCoord env st c1; .ok (st, Stmt.coord c)) = _
    rw [evalCoord_again env h1]; rfl
  | ad d sh mods =>
    obtain ⟨s, h1, h2⟩ := evBind h
    cases h2
    simp only [evaluate, h1]
    rfl
  | _ => cases h; rfl

/-- The statements after interpretation are self-contained: interpreting them again gives the same
picture (and the same final state), and leaves them as they are. -/
theorem C18_again (env : EvalEnv G) (stmts : List Stmt) {st0 st : EvalState G} {stmts' : List Stmt}
    (h : evalAll env st0 stmts = .ok (st, stmts')) : evalAll env st0 stmts' = .ok (st, stmts') := by
  induction stmts generalizing st0 stmts' with
  | nil => cases h; rfl
  | cons s l ih =>
    obtain ⟨⟨st1, s1⟩, h1, h2⟩ := evBind h
    obtain ⟨⟨st2, l2⟩, h3, h4⟩ := evBind h2
    cases h4
    simp only [evalAll, evaluate_again env h1, ih h3, bind, Except.bind]

/-! ## Files read from text -/

theorem loads_ok (env : EvalEnv G) {fs : Str → Option Str} {data : Str} {f : GerberFile G}
    (h : loads env fs data = .ok f) : ∃ stmts st, parseText fs data = .ok (stmts, f.settings) ∧
      (∀ s ∈ stmts, s.Sound) ∧ evalAll env initState stmts = .ok (st, f.statements) ∧
      f.primitives = st.primitives := by
  obtain ⟨⟨stmts, settings⟩, h1, h2⟩ := evBind h
  obtain ⟨⟨st, stmts'⟩, h3, h4⟩ := evBind h2
  cases h4
  exact ⟨stmts, st, h1, (reads_parseText fs data _ h1).1, h3, rfl⟩

/-- For every text: the file that is read shows the picture its statements describe. -/
theorem C14_file_picture (env : EvalEnv G) (fs : Str → Option Str) (data : Str) {f : GerberFile G}
    (h : loads env fs data = .ok f) : ∃ stmts settings, parseText fs data = .ok (stmts, settings) ∧
      f.primitives = picture env stmts.reverse := by
  obtain ⟨stmts, st, h1, h2, h3, h4⟩ := loads_ok env h
  exact ⟨stmts, _, h1, by rw [h4, (C14_picture env stmts (fun s hs => (h2 s hs).modeOK) h3).1]⟩

/-- For every text: every coordinate statement of the file, unless it has nothing but an
interpolation code, carries one of the codes of a draw, move or flash, the one it was interpreted
by. -/
theorem C18_file (env : EvalEnv G) (fs : Str → Option Str) (data : Str) {f : GerberFile G}
    (h : loads env fs data = .ok f) (c' : Coord) (hc : .coord c' ∈ f.statements) (hb : ¬ c'.Bare) :
    ∃ o act, c'.op = some o ∧ actionOf o = some act ∧
      ∃ stmts settings k c, parseText fs data = .ok (stmts, settings) ∧ stmts[k]? = some (.coord c) ∧
        f.statements[k]? = some (.coord c') ∧ actionAt (stmts.take k).reverse c = some act := by
  obtain ⟨stmts, st, h1, h2, h3, h4⟩ := loads_ok env h
  obtain ⟨k, hk⟩ := List.mem_iff_getElem?.1 hc
  obtain ⟨c, g1, g2, g3, g4⟩ :=
    C18_explicit_operations env stmts (fun s hs => (h2 s hs).modeOK) h3 k hk hb
  have hop : ∀ l : List Stmt, (∀ s ∈ l, s.Sound) → (actionOf (opOf l)).isSome := by
    intro l
    induction l with
    | nil => intro _; decide
    | cons s l ih =>
      intro hl
      have ih' := ih fun t ht => hl t (List.mem_cons_of_mem _ ht)
      cases s with
      | coord c =>
        have hs : Stmt.Sound (.coord c) := hl _ (by simp)
        simp only [opOf]
        split
        · exact ih'
        · rename_i hne
          cases ho : c.op with
          | none => rw [ho] at hne; exact absurd rfl hne
          | some o => exact hs.2 o ho
      | _ => exact ih'
  obtain ⟨act, hact⟩ := Option.isSome_iff_exists.1 (hop (stmts.take (k + 1)).reverse (by
    intro s hs
    exact h2 s (List.mem_of_mem_take (List.mem_reverse.1 hs))))
  exact ⟨_, act, g3, hact, stmts, _, k, c, h1, g1, hk, by rw [g4, hact]⟩

example : (loads plainEnv (fun _ => none)
    "%FSLAX24Y24*%\n%MOIN*%\n%ADD10C,0.5*%\nD10*\nX10000Y10000D02*\nX30000D01*\nY20000*\nM02*\n".toList).toOption.map
      (fun f => (f.primitives, f.statements[6]?)) = some
    ([.edge (.line (1, 1) (3, 1) sampleAp "dark" "inch"),
      .edge (.line (3, 1) (3, 2) sampleAp "dark" "inch")],
      some (.coord { y := some 2, op := some ['D', '0', '1'] })) := by
  decide +kernel

theorem evaluate_settings (env : EvalEnv G) {st st' : EvalState G} {s s' : Stmt}
    (h : evaluate env st s = .ok (st', s')) : st'.settings = applySetting st.settings s := by
  cases s with
  | coord c =>
    obtain ⟨⟨st1, c1⟩, h1, h2⟩ := evBind h
    cases h2
    have hset : ∀ (s : EvalState G) f, (setFunction s f).settings = s.settings := by
      intro s f
      unfold setFunction
      repeat' split
      all_goals rfl
    have hop : ∀ (s s2 : EvalState G) (c : Coord) x y, evalOp env s c x y = .ok s2 →
        s2.settings = s.settings := by
      intro s s2 c x y he
      unfold evalOp at he
      repeat' split at he
      all_goals first
        | (cases he; rfl)
        | cases he
    unfold evalCoord at h1
    dsimp only at h1
    split at h1
    · cases h1; exact hset _ _
    · obtain ⟨st3, g1, g2⟩ := evBind h1
      cases g2
      have := hop _ _ _ _ _ g1
      show st3.settings = st.settings
      rw [this]
      split <;> exact hset _ _
  | ad d sh mods =>
    obtain ⟨s, h1, h2⟩ := evBind h
    cases h2
    rfl
  | region m =>
    cases h
    simp only [evalRegion]
    repeat' split
    all_goals rfl
  | _ => cases h; rfl

/-- Reading and interpreting, which Python interleaves, agree on the settings in force after every
statement sequence. -/
theorem evalAll_settings (env : EvalEnv G) (stmts : List Stmt) {st0 st : EvalState G}
    {stmts' : List Stmt} (h : evalAll env st0 stmts = .ok (st, stmts')) :
    st.settings = stmts.foldl applySetting st0.settings := by
  induction stmts generalizing st0 stmts' with
  | nil => cases h; rfl
  | cons s l ih =>
    obtain ⟨⟨st1, s1⟩, h1, h2⟩ := evBind h
    obtain ⟨⟨st2, l2⟩, h3, h4⟩ := evBind h2
    cases h4
    rw [ih h3, evaluate_settings env h1]; rfl

/-- The settings the interpreter ends with are those of the file read. -/
theorem loads_settings (env : EvalEnv G) {fs : Str → Option Str} {data : Str} {stmts stmts' : List Stmt}
    {settings : FileSettings} {st : EvalState G} (h : parseText fs data = .ok (stmts, settings))
    (h' : evalAll env initState stmts = .ok (st, stmts')) : st.settings = settings := by
  rw [evalAll_settings env stmts h']
  exact (reads_parseText fs data _ h).2.symm

end Verif.Gerber
