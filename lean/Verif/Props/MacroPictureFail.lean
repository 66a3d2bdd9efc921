import Verif.Props.MacroPicture
import Verif.Props.GerberPictureFail

/-! # C76: examples, and where pictures of files with macros are wrong -/

namespace Verif.Gerber
open Verif.Py Verif.Cairo Verif.Geom Verif.Render Verif.Am

/-! ## Reading concrete files -/

/-- The interpreter with macros that makes no shapes. -/
def bareEnv (center : String → Pt → Pt → Pt → Option Pt) : EvalEnv (List AmPrim) := ⟨fun b _ m => build b m, center⟩

theorem evalOp_macros {G : Type} {env : EvalEnv G} {st st' : EvalState G} {c : Coord} {x y : ℚ}
    (h : evalOp env st c x y = .ok st') : st'.macros = st.macros := by
  unfold evalOp at h
  repeat' split at h
  all_goals first | (cases h; rfl) | cases h

theorem evalCoord_macros {G : Type} {env : EvalEnv G} {st st' : EvalState G} {c c' : Coord}
    (h : evalCoord env st c = .ok (st', c')) : st'.macros = st.macros := by
  have hs : (setFunction st c.function).macros = st.macros := by
    unfold setFunction
    repeat' split
    all_goals rfl
  unfold evalCoord at h
  simp only at h
  split at h
  · cases h; exact hs
  · split at h
    all_goals
      obtain ⟨st1, h1, h2⟩ := Excellon.bindOk h
      cases h2
      exact (evalOp_macros h1).trans hs

/-- The macro texts of a file. -/
def macroTexts : List Stmt → List Str
  | [] => []
  | .am _ b _ :: l => b :: macroTexts l
  | _ :: l => macroTexts l

/-- The modifiers of the apertures of a file. -/
def apertureMods : List Stmt → List (List ℚ)
  | [] => []
  | .ad _ _ (m :: _) :: l => m :: apertureMods l
  | _ :: l => apertureMods l

theorem evalAll_macros {center : String → Pt → Pt → Pt → Option Pt} {B : Str → Prop} {M : List ℚ → Prop}
    (hg : ∀ b m g, B b → M m → build b m = .ok g → ∃ l, groupShapes g = .ok l) {stmts : List Stmt} :
    ∀ {st st' : EvalState (List AmPrim)} {out : List Stmt}, evalAll (bareEnv center) st stmts = .ok (st', out) →
      (∀ n b u, st.macros n = some (b, u) → B b) → (∀ b ∈ macroTexts stmts, B b) → (∀ m ∈ apertureMods stmts, M m) →
      evalAll (macroEnv center) st stmts = .ok (st', out) := by
  induction stmts with
  | nil => exact fun h _ _ _ => h
  | cons s l ih =>
    intro st st' out h hst hB hM
    unfold evalAll at h ⊢
    obtain ⟨⟨st1, s1⟩, h1, h⟩ := Excellon.bindOk h
    obtain ⟨⟨st2, l2⟩, h2, h⟩ := Excellon.bindOk h
    cases h
    have hB' : ∀ b ∈ macroTexts l, B b := fun b hb => hB b (by cases s <;> simp [macroTexts, hb])
    have hM' : ∀ m ∈ apertureMods l, M m := fun m hm => hM m (by
      cases s with
      | ad d sh mods => cases mods <;> simp [apertureMods, hm]
      | _ => simp [apertureMods, hm])
    suffices hs : evaluate (macroEnv center) st s = .ok (st1, s1) ∧ ∀ n b u, st1.macros n = some (b, u) → B b by
      rw [hs.1]
      simp only [bind, Except.bind]
      rw [ih h2 hs.2 hB' hM']
    cases s with
    | coord c =>
      refine ⟨h1, ?_⟩
      obtain ⟨⟨st3, c3⟩, h3, h4⟩ := Excellon.bindOk h1
      cases h4
      rw [evalCoord_macros h3]
      exact hst
    | am n b l =>
      refine ⟨h1, ?_⟩
      cases h1
      intro k b' u hk
      simp only at hk
      split at hk
      · cases hk
        exact hB b (by simp [macroTexts])
      · exact hst k b' u hk
    | ad d sh mods =>
      obtain ⟨x, h3, h4⟩ := Excellon.bindOk h1
      cases h4
      refine ⟨?_, hst⟩
      suffices hx : shapeOf (macroEnv center) st.macros sh mods = .ok x by
        simp only [evaluate, hx, bind, Except.bind]
      unfold shapeOf at h3 ⊢
      split
      · rw [if_pos ‹_›] at h3; exact h3
      rw [if_neg ‹_›] at h3
      split
      · rw [if_pos ‹_›] at h3; exact h3
      rw [if_neg ‹_›] at h3
      split
      · rw [if_pos ‹_›] at h3; exact h3
      rw [if_neg ‹_›] at h3
      split
      · rw [if_pos ‹_›] at h3; exact h3
      rw [if_neg ‹_›] at h3
      cases hm : st.macros sh with
      | none => rw [hm] at h3; cases h3
      | some y =>
        obtain ⟨b, u⟩ := y
        rw [hm] at h3
        obtain ⟨m, k1, h3⟩ := Excellon.bindOk h3
        obtain ⟨g, k2, h3⟩ := Excellon.bindOk h3
        cases h3
        have k2 : build b m = .ok g := k2
        obtain ⟨l, hl⟩ := hg b m g (hst _ _ _ hm) (hM m (by
          cases mods with
          | nil => cases k1
          | cons a t => cases k1; simp [apertureMods])) k2
        simp only [k1, bind, Except.bind, macroEnv, k2, hl]
    | region m =>
      refine ⟨h1, ?_⟩
      cases h1
      unfold evalRegion
      split <;> exact hst
    | _ => refine ⟨h1, ?_⟩; cases h1; exact hst

/-- Reading with macros, if the shapes of all macros that are used can be made. -/
theorem loads_macros {center : String → Pt → Pt → Pt → Option Pt} {fs : Str → Option Str} {data : Str}
    {stmts : List Stmt} {settings : Cam.FileSettings} {f : GerberFile (List AmPrim)}
    (hp : parseText fs data = .ok (stmts, settings)) (h : loads (bareEnv center) fs data = .ok f)
    (hg : ∀ b ∈ macroTexts stmts, ∀ m ∈ apertureMods stmts, ∀ g, build b m = .ok g → ∃ l, groupShapes g = .ok l) :
    loads (macroEnv center) fs data = .ok f := by
  unfold loads at h ⊢
  rw [hp] at h ⊢
  simp only [bind, Except.bind] at h ⊢
  obtain ⟨⟨st, out⟩, h1, h2⟩ := Excellon.bindOk h
  cases h2
  rw [evalAll_macros (B := (· ∈ macroTexts stmts)) (M := (· ∈ apertureMods stmts)) (fun b m g hb hm => hg b hb m hm g) h1
    (fun n b u hn => by cases hn) (fun b hb => hb) (fun m hm => hm)]

/-- Reading a file with macros, with no files to include and no single-quadrant arcs. -/
noncomputable def readMacros (l : List String) : PyR (GerberFile (List AmPrim)) :=
  loads (macroEnv fun _ _ _ _ => none) (fun _ => none) (gerberText l)

/-- Reading of a file with one macro. -/
theorem readMacros_one {l : List String} {b : Str} {ms : List (List ℚ)} {g : List AmPrim}
    {Ps : List (Prim (List AmPrim))} (hp : ∃ stmts settings, parseText (fun _ => none) (gerberText l) = .ok (stmts, settings) ∧
      macroTexts stmts = [b] ∧ apertureMods stmts = ms)
    (hb : ∀ m ∈ ms, build b m = .ok g) (hg : ∃ x, groupShapes g = .ok x)
    (h : (loads (bareEnv fun _ _ _ _ => none) (fun _ => none) (gerberText l)).toOption.map GerberFile.primitives = some Ps) :
    ∃ f, readMacros l = .ok f ∧ f.primitives = Ps := by
  obtain ⟨stmts, settings, h1, h2, h3⟩ := hp
  obtain ⟨f, h4, h5⟩ : ∃ f, loads (bareEnv fun _ _ _ _ => none) (fun _ => none) (gerberText l) = .ok f ∧
      f.primitives = Ps := by
    cases hl : loads (bareEnv fun _ _ _ _ => none) (fun _ => none) (gerberText l) with
    | error e => rw [hl] at h; cases h
    | ok f => rw [hl] at h; exact ⟨f, rfl, by injection h⟩
  refine ⟨f, loads_macros h1 h4 ?_, h5⟩
  rw [h2, h3]
  intro b' hb' m hm g' hg'
  obtain rfl := List.mem_singleton.mp hb'
  rw [hb m hm] at hg'
  cases hg'
  exact hg

/-! ## The hypotheses of the theorems can be met -/

/-- A ring. -/
def ring : List AmPrim := [.circle true 2 (0, 0), .circle false 1 (0, 0)]

theorem ring_draws : (∀ a ∈ ring, a.Draws) ∧ ∃ a ∈ ring, a.Real := by
  refine ⟨?_, .circle true 2 (0, 0), by simp [ring], trivial⟩
  simp [ring, AmPrim.Draws]

theorem ring_shapes : ∃ x, groupShapes ring = .ok x := ⟨_, rfl⟩

/-- A ring, flashed twice, beside a line. -/
def ringFile : List String := ["%FSLAX24Y24*%", "%MOIN*%", "%AMRING*1,1,$1,0,0*1,0,$1/2,0,0*%", "%ADD10RING,2*%",
  "%ADD11C,2*%", "D10*", "X0Y0D03*", "X50000D03*", "D11*", "X100000Y0D02*", "X110000D01*", "M02*"]

theorem ring_primitives : ∃ f, readMacros ringFile = .ok f ∧ f.primitives =
    [.flash (.group ring) (0, 0) "dark" "inch", .flash (.group ring) (5, 0) "dark" "inch",
     .edge (.line (10, 0) (11, 0) ⟨.circle 2 {}, some "inch"⟩ "dark" "inch")] := by
  refine readMacros_one (b := "1,1,$1,0,0*1,0,$1/2,0,0".toList) (ms := [[2], [2]]) ⟨_, _, rfl, ?_, ?_⟩ ?_ ring_shapes ?_
  · decide +kernel
  · decide +kernel
  · intro m hm
    simp only [List.mem_cons, List.not_mem_nil, or_false, or_self] at hm
    subst hm
    decide +kernel
  · decide +kernel

theorem ring_image (p : Pt) (q : RPt) : q ∈ placed (toPlane p) 0 (Image ring) ↔
    1 / 4 < (q.1 - p.1) ^ 2 + (q.2 - p.2) ^ 2 ∧ (q.1 - p.1) ^ 2 + (q.2 - p.2) ^ 2 ≤ 1 := by
  rw [placed_zero, ring, mem_image_cons, mem_image_cons]
  simp only [AmPrim.exposed, Bool.false_eq_true, false_and, or_false, AmPrim.area, placed_zero, disc, toPlane]
  have : ∀ r : RPt, r ∉ Image [] := by
    rintro r ⟨_, _, _, h, -⟩
    simp at h
  simp only [this, false_or, true_and, List.mem_singleton, forall_eq, placed_zero, Set.mem_ofPred_eq]
  norm_num
  exact and_comm

example : ∃ f, readMacros ringFile = .ok f ∧ f.primitives ≠ [] ∧ (∀ P ∈ f.primitives, P.DrawsAll) ∧
    Apart f.primitives (5, 0) := by
  obtain ⟨f, h1, h2⟩ := ring_primitives
  refine ⟨f, h1, by simp [h2], ?_, ?_⟩
  · rw [h2]
    simp only [List.forall_mem_cons, List.not_mem_nil, false_imp_iff, implies_true, and_true]
    refine ⟨⟨ring_draws, fun _ _ _ _ _ => rfl⟩, ⟨ring_draws, fun _ _ _ _ _ => rfl⟩, ?_, fun _ _ _ _ h => by cases h⟩
    simp only [Prim.Builds, Prim.Draws, Edge.Draws]
    norm_num
  · rw [h2]
    rintro before P after he hr hi Q hQ
    rcases before with _ | ⟨_, _ | ⟨_, _ | ⟨_, _⟩⟩⟩
    · simp at hQ
    · simp only [List.nil_append, List.cons_append, List.cons.injEq] at he
      obtain ⟨rfl, -⟩ := he
      obtain rfl := List.mem_singleton.mp hQ
      simp only [Prim.image]
      rw [ring_image]
      norm_num
    · simp only [List.nil_append, List.cons_append, List.cons.injEq] at he
      obtain ⟨-, -, rfl, -⟩ := he
      exact absurd hr hi
    · simp at he

/-! ## Violations -/

/-- **C76 fails** for clear macros: they are painted like dark ones. -/
theorem C76_clear_violated {K : Engine} (hK : K.Winding) :
    ∃ f P b area, readMacros ["%FSLAX24Y24*%", "%MOIN*%", "%AMRING*1,1,2,0,0*1,0,1,0,0*%", "%ADD10RING*%", "%LPC*%",
        "D10*", "X0Y0D03*", "M02*"] = .ok f ∧
      f.primitives = [P] ∧ P.dark = false ∧ P.Builds ∧ Am.render K f = .ok
        { frame := some (Frame.of 300 b), hasBg := true,
          paints := [.background [0, 0, 0] 1, .layer [7215 / 10000, 451 / 1000, 200 / 1000] 1 area] } ∧
      (3 / 4, 0) ∈ P.image ∧ onPicture b 300 false (3 / 4, 0) ∈ area := by
  obtain ⟨f, h1, h2⟩ : ∃ f, readMacros ["%FSLAX24Y24*%", "%MOIN*%", "%AMRING*1,1,2,0,0*1,0,1,0,0*%", "%ADD10RING*%",
      "%LPC*%", "D10*", "X0Y0D03*", "M02*"] = .ok f ∧
      f.primitives = [.flash (.group ring) (0, 0) "clear" "inch"] := by
    refine readMacros_one (b := "1,1,2,0,0*1,0,1,0,0".toList) (ms := [[]]) ⟨_, _, rfl, ?_, ?_⟩ ?_ ring_shapes ?_
    · decide +kernel
    · decide +kernel
    · intro m hm
      simp only [List.mem_cons, List.not_mem_nil, or_false] at hm
      subst hm
      decide +kernel
    · decide +kernel
  have hB : (.flash (.group ring) (0, 0) "clear" "inch" : Prim (List AmPrim)).Builds := ring_draws
  obtain ⟨b, area, h3, -, -, h4⟩ := C76_layers_partial hK (f := f) (by simp [h2]) (by simpa [h2] using hB)
    (s := 300) (by norm_num)
  refine ⟨f, _, b, area, h1, h2, by decide, hB, h3, ?_, ?_⟩
  · simp only [Prim.image]
    rw [ring_image]
    norm_num
  · rw [h4]
    · rw [h2]
      simp only [List.flatMap_cons, List.flatMap_nil, List.append_nil, Prim.layers]
      rw [layers_dark, ring_image]
      norm_num
    · rw [h2]
      simp only [List.flatMap_cons, List.flatMap_nil, List.append_nil, Prim.layers, ring, AmPrim.layer,
        List.cons_append, List.nil_append, List.mem_cons, List.not_mem_nil, or_false,
        forall_eq_or_imp, forall_eq, AmPrim.area, placed_zero, disc, toPlane, Set.mem_ofPred_eq]
      refine ⟨fun _ => ⟨(0, 1), ?_, ?_⟩, fun h => absurd h ?_⟩ <;> norm_num

/-- **C76 fails** where a part is removed from a macro: what was drawn there before is removed too.  Here a ring is flashed
on a disc. -/
theorem C76_hole_violated {K : Engine} (hK : K.Winding) :
    ∃ f b area, readMacros ["%FSLAX24Y24*%", "%MOIN*%", "%AMRING*1,1,2,0,0*1,0,1,0,0*%", "%ADD10RING*%", "%ADD11C,4*%",
        "D11*", "X0Y0D03*", "D10*", "X0Y0D03*", "M02*"] = .ok f ∧
      (∀ P ∈ f.primitives, P.DrawsAll) ∧ Am.render K f = .ok
        { frame := some (Frame.of 300 b), hasBg := true,
          paints := [.background [0, 0, 0] 1, .layer [7215 / 10000, 451 / 1000, 200 / 1000] 1 area] } ∧
      LastDark (f.primitives.map fun P => (P.dark, P.image)) (0, 0) ∧ onPicture b 300 false (0, 0) ∉ area := by
  obtain ⟨f, h1, h2⟩ : ∃ f, readMacros ["%FSLAX24Y24*%", "%MOIN*%", "%AMRING*1,1,2,0,0*1,0,1,0,0*%", "%ADD10RING*%",
      "%ADD11C,4*%", "D11*", "X0Y0D03*", "D10*", "X0Y0D03*", "M02*"] = .ok f ∧
      f.primitives = [.flash (.circle 4 {}) (0, 0) "dark" "inch", .flash (.group ring) (0, 0) "dark" "inch"] := by
    refine readMacros_one (b := "1,1,2,0,0*1,0,1,0,0".toList) (ms := [[], [4]]) ⟨_, _, rfl, ?_, ?_⟩ ?_ ring_shapes ?_
    · decide +kernel
    · decide +kernel
    · intro m hm
      simp only [List.mem_cons, List.not_mem_nil, or_false] at hm
      rcases hm with rfl | rfl <;> decide +kernel
    · decide +kernel
  have hD : ∀ P ∈ f.primitives, P.DrawsAll := by
    rw [h2]
    simp only [List.forall_mem_cons, List.not_mem_nil, false_imp_iff, implies_true, and_true]
    refine ⟨⟨⟨by norm_num, .inr (by norm_num [Hole.NoRect])⟩, fun _ _ _ _ h => by cases h⟩, ring_draws, fun _ _ _ _ _ => rfl⟩
  obtain ⟨b, area, h3, -, -, h4⟩ := C76_layers_partial hK (f := f) (by simp [h2]) (fun P hP => (hD P hP).1)
    (s := 300) (by norm_num)
  refine ⟨f, b, area, h1, hD, h3, ?_, ?_⟩
  · rw [h2]
    refine ⟨[], _, [(true, placed (toPlane (0, 0)) 0 (Image ring))], rfl, ?_, ?_⟩
    · simp only [Prim.image, flash_area, placed_zero, Shape.area, Hole.area, toPlane, disc]
      norm_num
    · intro x hx
      obtain rfl := List.mem_singleton.mp hx
      rw [ring_image]
      norm_num
  · rw [h4]
    · rw [h2]
      simp only [List.flatMap_cons, List.flatMap_nil, List.append_nil]
      rw [lastDark_append]
      rintro (h | ⟨h, -⟩)
      · have h := (layers_dark ring _ _).mp h
        rw [ring_image] at h
        norm_num at h
      · refine h (true, placed (toPlane (0, 0)) 0 (AmPrim.circle true 2 (0, 0)).area)
          (by simp [Prim.layers, ring, AmPrim.layer, AmPrim.exposed]) ?_
        simp only [AmPrim.area, placed_zero, disc, toPlane]
        norm_num
    · rw [h2]
      simp only [List.flatMap_cons, List.flatMap_nil, List.append_nil, Prim.layers, ring, AmPrim.layer,
        List.cons_append, List.nil_append, List.mem_cons, List.not_mem_nil, or_false,
        forall_eq_or_imp, forall_eq, AmPrim.area, placed_zero, disc, toPlane, Set.mem_ofPred_eq]
      refine ⟨fun _ => ⟨(0, 2), ?_, ?_⟩, fun _ => ⟨(0, 1), ?_, ?_⟩, fun _ => ⟨(0, 1 / 2), ?_, ?_⟩⟩
      · rw [flash_area, placed_zero]
        simp only [Shape.area, Hole.area, toPlane, disc]
        norm_num
      all_goals norm_num

/-- **C76 fails** for macros of primitives that are never drawn, here a lower left line: the picture cannot be made at
all. -/
theorem C76_empty_violated (K : Engine) :
    ∃ f g, readMacros ["%FSLAX24Y24*%", "%MOIN*%", "%AMBOX*22,1,1,1,0,0,0*%", "%ADD10BOX*%", "D10*", "X0Y0D03*",
        "M02*"] = .ok f ∧
      f.primitives = [.flash (.group g) (0, 0) "dark" "inch"] ∧ (1 / 2, 1 / 2) ∈ Image g ∧
      ∀ c, Am.render K f c = .error .valueError := by
  obtain ⟨f, h1, h2⟩ : ∃ f, readMacros ["%FSLAX24Y24*%", "%MOIN*%", "%AMBOX*22,1,1,1,0,0,0*%", "%ADD10BOX*%", "D10*",
      "X0Y0D03*", "M02*"] = .ok f ∧
      f.primitives = [.flash (.group [.lowerLeft true 1 1 (0, 0) 0]) (0, 0) "dark" "inch"] := by
    refine readMacros_one (b := "22,1,1,1,0,0,0".toList) (ms := [[]]) ⟨_, _, rfl, ?_, ?_⟩ ?_
      (g := [.lowerLeft true 1 1 (0, 0) 0]) ⟨[], rfl⟩ ?_
    · decide +kernel
    · decide +kernel
    · intro m hm
      simp only [List.mem_cons, List.not_mem_nil, or_false] at hm
      subst hm
      decide +kernel
    · decide +kernel
  refine ⟨f, _, h1, h2, ⟨[], _, [], rfl, rfl, ?_, by simp⟩, fun c => ?_⟩
  · simp only [AmPrim.area, Rat.cast_zero, placed_zero, slab]
    norm_num
  · obtain ⟨stmts, settings, Ps⟩ := f
    simp only at h2
    subst h2
    rfl

/-- **C76 fails** for lines drawn with a macro: the picture cannot be made. -/
theorem C76_line_violated (K : Engine) :
    ∃ f, readMacros ["%FSLAX24Y24*%", "%MOIN*%", "%AMRING*1,1,2,0,0*1,0,1,0,0*%", "%ADD10RING*%", "D10*", "X0Y0D02*",
        "X10000D01*", "M02*"] = .ok f ∧
      f.primitives = [.edge (.line (0, 0) (1, 0) ⟨.group ring, some "inch"⟩ "dark" "inch")] ∧
      ∀ c, Am.render K f c = .error .attributeError := by
  obtain ⟨f, h1, h2⟩ : ∃ f, readMacros ["%FSLAX24Y24*%", "%MOIN*%", "%AMRING*1,1,2,0,0*1,0,1,0,0*%", "%ADD10RING*%",
      "D10*", "X0Y0D02*", "X10000D01*", "M02*"] = .ok f ∧
      f.primitives = [.edge (.line (0, 0) (1, 0) ⟨.group ring, some "inch"⟩ "dark" "inch")] := by
    refine readMacros_one (b := "1,1,2,0,0*1,0,1,0,0".toList) (ms := [[]]) ⟨_, _, rfl, ?_, ?_⟩ ?_ ring_shapes ?_
    · decide +kernel
    · decide +kernel
    · intro m hm
      simp only [List.mem_cons, List.not_mem_nil, or_false] at hm
      subst hm
      decide +kernel
    · decide +kernel
  refine ⟨f, h1, h2, fun c => ?_⟩
  obtain ⟨stmts, settings, Ps⟩ := f
  simp only at h2
  subst h2
  rfl

/-- The file of a dot, with something more. -/
def dotFile (extra : String) : List String := ["%FSLAX24Y24*%", "%MOIN*%", "%AMDOT*1,1,1,0,0*" ++ extra ++ "%",
  "%ADD10DOT*%", "D10*", "X0Y0D03*", "M02*"]

/-- The dot. -/
def dot : AmPrim := .circle true 1 (0, 0)

/-- **C76 fails** for macros with lower left lines and moire patterns: pictures are the same with and without them. -/
theorem C76_dropped_violated : ∃ f₁ f₂ f₃ g₁ g₂ g₃, readMacros (dotFile "") = .ok f₁ ∧
      readMacros (dotFile "22,1,1,1,2,2,0*") = .ok f₂ ∧ readMacros (dotFile "6,0,0,9,1,1,3,1,9,0*") = .ok f₃ ∧
      f₁.primitives = [.flash (.group g₁) (0, 0) "dark" "inch"] ∧
      f₂.primitives = [.flash (.group g₂) (0, 0) "dark" "inch"] ∧
      f₃.primitives = [.flash (.group g₃) (0, 0) "dark" "inch"] ∧
      (5 / 2, 5 / 2) ∈ Image g₂ ∧ (5 / 2, 5 / 2) ∉ Image g₁ ∧ (∃ p d t gap n ct cl r, .moire p d t gap n ct cl r ∈ g₃) ∧
      ∀ K c, Am.render K f₂ c = Am.render K f₁ c ∧ Am.render K f₃ c = Am.render K f₁ c := by
  obtain ⟨f₁, h1, k1⟩ : ∃ f, readMacros (dotFile "") = .ok f ∧
      f.primitives = [.flash (.group [dot]) (0, 0) "dark" "inch"] := by
    refine readMacros_one (b := "1,1,1,0,0".toList) (ms := [[]]) ⟨_, _, rfl, ?_, ?_⟩ ?_ (g := [dot]) ⟨_, rfl⟩ ?_
    · decide +kernel
    · decide +kernel
    · intro m hm
      simp only [List.mem_cons, List.not_mem_nil, or_false] at hm
      subst hm
      decide +kernel
    · decide +kernel
  obtain ⟨f₂, h2, k2⟩ : ∃ f, readMacros (dotFile "22,1,1,1,2,2,0*") = .ok f ∧
      f.primitives = [.flash (.group [dot, .lowerLeft true 1 1 (2, 2) 0]) (0, 0) "dark" "inch"] := by
    refine readMacros_one (b := "1,1,1,0,0*22,1,1,1,2,2,0".toList) (ms := [[]]) ⟨_, _, rfl, ?_, ?_⟩ ?_
      (g := [dot, .lowerLeft true 1 1 (2, 2) 0]) ⟨_, rfl⟩ ?_
    · decide +kernel
    · decide +kernel
    · intro m hm
      simp only [List.mem_cons, List.not_mem_nil, or_false] at hm
      subst hm
      decide +kernel
    · decide +kernel
  obtain ⟨f₃, h3, k3⟩ : ∃ f, readMacros (dotFile "6,0,0,9,1,1,3,1,9,0*") = .ok f ∧
      f.primitives = [.flash (.group [dot, .moire (0, 0) 9 1 1 3 1 9 0]) (0, 0) "dark" "inch"] := by
    refine readMacros_one (b := "1,1,1,0,0*6,0,0,9,1,1,3,1,9,0".toList) (ms := [[]]) ⟨_, _, rfl, ?_, ?_⟩ ?_
      (g := [dot, .moire (0, 0) 9 1 1 3 1 9 0]) ⟨_, rfl⟩ ?_
    · decide +kernel
    · decide +kernel
    · intro m hm
      simp only [List.mem_cons, List.not_mem_nil, or_false] at hm
      subst hm
      decide +kernel
    · decide +kernel
  refine ⟨f₁, f₂, f₃, _, _, _, h1, h2, h3, k1, k2, k3, ⟨[dot], _, [], rfl, rfl, ?_, by simp⟩, ?_, ⟨_, _, _, _, _, _, _, _,
    List.mem_cons_of_mem _ (List.mem_singleton_self _)⟩, fun K c => ?_⟩
  · simp only [AmPrim.area, Rat.cast_zero, placed_zero, slab]
    norm_num
  · rw [mem_image_cons]
    rintro (⟨_, _, _, h, -⟩ | ⟨-, h, -⟩)
    · simp at h
    · simp only [dot, AmPrim.area, placed_zero, disc, Set.mem_ofPred_eq] at h
      norm_num at h
  · obtain ⟨_, _, P1⟩ := f₁
    obtain ⟨_, _, P2⟩ := f₂
    obtain ⟨_, _, P3⟩ := f₃
    simp only at k1 k2 k3
    subst k1 k2 k3
    exact ⟨rfl, rfl⟩

end Verif.Gerber
