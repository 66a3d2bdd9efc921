import Verif.Model.Main
import Verif.Props.CairoFrame
import Verif.Props.Layers
import Verif.Props.Theme

/-! # C72: the command line program -/

namespace Verif.Cli

open Verif.Py Verif.Cairo Verif.Render Verif.Geom

/-! ## What the pictures of a board are to show -/

namespace Spec

/-- The outline of the board, if there is one. -/
def outline (layers : List Layers.Layer) : List Layers.Layer := (layers.find? (·.cls = "outline")).toList

/-- The layers on the top side, from the board outwards. -/
def topSide (layers : List Layers.Layer) : List Layers.Layer :=
  (layers.filter (·.cls = "top")).reverse ++ (layers.filter (·.cls = "topmask")).reverse ++
    (layers.filter (·.cls = "topsilk")).reverse

/-- The layers on the bottom side, from the board outwards. -/
def bottomSide (layers : List Layers.Layer) : List Layers.Layer :=
  layers.filter (·.cls = "bottom") ++ layers.filter (·.cls = "bottommask") ++ layers.filter (·.cls = "bottomsilk")

/-- A side of a board: the outline and the layers of the side, with the holes that reach the side behind the first
of them. -/
def SideShown (layers : List Layers.Layer) (side : String) (outwards shown : List Layers.Layer) : Prop :=
  ∃ first rest, first :: rest = outwards ∧
    shown = outline layers ++ first :: layers.filter (fun l => l.cls = "drill" ∧ side ∈ l.sides.getD []) ++ rest

/-- The copper of a board: the outline, all copper layers from bottom to top, and the holes. -/
def CopperShown (layers holes shown : List Layers.Layer) : Prop :=
  ∃ internal, internal.Perm (layers.filter (·.cls = "internal")) ∧
    shown = outline layers ++ (layers.filter (·.cls = "top") ++ internal ++ layers.filter (·.cls = "bottom")).reverse ++
      holes

/-- The picture shows the layers with the settings of the theme, on the background of the theme `bg`, in the frame of
the first of them at some scale. -/
def Pictured (K : Engine) (prims : Layers.Layer → List Prim) (bg t : FullTheme) (shown : List Layers.Layer)
    (c : Cairo.Ctx) (s : ℝ) (b : Box) : Prop :=
  ∃ ps, (shown.head?.bind fun l => (drawn prims l).bounds) = some b ∧ c.frame = some (Frame.of s b) ∧
    Painted K (Frame.of s b) t (shown.map (drawn prims)) ps ∧
    c.paints = .background bg.background.color bg.background.alpha :: ps

/-- The picture also has at most the size asked for. -/
def Fitting (K : Engine) (a : Args) (prims : Layers.Layer → List Prim) (t : FullTheme) (shown : List Layers.Layer)
    (c : Cairo.Ctx) : Prop :=
  ∃ s b, Pictured K prims t t shown c s b ∧ (0 ≤ a.width → 0 ≤ a.height → Ordered b →
    (Frame.of s b).sizePx.1 ≤ a.width ∧ (Frame.of s b).sizePx.2 ≤ a.height)

end Spec

/-! ## Lemmas -/

theorem start_eq {name : String} {t : FullTheme} (h : (name, t) ∈ themes) : Store.start name = t := by
  have : ∀ x ∈ themes, Store.start x.1 = x.2 := by decide +kernel
  exact this _ h

theorem get_same {t : FullTheme} {cls : String} (h : cls ≠ "internal") : (t.get cls).1 = t := by
  unfold FullTheme.get
  rw [if_neg h]
  split_ifs <;> rfl

theorem renderAll_theme {K : Engine} {bg : Settings} (ls : List Layer) : ∀ {c c' : Cairo.Ctx} {t t' : FullTheme},
    (∀ l ∈ ls, l.cls ≠ "internal") → c.renderAll K bg t ls = .ok (c', t') → t' = t := by
  induction ls with
  | nil =>
    intro c c' t t' _ h
    simp only [Ctx.renderAll] at h
    injection h with h
    injection h with h1 h2
    exact h2.symm
  | cons l ls ih =>
    intro c c' t t' hn h
    simp only [Ctx.renderAll] at h
    have hg := get_same (t := t) (hn l (by simp))
    split at h
    · cases h
    · rename_i t1 s hs
      rw [hs] at hg
      simp only at hg
      subst hg
      simp only [bind, Except.bind] at h
      cases h1 : c.renderLayer K l s bg with
      | error e => rw [h1] at h; cases h
      | ok c1 =>
        rw [h1] at h
        exact ih (fun l hl => hn l (List.mem_cons_of_mem _ hl)) h

theorem renderLayers_theme {K : Engine} {c c' : Cairo.Ctx} {t t' : FullTheme} {ls : List Layer} {w h : ℝ}
    (hn : ∀ l ∈ ls, l.cls ≠ "internal") (hr : c.renderLayers K ls t w h = .ok (c', t')) : t' = t := by
  simp only [Ctx.renderLayers, bind, Except.bind] at hr
  cases hs : fitScale (ranges ls) w h with
  | error e => rw [hs] at hr; cases hr
  | ok s =>
    rw [hs] at hr
    exact renderAll_theme ls hn hr

theorem fitting {K : Engine} {a : Args} {prims : Layers.Layer → List Prim} {t t' : FullTheme} {shown : List Layers.Layer}
    {c c' : Cairo.Ctx} (h : c.renderLayers K (shown.map (drawn prims)) t a.width a.height = .ok (c', t'))
    (hf : c'.frame.isNone ≠ true) : Spec.Fitting K a prims t shown c' := by
  cases shown with
  | nil =>
    exfalso
    simp only [Ctx.renderLayers, bind, Except.bind, List.map_nil] at h
    cases hs : fitScale (ranges []) a.width a.height with
    | error e => rw [hs] at h; cases h
    | ok s =>
      rw [hs] at h
      simp only [Ctx.renderAll] at h
      injection h with h
      injection h with h1 h2
      subst h1
      simp [Ctx.clear] at hf
  | cons l ls =>
    rw [List.map_cons] at h
    obtain ⟨s, b, ps, h1, h2, h3, h4, h5⟩ := C65_layers h
    refine ⟨s, b, ⟨ps, by simpa using h2, h3, by simpa using h4, h5⟩, fun hw hh ho => ?_⟩
    exact C65_fits h1 (by exact_mod_cast hw) (by exact_mod_cast hh) ho (C65_ranges (by simp) h2)

/-- The pictures made without exception. -/
inductive Rendered (K : Engine) (a : Args) (prims : Layers.Layer → List Prim) :
    Store → List (Str × String × List Layers.Layer) → List (Str × Cairo.Ctx) → Prop
  | nil (S) : Rendered K a prims S [] []
  | cons {S S' : Store} {file : Str} {name : String} {shown : List Layers.Layer} {c : Cairo.Ctx} {more files}
      (hS : (∀ l ∈ shown, l.cls ≠ "internal") → S' = S) (h : Spec.Fitting K a prims (S name) shown c)
      (hr : Rendered K a prims S' more files) :
      Rendered K a prims S ((file, name, shown) :: more) ((file, c) :: files)

theorem rendered {K : Engine} {a : Args} {prims : Layers.Layer → List Prim}
    (ps : List (Str × String × List Layers.Layer)) : ∀ {c : Cairo.Ctx} {S : Store} {files : List (Str × Cairo.Ctx)},
    renderPictures K a prims c S ps = (files, none) → Rendered K a prims S ps files := by
  induction ps with
  | nil =>
    intro c S files h
    simp only [renderPictures, Prod.mk.injEq] at h
    obtain ⟨h, -⟩ := h
    subst h
    exact .nil _
  | cons p ps ih =>
    obtain ⟨file, name, shown⟩ := p
    intro c S files h
    simp only [renderPictures] at h
    split at h
    · simp at h
    · rename_i c' t' hr
      split at h
      · simp at h
      · rename_i hf
        simp only [Prod.mk.injEq] at h
        obtain ⟨h1, h2⟩ := h
        subst h1
        refine .cons (S' := Function.update S name t') (fun hn => ?_) (fitting hr hf) (ih (c := c') (Prod.ext rfl h2))
        rw [renderLayers_theme (by
          intro l hl
          simp only [List.mem_map] at hl
          obtain ⟨x, hx, rfl⟩ := hl
          exact hn x hx) hr]
        exact Function.update_eq_self ..

theorem outline_eq {layers board : List Layers.Layer} (h : Layers.pcb layers = .ok board) :
    (Layers.outlineLayer board).toList = Spec.outline layers := by
  rw [(Layers.C38_outline layers board h).1]
  rfl

theorem pictures_eq {a : Args} {layers board : List Layers.Layer} (h : Layers.pcb layers = .ok board)
    (hd : ∀ l ∈ layers, l.cls = "drill" → l.sides.isSome)
    (ht : ∃ l ∈ layers, l.cls = "top" ∨ l.cls = "topmask" ∨ l.cls = "topsilk")
    (hb : ∃ l ∈ layers, l.cls = "bottom" ∨ l.cls = "bottommask" ∨ l.cls = "bottomsilk") :
    ∃ top bottom copper, boardPictures a board =
        .ok [(pictureFile a "top", a.theme, top), (pictureFile a "bottom", a.theme, bottom),
          (pictureFile a "copper", "Transparent Multilayer", copper)] ∧
      Spec.SideShown layers "top" (Spec.topSide layers) top ∧
      Spec.SideShown layers "bottom" (Spec.bottomSide layers) bottom ∧
      ∃ holes, Spec.CopperShown layers holes copper ∧
        holes = if Spec.outline layers = [] then [] else layers.filter (·.cls = "drill") := by
  obtain ⟨f, r, h1, h2⟩ := Layers.C38_top_view_partial layers board h hd ht
  obtain ⟨f', r', h3, h4⟩ := Layers.C38_bottom_view_partial layers board h hd hb
  obtain ⟨-, ⟨int, h5, h6⟩, -⟩ := Layers.C38_copper layers board h
  have ho := outline_eq h
  unfold boardPictures
  rw [h2, h4]
  simp only [bind, Except.bind]
  cases hl : Layers.outlineLayer board with
  | none =>
    rw [hl] at ho
    simp only [Option.toList_none] at ho
    refine ⟨_, _, _, rfl, ⟨f, r, h1, by rw [← ho]; simp⟩, ⟨f', r', h3, by rw [← ho]; simp⟩, [], ⟨int, h5, ?_⟩, ?_⟩
    · rw [← ho, ← h6, List.reverse_reverse]; simp
    · rw [← ho, if_pos rfl]
  | some o =>
    rw [hl] at ho
    simp only [Option.toList_some] at ho
    refine ⟨_, _, _, rfl, ⟨f, r, h1, by rw [← ho]; simp⟩, ⟨f', r', h3, by rw [← ho]; simp⟩,
      layers.filter (·.cls = "drill"), ⟨int, h5, ?_⟩, ?_⟩
    · rw [← ho, ← h6, Layers.drills_eq h, List.reverse_reverse]
    · rw [← ho, if_neg (by simp)]

theorem side_no_internal {layers shown : List Layers.Layer} {side : String} {out : List Layers.Layer}
    (hs : Spec.SideShown layers side out shown) (ho : ∀ l ∈ out, l.cls ≠ "internal") :
    ∀ l ∈ shown, l.cls ≠ "internal" := by
  obtain ⟨f, r, h1, rfl⟩ := hs
  subst h1
  intro l hl
  simp only [List.mem_append, List.mem_cons, List.mem_filter] at hl
  rcases hl with (hl | hl | hl) | hl
  · have : l ∈ layers.find? (·.cls = "outline") := by simpa [Spec.outline] using hl
    have := List.find?_some this
    simp only [decide_eq_true_eq] at this
    rw [this]
    decide
  · exact ho l (by simp [hl])
  · have := hl.2
    simp only [decide_eq_true_eq] at this
    rw [this.1]
    decide
  · exact ho l (by simp [hl])

theorem topSide_cls {layers : List Layers.Layer} : ∀ l ∈ Spec.topSide layers, l.cls ≠ "internal" := by
  intro l hl
  simp only [Spec.topSide, List.mem_append, List.mem_reverse, List.mem_filter, decide_eq_true_eq] at hl
  rcases hl with (⟨-, h⟩ | ⟨-, h⟩) | ⟨-, h⟩ <;> rw [h] <;> decide

theorem bottomSide_cls {layers : List Layers.Layer} : ∀ l ∈ Spec.bottomSide layers, l.cls ≠ "internal" := by
  intro l hl
  simp only [Spec.bottomSide, List.mem_append, List.mem_filter, decide_eq_true_eq] at hl
  rcases hl with (⟨-, h⟩ | ⟨-, h⟩) | ⟨-, h⟩ <;> rw [h] <;> decide

/-! ## Boards -/

theorem board_files {K : Engine} {a : Args} {prims : Layers.Layer → List Prim} {layers board : List Layers.Layer}
    (h : Layers.pcb layers = .ok board) (hd : ∀ l ∈ layers, l.cls = "drill" → l.sides.isSome)
    (ht : ∃ l ∈ layers, l.cls = "top" ∨ l.cls = "topmask" ∨ l.cls = "topsilk")
    (hb : ∃ l ∈ layers, l.cls = "bottom" ∨ l.cls = "bottommask" ∨ l.cls = "bottomsilk")
    {files : List (Str × Cairo.Ctx)} (hr : main K a prims (.directory (.ok board)) = (files, none)) :
    ∃ top bottom copper holes c₁ c₂ c₃,
      files = [(pictureFile a "top", c₁), (pictureFile a "bottom", c₂), (pictureFile a "copper", c₃)] ∧
      Spec.SideShown layers "top" (Spec.topSide layers) top ∧ Spec.Fitting K a prims (Store.start a.theme) top c₁ ∧
      Spec.SideShown layers "bottom" (Spec.bottomSide layers) bottom ∧
      Spec.Fitting K a prims (Store.start a.theme) bottom c₂ ∧
      Spec.CopperShown layers holes copper ∧
      Spec.Fitting K a prims (Store.start "Transparent Multilayer") copper c₃ ∧
      holes = if Spec.outline layers = [] then [] else layers.filter (·.cls = "drill") := by
  obtain ⟨top, bottom, copper, hp, h1, h2, holes, h3, h4⟩ := pictures_eq (a := a) h hd ht hb
  simp only [main, Except.bind, hp] at hr
  have hR := rendered _ hr
  cases hR with
  | cons s1 f1 r1 =>
    cases r1 with
    | cons s2 f2 r2 =>
      cases r2 with
      | cons s3 f3 r3 =>
        cases r3
        have e1 := s1 (side_no_internal h1 topSide_cls)
        subst e1
        have e2 := s2 (side_no_internal h2 bottomSide_cls)
        subst e2
        exact ⟨top, bottom, copper, holes, _, _, _, rfl, h1, f1, h2, f2, h3, f3, h4⟩

/-- **C72 for boards** with an outline and with layers on both sides: if the program ends without exception, it has
written three pictures, of the top side, the bottom side and the copper, named after the output file, each at most as
large as asked for.  The sides have the theme asked for, the copper has `Transparent Multilayer`.  Missing: boards
without an outline (`C72_copper_violated`), boards with layers on one side only (`C72_one_side_violated`). -/
theorem C72_board_partial {K : Engine} {a : Args} {prims : Layers.Layer → List Prim} {layers board : List Layers.Layer}
    (h : Layers.pcb layers = .ok board) (hd : ∀ l ∈ layers, l.cls = "drill" → l.sides.isSome)
    (ht : ∃ l ∈ layers, l.cls = "top" ∨ l.cls = "topmask" ∨ l.cls = "topsilk")
    (hb : ∃ l ∈ layers, l.cls = "bottom" ∨ l.cls = "bottommask" ∨ l.cls = "bottomsilk")
    (ho : ∃ l ∈ layers, l.cls = "outline") {out : Str}
    (hout : a.outfile = some out) {theme multi : FullTheme} (htheme : (a.theme, theme) ∈ themes)
    (hmulti : ("Transparent Multilayer", multi) ∈ themes) {files : List (Str × Cairo.Ctx)}
    (hr : main K a prims (.directory (.ok board)) = (files, none)) :
    ∃ top bottom copper c₁ c₂ c₃,
      files = [(out ++ ".top.png".toList, c₁), (out ++ ".bottom.png".toList, c₂), (out ++ ".copper.png".toList, c₃)] ∧
      Spec.SideShown layers "top" (Spec.topSide layers) top ∧ Spec.Fitting K a prims theme top c₁ ∧
      Spec.SideShown layers "bottom" (Spec.bottomSide layers) bottom ∧ Spec.Fitting K a prims theme bottom c₂ ∧
      Spec.CopperShown layers (layers.filter (·.cls = "drill")) copper ∧ Spec.Fitting K a prims multi copper c₃ := by
  obtain ⟨top, bottom, copper, holes, c₁, c₂, c₃, h0, h1, f1, h2, f2, h3, f3, h4⟩ := board_files h hd ht hb hr
  rw [start_eq htheme] at f1 f2
  rw [start_eq hmulti] at f3
  rw [if_neg] at h4
  · rw [h4] at h3
    refine ⟨top, bottom, copper, c₁, c₂, c₃, ?_, h1, f1, h2, f2, h3, f3⟩
    rw [h0]
    simp [pictureFile, hout]
  · obtain ⟨l, hl1, hl2⟩ := ho
    intro hq
    have : layers.find? (·.cls = "outline") = none := by
      cases hf : layers.find? (·.cls = "outline") with
      | none => rfl
      | some x => rw [Spec.outline, hf] at hq; simp at hq
    rw [List.find?_eq_none] at this
    exact this l hl1 (by simp [hl2])

theorem painted_length {K : Engine} {f : Frame} {t : FullTheme} {ls : List Layer} {ps : List Paint}
    (h : Painted K f t ls ps) : ps.length = ls.length := by
  induction h with
  | nil => rfl
  | cons _ _ _ ih => simp [ih]

theorem painted_internal {K : Engine} {f : Frame} {t : FullTheme} {ls : List Layer} {ps : List Paint}
    (h : Painted K f t ls ps) :
    (ls.filter (·.cls = "internal")).length ≤ (t.inner.gen.getD t.inner.internal).length := by
  induction h with
  | nil => simp
  | @cons t t' l ls s area ps hs ha h ih =>
    by_cases hi : l.cls = "internal"
    · rw [List.filter_cons_of_pos (by simp [hi]), List.length_cons]
      have hg : t.get "internal" = ({ t with inner := t.inner.request.1 }, t.inner.request.2) := rfl
      rw [hi, hg] at hs
      unfold Theme.request at hs
      cases hq : t.inner.gen.getD t.inner.internal with
      | nil => rw [hq] at hs; simp at hs
      | cons s r =>
        rw [hq] at hs
        simp only [Prod.mk.injEq] at hs
        rw [← hs.1] at ih
        simpa using ih
    · rw [List.filter_cons_of_neg (by simp [hi])]
      have := get_same (t := t) hi
      rw [hs] at this
      simp only at this
      rw [← this]
      exact ih

theorem copper_length (ls : List Layers.Layer) :
    (ls.filter fun l => l.cls = "top" ∨ l.cls = "internal" ∨ l.cls = "bottom").length =
      (ls.filter (·.cls = "top")).length + (ls.filter (·.cls = "internal")).length +
        (ls.filter (·.cls = "bottom")).length := by
  induction ls with
  | nil => rfl
  | cons l ls ih =>
    have d1 : "top" ≠ "internal" := by decide
    have d2 : "top" ≠ "bottom" := by decide
    have d3 : "internal" ≠ "bottom" := by decide
    simp only [List.filter_cons, decide_eq_true_eq]
    by_cases c1 : l.cls = "top"
    · rw [if_pos (Or.inl c1), if_pos c1, if_neg (c1 ▸ d1), if_neg (c1 ▸ d2)]
      simp only [List.length_cons, ih]
      omega
    · by_cases c2 : l.cls = "internal"
      · rw [if_pos (Or.inr (Or.inl c2)), if_neg c1, if_pos c2, if_neg (c2 ▸ d3)]
        simp only [List.length_cons, ih]
        omega
      · by_cases c3 : l.cls = "bottom"
        · rw [if_pos (Or.inr (Or.inr c3)), if_neg c1, if_neg c2, if_pos c3]
          simp only [List.length_cons, ih]
          omega
        · rw [if_neg (by tauto), if_neg c1, if_neg c2, if_neg c3, ih]

/-- Violation: on a board without an outline layer the picture of the copper shows nothing but the copper: as many
areas as there are copper layers, and no holes. -/
theorem C72_copper_violated {K : Engine} {a : Args} {prims : Layers.Layer → List Prim} {layers board : List Layers.Layer}
    (h : Layers.pcb layers = .ok board) (hd : ∀ l ∈ layers, l.cls = "drill" → l.sides.isSome)
    (ht : ∃ l ∈ layers, l.cls = "top" ∨ l.cls = "topmask" ∨ l.cls = "topsilk")
    (hb : ∃ l ∈ layers, l.cls = "bottom" ∨ l.cls = "bottommask" ∨ l.cls = "bottomsilk")
    (ho : ∀ l ∈ layers, l.cls ≠ "outline") {files : List (Str × Cairo.Ctx)}
    (hr : main K a prims (.directory (.ok board)) = (files, none)) :
    ∃ f c, f ∈ files ∧ f.2 = c ∧ f.1 = pictureFile a "copper" ∧
      c.paints.length = 1 + (layers.filter fun l => l.cls = "top" ∨ l.cls = "internal" ∨ l.cls = "bottom").length := by
  obtain ⟨top, bottom, copper, holes, c₁, c₂, c₃, h0, h1, f1, h2, f2, h3, f3, h4⟩ := board_files h hd ht hb hr
  refine ⟨(pictureFile a "copper", c₃), c₃, by simp [h0], rfl, rfl, ?_⟩
  have hno : Spec.outline layers = [] := by
    have : layers.find? (·.cls = "outline") = none := by
      rw [List.find?_eq_none]
      intro l hl
      simpa using ho l hl
    rw [Spec.outline, this]
    rfl
  rw [if_pos hno] at h4
  subst h4
  obtain ⟨int, i1, i2⟩ := h3
  obtain ⟨s, b, ⟨ps, -, -, p1, p2⟩, -⟩ := f3
  rw [p2, List.length_cons, painted_length p1, List.length_map, i2, hno]
  rw [copper_length layers]
  have := i1.length_eq
  simp only [List.nil_append, List.append_nil, List.length_reverse, List.length_append]
  omega

/-- Violation: without a layer on one of the sides nothing is written, not even the picture of the other side. -/
theorem C72_one_side_violated {K : Engine} {a : Args} {prims : Layers.Layer → List Prim}
    {layers board : List Layers.Layer} (h : Layers.pcb layers = .ok board)
    (hd : ∀ l ∈ layers, l.cls = "drill" → l.sides.isSome)
    (hs : (∀ l ∈ layers, l.cls ≠ "top" ∧ l.cls ≠ "topmask" ∧ l.cls ≠ "topsilk") ∨
      (∀ l ∈ layers, l.cls ≠ "bottom" ∧ l.cls ≠ "bottommask" ∧ l.cls ≠ "bottomsilk")) :
    main K a prims (.directory (.ok board)) = ([], some .indexError) := by
  have : boardPictures a board = .error .indexError := by
    unfold boardPictures
    by_cases ht : ∃ l ∈ layers, l.cls = "top" ∨ l.cls = "topmask" ∨ l.cls = "topsilk"
    · obtain ⟨f, r, -, h2⟩ := Layers.C38_top_view_partial layers board h hd ht
      rcases hs with hs | hs
      · obtain ⟨l, hl, hc⟩ := ht
        have := hs l hl
        tauto
      · rw [h2, Layers.C38_no_bottom_view layers board h hd hs]
        rfl
    · push Not at ht
      rw [Layers.C38_no_view layers board h hd ht]
      rfl
  simp only [main, Except.bind, this]

theorem get_ok {t : FullTheme} {l : Layer} {ls : List Layer}
    (hn : ((l :: ls).filter (·.cls = "internal")).length ≤ (t.inner.gen.getD t.inner.internal).length) :
    ∃ t' s, t.get l.cls = (t', .ok s) ∧
      (ls.filter (·.cls = "internal")).length ≤ (t'.inner.gen.getD t'.inner.internal).length := by
  by_cases hi : l.cls = "internal"
  · rw [List.filter_cons_of_pos (by simp [hi]), List.length_cons] at hn
    have hg : t.get "internal" = ({ t with inner := t.inner.request.1 }, t.inner.request.2) := rfl
    rw [hi, hg]
    unfold Theme.request
    cases hq : t.inner.gen.getD t.inner.internal with
    | nil => rw [hq] at hn; simp at hn
    | cons s r =>
      rw [hq] at hn
      exact ⟨_, s, rfl, by simpa using hn⟩
  · rw [List.filter_cons_of_neg (by simp [hi])] at hn
    have h1 := get_same (t := t) hi
    have h2 : ∃ s, (t.get l.cls).2 = .ok s := by
      unfold FullTheme.get
      split_ifs <;> exact ⟨_, rfl⟩
    obtain ⟨s, hs⟩ := h2
    exact ⟨t, s, Prod.ext h1 hs, hn⟩

/-- Drawing without exception: the rest of a list of layers, when the theme has enough settings for internal layers. -/
theorem renderAll_ok {K : Engine} {bg : Settings} {f : Frame} (ls : List Layer) : ∀ {c : Cairo.Ctx} {t : FullTheme},
    c.count ≠ 0 → c.frame = some f →
    (∀ l ∈ ls, ∀ i m, ∃ A, K.layer f i m l.prims = .ok A) →
    (ls.filter (·.cls = "internal")).length ≤ (t.inner.gen.getD t.inner.internal).length →
    ∃ c' t', c.renderAll K bg t ls = .ok (c', t') ∧ c'.frame = some f := by
  induction ls with
  | nil => exact fun {c t} _ hf _ _ => ⟨c, t, rfl, hf⟩
  | cons l ls ih =>
    intro c t hc hf hp hn
    obtain ⟨t1, s, hs, hn'⟩ := get_ok hn
    obtain ⟨A, hA⟩ := hp l (by simp) s.invert s.mirror
    simp only [Ctx.renderAll, hs, Ctx.renderLayer, if_neg hc, bind, Except.bind, Ctx.paintLayer, hf, hA]
    exact ih (by simp) rfl (fun l hl => hp l (List.mem_cons_of_mem _ hl)) hn'

theorem renderLayers_ok {K : Engine} {t : FullTheme} {l : Layer} {ls : List Layer} {b : Box} {w h : ℝ} (c : Cairo.Ctx)
    (hl : l.bounds = some b) (hx : b.1.1 < b.1.2) (hy : b.2.1 < b.2.2)
    (hp : ∀ x ∈ l :: ls, ∀ f i m, ∃ A, K.layer f i m x.prims = .ok A)
    (hn : ((l :: ls).filter (·.cls = "internal")).length ≤ (t.inner.gen.getD t.inner.internal).length) :
    ∃ c' t', c.renderLayers K (l :: ls) t w h = .ok (c', t') ∧ c'.frame.isNone ≠ true := by
  obtain ⟨r1, r2, r3, r4⟩ := C65_ranges (layers := l :: ls) (by simp) hl
  obtain ⟨s, hs⟩ : ∃ s, fitScale (ranges (l :: ls)) w h = .ok s := by
    unfold fitScale
    rw [if_neg]
    · exact ⟨_, rfl⟩
    · push Not
      exact ⟨by linarith, by linarith⟩
  simp only [Ctx.renderLayers, hs, bind, Except.bind]
  obtain ⟨t1, st, hst, hn'⟩ := get_ok hn
  obtain ⟨A, hA⟩ := hp l (by simp) (Frame.of s b) st.invert st.mirror
  simp only [Ctx.renderAll, hst, Ctx.renderLayer, hl, Option.none_or, bind, Except.bind, Ctx.paintLayer,
    Ctx.paintBackground, Ctx.setBounds, Ctx.clear, Option.getD_none]
  simp only [Bool.false_eq_true, if_false, hA]
  obtain ⟨c', t', h1, h2⟩ := renderAll_ok (K := K) (bg := t.background) (f := Frame.of s b) ls (t := t1)
    (c := { scale := s, frame := some (Frame.of s b), paints := [.background t.background.color t.background.alpha,
      .layer st.color st.alpha A], hasBg := true, count := 1 }) (by simp) rfl
    (fun x hx => hp x (List.mem_cons_of_mem _ hx) _) hn'
  exact ⟨c', t', h1, by simp [h2]⟩

theorem filter_other {ls : List Layers.Layer} {c d : String} (h : c ≠ d) :
    (ls.filter (·.cls = c)).filter (·.cls = d) = [] := by
  rw [List.filter_eq_nil_iff]
  intro x hx
  have : x.cls = c := by simpa using (List.mem_filter.mp hx).2
  simp [this, h]

theorem outline_mem {layers : List Layers.Layer} {l : Layers.Layer} (h : l ∈ Spec.outline layers) :
    l ∈ layers ∧ l.cls = "outline" := by
  have h' : layers.find? (·.cls = "outline") = some l := by simpa [Spec.outline] using h
  exact ⟨List.mem_of_find?_eq_some h', by simpa using List.find?_some h'⟩

theorem copper_internal {layers holes shown : List Layers.Layer} (h : Spec.CopperShown layers holes shown)
    (hh : holes = if Spec.outline layers = [] then [] else layers.filter (·.cls = "drill")) :
    (shown.filter (·.cls = "internal")).length = (layers.filter (·.cls = "internal")).length := by
  obtain ⟨int, h1, rfl⟩ := h
  have e1 : (Spec.outline layers).filter (·.cls = "internal") = [] := by
    rw [List.filter_eq_nil_iff]
    intro x hx
    simp [(outline_mem hx).2]
  have e2 : holes.filter (·.cls = "internal") = [] := by
    rw [hh]
    split_ifs
    · rfl
    · exact filter_other (by decide)
  have e3 : int.filter (·.cls = "internal") = int := by
    rw [List.filter_eq_self]
    intro x hx
    simpa using (List.mem_filter.mp (h1.mem_iff.mp hx)).2
  rw [List.filter_append, List.filter_append, e1, e2, List.filter_reverse, List.filter_append, List.filter_append, e3,
    filter_other (by decide), filter_other (by decide)]
  simpa using h1.length_eq

theorem drawn_internal (prims : Layers.Layer → List Prim) (shown : List Layers.Layer) :
    ((shown.map (drawn prims)).filter (·.cls = "internal")).length = (shown.filter (·.cls = "internal")).length := by
  rw [List.filter_map, List.length_map]
  rfl

/-- Violation: a board with more than six internal layers, which take the settings of the theme one by one, has no
picture of the copper. -/
theorem C72_many_violated {K : Engine} {a : Args} {prims : Layers.Layer → List Prim} {layers board : List Layers.Layer}
    (h : Layers.pcb layers = .ok board) (hd : ∀ l ∈ layers, l.cls = "drill" → l.sides.isSome)
    (ht : ∃ l ∈ layers, l.cls = "top" ∨ l.cls = "topmask" ∨ l.cls = "topsilk")
    (hb : ∃ l ∈ layers, l.cls = "bottom" ∨ l.cls = "bottommask" ∨ l.cls = "bottomsilk")
    (hn : 6 < (layers.filter (·.cls = "internal")).length) (files : List (Str × Cairo.Ctx)) :
    main K a prims (.directory (.ok board)) ≠ (files, none) := by
  intro hr
  obtain ⟨top, bottom, copper, holes, c₁, c₂, c₃, h0, h1, f1, h2, f2, h3, f3, h4⟩ := board_files h hd ht hb hr
  obtain ⟨s, b, ⟨ps, -, -, p1, -⟩, -⟩ := f3
  have := painted_internal p1
  rw [drawn_internal, copper_internal h3 h4] at this
  have e : ((Store.start "Transparent Multilayer").inner.gen.getD
    (Store.start "Transparent Multilayer").inner.internal).length = 6 := by decide +kernel
  omega

theorem shown_ok {K : Engine} {a : Args} {prims : Layers.Layer → List Prim} {S : Store} {name : String} {file : Str}
    {o : Layers.Layer} {ls : List Layers.Layer} {more} (c : Cairo.Ctx) {b : Layers.Box} (hb : o.bounds = some b)
    (hx : b.1.1 < b.1.2) (hy : b.2.1 < b.2.2)
    (hp : ∀ l ∈ o :: ls, ∀ f i m, ∃ A, K.layer f i m (prims l) = .ok A)
    (hn : ((o :: ls).filter (·.cls = "internal")).length ≤ ((S name).inner.gen.getD (S name).inner.internal).length) :
    ∃ c' t', ((∀ l ∈ o :: ls, l.cls ≠ "internal") → t' = S name) ∧
      renderPictures K a prims c S ((file, name, o :: ls) :: more) =
        ((file, c') :: (renderPictures K a prims c' (Function.update S name t') more).1,
          (renderPictures K a prims c' (Function.update S name t') more).2) := by
  obtain ⟨c', t', h1, h2⟩ := renderLayers_ok (K := K) (t := S name) (l := drawn prims o) (ls := ls.map (drawn prims))
    (b := ((b.1.1, b.1.2), (b.2.1, b.2.2))) (w := a.width) (h := a.height) c (by simp [drawn, hb])
    (by simpa using hx) (by simpa using hy) (by
      intro x hx f i m
      rw [← List.map_cons, List.mem_map] at hx
      obtain ⟨l, hl, rfl⟩ := hx
      exact hp l hl f i m) (by
      rw [← List.map_cons, drawn_internal]
      exact hn)
  rw [← List.map_cons] at h1
  refine ⟨c', t', fun hi => ?_, ?_⟩
  · exact renderLayers_theme (by
      intro x hx
      rw [List.mem_map] at hx
      obtain ⟨l, hl, rfl⟩ := hx
      exact hi l hl) h1
  · simp only [renderPictures, h1]
    rw [if_neg h2]

/-- **C72**: the program ends without exception for boards with layers on both sides, an outline of positive width and
height, at most six internal layers, and files that can be drawn. -/
theorem C72_total_partial {K : Engine} {a : Args} {prims : Layers.Layer → List Prim} {layers board : List Layers.Layer}
    (h : Layers.pcb layers = .ok board) (hd : ∀ l ∈ layers, l.cls = "drill" → l.sides.isSome)
    (ht : ∃ l ∈ layers, l.cls = "top" ∨ l.cls = "topmask" ∨ l.cls = "topsilk")
    (hb : ∃ l ∈ layers, l.cls = "bottom" ∨ l.cls = "bottommask" ∨ l.cls = "bottomsilk")
    {o : Layers.Layer} (ho : layers.find? (·.cls = "outline") = some o) {b : Layers.Box} (hbo : o.bounds = some b)
    (hx : b.1.1 < b.1.2) (hy : b.2.1 < b.2.2) (hn : (layers.filter (·.cls = "internal")).length ≤ 6)
    (hp : ∀ l ∈ layers, ∀ f i m, ∃ A, K.layer f i m (prims l) = .ok A) :
    ∃ files, main K a prims (.directory (.ok board)) = (files, none) := by
  obtain ⟨top, bottom, copper, he, h1, h2, holes, h3, h4⟩ := pictures_eq (a := a) h hd ht hb
  have hout : Spec.outline layers = [o] := by rw [Spec.outline, ho]; rfl
  have n1 := side_no_internal h1 topSide_cls
  have n2 := side_no_internal h2 bottomSide_cls
  have n3 := copper_internal h3 h4
  obtain ⟨ft, rt, t1, rfl⟩ := h1
  obtain ⟨fb, rb, b1, rfl⟩ := h2
  obtain ⟨int, i1, rfl⟩ := h3
  have hom : o ∈ layers := (outline_mem (by rw [hout]; simp : o ∈ Spec.outline layers)).1
  rw [if_neg (by rw [hout]; simp)] at h4
  subst h4
  have zero : ∀ ls : List Layers.Layer, (∀ l ∈ ls, l.cls ≠ "internal") → (ls.filter (·.cls = "internal")).length = 0 := by
    intro ls hl
    rw [List.length_eq_zero_iff, List.filter_eq_nil_iff]
    intro x hx
    simpa using hl x hx
  simp only [main, Except.bind, he, hout, List.nil_append, List.cons_append, List.append_assoc] at *
  have m1 : ∀ l ∈ o :: ft :: (layers.filter (fun l => l.cls = "drill" ∧ "top" ∈ l.sides.getD []) ++ rt), l ∈ layers := by
    intro l hl
    simp only [List.mem_cons, List.mem_append] at hl
    rcases hl with hl | hl | hl | hl
    · exact hl ▸ hom
    · have : l ∈ Spec.topSide layers := by rw [← t1, hl]; simp
      simp only [Spec.topSide, List.mem_append, List.mem_reverse, List.mem_filter] at this
      tauto
    · exact (List.mem_filter.mp hl).1
    · have : l ∈ Spec.topSide layers := by rw [← t1]; simp [hl]
      simp only [Spec.topSide, List.mem_append, List.mem_reverse, List.mem_filter] at this
      tauto
  have m2 : ∀ l ∈ o :: fb :: (layers.filter (fun l => l.cls = "drill" ∧ "bottom" ∈ l.sides.getD []) ++ rb),
      l ∈ layers := by
    intro l hl
    simp only [List.mem_cons, List.mem_append] at hl
    rcases hl with hl | hl | hl | hl
    · exact hl ▸ hom
    · have : l ∈ Spec.bottomSide layers := by rw [← b1, hl]; simp
      simp only [Spec.bottomSide, List.mem_append, List.mem_filter] at this
      tauto
    · exact (List.mem_filter.mp hl).1
    · have : l ∈ Spec.bottomSide layers := by rw [← b1]; simp [hl]
      simp only [Spec.bottomSide, List.mem_append, List.mem_filter] at this
      tauto
  have m3 : ∀ l ∈ o :: ((layers.filter (·.cls = "top") ++ (int ++ layers.filter (·.cls = "bottom"))).reverse ++
      layers.filter (·.cls = "drill")), l ∈ layers := by
    intro l hl
    simp only [List.mem_cons, List.mem_append, List.mem_reverse] at hl
    rcases hl with hl | (hl | hl | hl) | hl
    · exact hl ▸ hom
    · exact (List.mem_filter.mp hl).1
    · exact (List.mem_filter.mp (i1.mem_iff.mp hl)).1
    · exact (List.mem_filter.mp hl).1
    · exact (List.mem_filter.mp hl).1
  obtain ⟨c1, s1, q1, e1⟩ := shown_ok (K := K) (a := a) (prims := prims) (S := Store.start) (name := a.theme)
    (file := pictureFile a "top")
    (more := [(pictureFile a "bottom", a.theme,
        o :: fb :: (layers.filter (fun l => l.cls = "drill" ∧ "bottom" ∈ l.sides.getD []) ++ rb)),
      (pictureFile a "copper", "Transparent Multilayer",
        o :: ((layers.filter (·.cls = "top") ++ (int ++ layers.filter (·.cls = "bottom"))).reverse ++
          layers.filter (·.cls = "drill")))]) {} hbo hx hy (fun l hl => hp l (m1 l hl))
    (by rw [zero _ n1]; exact Nat.zero_le _)
  rw [e1, q1 n1, Function.update_eq_self]
  obtain ⟨c2, s2, q2, e2⟩ := shown_ok (K := K) (a := a) (prims := prims) (S := Store.start) (name := a.theme)
    (file := pictureFile a "bottom")
    (more := [(pictureFile a "copper", "Transparent Multilayer",
        o :: ((layers.filter (·.cls = "top") ++ (int ++ layers.filter (·.cls = "bottom"))).reverse ++
          layers.filter (·.cls = "drill")))]) c1 hbo hx hy (fun l hl => hp l (m2 l hl))
    (by rw [zero _ n2]; exact Nat.zero_le _)
  rw [e2, q2 n2, Function.update_eq_self]
  obtain ⟨c3, s3, -, e3⟩ := shown_ok (K := K) (a := a) (prims := prims) (S := Store.start)
    (name := "Transparent Multilayer") (file := pictureFile a "copper") (more := []) c2 hbo hx hy
    (fun l hl => hp l (m3 l hl)) (by
      rw [n3]
      have e : ((Store.start "Transparent Multilayer").inner.gen.getD
        (Store.start "Transparent Multilayer").inner.internal).length = 6 := by decide +kernel
      rw [e]
      exact hn)
  rw [e3]
  exact ⟨_, rfl⟩

/-- The hypotheses of the theorems above are met: a board with an outline, copper on both sides, and holes. -/
def sampleBoard : List Layers.Layer := [.plain "b.gbl".toList "bottom" (some ((0, 2), (0, 1))),
  .drill "d.drl".toList none (some ((0, 1), (0, 1))), .plain "t.gtl".toList "top" (some ((0, 2), (0, 1))),
  .internal "i2.g2".toList 2, .plain "o.gko".toList "outline" (some ((0, 2), (0, 1)))]

example (K : Engine) : ∃ board files, Layers.pcb sampleBoard = .ok board ∧
    main K {} (fun _ => []) (.directory (.ok board)) = (files, none) := by
  obtain ⟨board, hb⟩ : ∃ board, Layers.pcb sampleBoard = .ok board := ⟨_, rfl⟩
  obtain ⟨files, hf⟩ := C72_total_partial (K := K) (a := {}) (prims := fun _ => []) hb (by decide) (by decide) (by decide)
    (o := .plain "o.gko".toList "outline" (some ((0, 2), (0, 1)))) (by decide +kernel) rfl (by norm_num) (by norm_num)
    (by decide +kernel) (fun l _ f i m => ⟨_, rfl⟩)
  exact ⟨board, files, hb, hf⟩

example : "Transparent Multilayer" ∈ themes.map (·.1) ∧ "OSH Park" ∈ themes.map (·.1) := by decide +kernel

/-- One with seven internal layers, one with copper on one side only, and one without an outline. -/
example : (∃ board, Layers.pcb (sampleBoard ++ (List.range 6).map fun i => .internal "i.g".toList i) = .ok board) ∧
    (∃ board, Layers.pcb [.plain "t.gtl".toList "top"] = .ok board) ∧
    ∃ board, Layers.pcb sampleBoard.dropLast = .ok board := ⟨⟨_, rfl⟩, ⟨_, rfl⟩, ⟨_, rfl⟩⟩

/-! ## Files -/

theorem single_spec {S S' : Store} {name cls : String} {s : Settings} (h : S.single name cls = (S', .ok s)) :
    (S name).get cls = (S' name, .ok s) ∧ (S' "default").background = (S "default").background := by
  unfold Store.single at h
  by_cases hc : cls ∈ themeKeys
  · rw [if_pos hc] at h
    simp only [Prod.mk.injEq] at h
    obtain ⟨h1, h2⟩ := h
    refine ⟨Prod.ext ?_ h2, ?_⟩
    · rw [← h1]; simp
    · rw [← h1]
      by_cases hn : "default" = name
      · rw [hn, Function.update_self]
        unfold FullTheme.get
        split_ifs <;> rfl
      · rw [Function.update_of_ne hn]
  · rw [if_neg hc] at h
    simp only [get_other hc, Function.update_eq_self, Prod.mk.injEq] at h
    obtain ⟨h1, h2⟩ := h
    subst h1
    rw [get_other hc]
    exact ⟨by rw [h2], rfl⟩

theorem renderFiles_later {K : Engine} {a : Args} {prims : Layers.Layer → List Prim} {f : Frame}
    (layers : List (PyR Layers.Layer)) : ∀ {c c' : Cairo.Ctx} {S : Store},
    c.count ≠ 0 → c.frame = some f → renderFiles K a prims c S layers = .ok c' →
    ∃ (ls : List Layers.Layer) (ps : List Paint), layers = ls.map .ok ∧ c'.frame = some f ∧ Painted K f (S a.theme) (ls.map (drawn prims)) ps ∧
      c'.paints = c.paints ++ ps := by
  induction layers with
  | nil =>
    intro c c' S _ hf h
    simp only [renderFiles] at h
    injection h with h
    subst h
    exact ⟨[], [], rfl, hf, .nil _, by simp⟩
  | cons x layers ih =>
    intro c c' S hc hf h
    cases x with
    | error e => simp [renderFiles, bind, Except.bind] at h
    | ok l =>
      simp only [renderFiles, bind, Except.bind] at h
      split at h
      · cases h
      · rename_i S' s hs
        obtain ⟨g1, -⟩ := single_spec hs
        cases h1 : c.renderLayer K (drawn prims l) s (S' "default").background with
        | error e => rw [h1] at h; cases h
        | ok c1 =>
          rw [h1] at h
          obtain ⟨a1, a2, f', area, a3, a4, a5⟩ := renderLayer_later hc h1
          rw [hf] at a3
          injection a3 with a3
          subst a3
          obtain ⟨ls, ps, b1, b2, b3, b4⟩ := ih a2 (by rw [a1, hf]) h
          exact ⟨l :: ls, _, by rw [b1]; rfl, b2, .cons g1 a4 b3, by rw [b4, a5]; simp⟩

/-- **C72 for files**: if the program ends without exception, all the files were read, and one picture has been
written, named after the output file, with all of them in order and with the settings of the theme asked for.  Missing:
the picture has 300 pixels per unit whatever the size asked for (`C72_files_size_violated`), and the background of the
theme `default` (`C72_files_background_violated`). -/
theorem C72_files_partial {K : Engine} {a : Args} {prims : Layers.Layer → List Prim} {layers : List (PyR Layers.Layer)}
    {out : Str} (hout : a.outfile = some out) {theme default : FullTheme} (htheme : (a.theme, theme) ∈ themes)
    (hdefault : ("default", default) ∈ themes) {files : List (Str × Cairo.Ctx)}
    (hr : main K a prims (.files layers) = (files, none)) :
    ∃ (ls : List Layers.Layer) (c : Cairo.Ctx) (b : Box), layers = ls.map .ok ∧ files = [(out ++ ".png".toList, c)] ∧
      Spec.Pictured K prims default theme ls c 300 b := by
  simp only [main] at hr
  split at hr
  · simp at hr
  · rename_i c hc
    split at hr
    · simp at hr
    · rename_i hf
      simp only [hout, Option.getD_some, Prod.mk.injEq, and_true] at hr
      cases layers with
      | nil =>
        simp only [renderFiles] at hc
        injection hc with hc
        subst hc
        simp at hf
      | cons x layers =>
        cases x with
        | error e => simp [renderFiles, bind, Except.bind] at hc
        | ok l =>
          simp only [renderFiles, bind, Except.bind] at hc
          split at hc
          · cases hc
          · rename_i S' s hs
            obtain ⟨g1, g2⟩ := single_spec hs
            cases h1 : ({} : Cairo.Ctx).renderLayer K (drawn prims l) s (S' "default").background with
            | error e => rw [h1] at hc; cases hc
            | ok c1 =>
              rw [h1] at hc
              obtain ⟨b, area, a1, a2, a3, a4, a5⟩ := renderLayer_first rfl h1
              obtain ⟨ls, ps, b1, b2, b3, b4⟩ := renderFiles_later layers a3 a2 hc
              refine ⟨l :: ls, c, b, by rw [b1]; rfl, hr.symm, _, by simpa using a1, b2,
                .cons (start_eq htheme ▸ g1) a4 b3, ?_⟩
              rw [b4, a5, g2, start_eq hdefault]
              simp

/-- Violation: the background does not depend on the theme; that of `OSH Park` is another one. -/
theorem C72_files_background_violated {K : Engine} {a : Args} {prims : Layers.Layer → List Prim}
    {layers : List (PyR Layers.Layer)} (hout : a.outfile ≠ none) (htheme : a.theme ∈ themes.map (·.1))
    {files : List (Str × Cairo.Ctx)} (hr : main K a prims (.files layers) = (files, none)) :
    (∃ f c ps, files = [(f, c)] ∧ c.paints = .background [29 / 100, 69 / 200, 0] 1 :: ps) ∧
    ∃ t, ("OSH Park", t) ∈ themes ∧ t.background.color ≠ [29 / 100, 69 / 200, 0] := by
  obtain ⟨out, ho⟩ := Option.ne_none_iff_exists'.mp hout
  obtain ⟨x, hx, hx'⟩ := List.mem_map.mp htheme
  obtain ⟨ls, c, b, -, h2, ps, -, -, -, h3⟩ := C72_files_partial ho (theme := x.2) (default := {})
    (by rw [← hx']; exact hx) (by simp [themes]) hr
  refine ⟨⟨_, c, ps, h2, ?_⟩, _, List.mem_cons_of_mem _ List.mem_cons_self, by decide +kernel⟩
  rw [h3]
  have e1 : ({} : FullTheme).background.color = [29 / 100, 69 / 200, 0] := by decide +kernel
  have e2 : ({} : FullTheme).background.alpha = 1 := by decide +kernel
  rw [e1, e2]

/-- Violation: the picture of a file can be larger than asked for. -/
theorem C72_files_size_violated (K : Engine) : ∃ (a : Args) (l : Layers.Layer) (file : Str) (c : Cairo.Ctx) (f : Frame),
    main K a (fun _ => []) (.files [.ok l]) = ([(file, c)], none) ∧ c.frame = some f ∧ a.width < f.sizePx.1 := by
  refine ⟨{}, .plain "t.gtl".toList "top" (some ((0, 10), (0, 5))), _, _, _, rfl, rfl, ?_⟩
  norm_num [Frame.sizePx, Frame.of, scalePoint, Ctx.clear]

end Verif.Cli
