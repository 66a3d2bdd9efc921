import Verif.Model.Theme
import Verif.Props.Render

/-! # C64: themes

"Every predefined theme gives valid settings for every layer class; what belongs to the bottom side is mirrored
and what belongs to the top side is not; soldermasks and only they are inverted; the settings of a layer do not
depend on what was rendered before." -/

namespace Verif.Render

open Verif.Py

/-- Three components and an opacity, all from 0 to 1. -/
def Settings.Valid (s : Settings) : Prop :=
  s.color.length = 3 ∧ (∀ c ∈ s.color, 0 ≤ c ∧ c ≤ 1) ∧ 0 ≤ s.alpha ∧ s.alpha ≤ 1

instance (s : Settings) : Decidable s.Valid := by unfold Settings.Valid; infer_instance

theorem get_other {key : String} (h : key ∉ ["background", "topsilk", "bottomsilk", "topmask", "bottommask", "top",
    "bottom", "drill", "ipc_netlist", "internal"]) (t : FullTheme) : t.get key = (t, .ok defaultSettings) := by
  simp only [List.mem_cons, List.not_mem_nil, or_false, not_or] at h
  obtain ⟨h1, h2, h3, h4, h5, h6, h7, h8, h9, h10⟩ := h
  unfold FullTheme.get
  rw [if_neg h1, if_neg h2, if_neg h3, if_neg h4, if_neg h5, if_neg h6, if_neg h7, if_neg h8, if_neg h9, if_neg h10]

/-- A property of all settings of a theme that the default settings have, too. -/
theorem get_all {P : String → Settings → Prop} {t : FullTheme} (key : String)
    (h : ∀ k ∈ ["background", "topsilk", "bottomsilk", "topmask", "bottommask", "top", "bottom", "drill",
      "ipc_netlist"], ∀ s, (t.get k).2 = .ok s → P k s)
    (hd : key ∉ ["background", "topsilk", "bottomsilk", "topmask", "bottommask", "top", "bottom", "drill",
      "ipc_netlist", "internal"] → P key defaultSettings)
    (hi : ∀ s, t.inner.request.2 = .ok s → P "internal" s) {s : Settings} (hs : (t.get key).2 = .ok s) : P key s := by
  by_cases hk : key ∈ ["background", "topsilk", "bottomsilk", "topmask", "bottommask", "top", "bottom", "drill",
      "ipc_netlist"]
  · exact h key hk s hs
  · by_cases hint : key = "internal"
    · subst hint
      exact hi s hs
    · have hn : key ∉ ["background", "topsilk", "bottomsilk", "topmask", "bottommask", "top", "bottom", "drill",
          "ipc_netlist", "internal"] := by
        simp only [List.mem_cons, List.not_mem_nil, or_false, not_or] at hk ⊢
        obtain ⟨h1, h2, h3, h4, h5, h6, h7, h8, h9⟩ := hk
        exact ⟨h1, h2, h3, h4, h5, h6, h7, h8, h9, hint⟩
      rw [get_other hn] at hs
      injection hs with hs
      exact hs ▸ hd hn

/-- What the generator of a theme still gives are settings of its list. -/
theorem request_mem {t : Theme} (n : ℕ) (hg : t.gen = none) {s : Settings} (h : (t.after n).request.2 = .ok s) :
    s ∈ t.internal := by
  rw [C45_request_partial t hg] at h
  cases hi : t.internal[n]? with
  | none => rw [hi] at h; cases h
  | some x =>
    rw [hi] at h
    injection h with h
    exact h ▸ List.mem_of_getElem? hi

/-- A theme after `n` internal layers have been rendered. -/
def FullTheme.after (t : FullTheme) (n : ℕ) : FullTheme := { t with inner := t.inner.after n }

/-- Rendering any list of layers leaves a theme with that many internal layers taken. -/
theorem settings_after (t : FullTheme) (n : ℕ) (l : List String) :
    ∃ m, ((t.after n).settings l).1 = t.after m := by
  induction l generalizing n with
  | nil => exact ⟨n, rfl⟩
  | cons c l ih =>
    have hget : ∃ m, ((t.after n).get c).1 = t.after m := by
      by_cases hc : c = "internal"
      · subst hc
        exact ⟨n + 1, rfl⟩
      · refine ⟨n, ?_⟩
        unfold FullTheme.get
        split_ifs <;> rfl
    obtain ⟨m, hm⟩ := hget
    unfold FullTheme.settings
    generalize (t.after n).get c = g at *
    obtain ⟨g1, g2⟩ := g
    simp only at hm
    subst hm
    cases g2 with
    | error e => exact ⟨m, rfl⟩
    | ok s =>
      obtain ⟨k, hk⟩ := ih m
      simp only
      generalize (t.after m).settings l = r at *
      obtain ⟨r1, r2⟩ := r
      simp only at hk
      subst hk
      cases r2 with
      | error e => exact ⟨k, rfl⟩
      | ok ss => exact ⟨k, rfl⟩

theorem get_after {t : FullTheme} {n : ℕ} {k : String} (hk : k ≠ "internal") :
    ((t.after n).get k).2 = (t.get k).2 := by
  unfold FullTheme.get
  rw [if_neg hk, if_neg hk]
  split_ifs <;> rfl

/-- **C64 for colours and opacity**: the settings every predefined theme gives are valid, for every class of layers
and whatever has been rendered with it. -/
theorem C64_valid {name : String} {t : FullTheme} (ht : (name, t) ∈ themes) (before : List String) (key : String)
    {s : Settings} (hs : ((t.settings before).1.get key).2 = .ok s) : s.Valid := by
  obtain ⟨n, hn⟩ := settings_after t 0 before
  change (t.settings before).1 = t.after n at hn
  rw [hn] at hs
  have hall : ∀ x ∈ themes, x.2.inner.gen = none ∧ (∀ s ∈ x.2.inner.internal, s.Valid) ∧
      ∀ k ∈ ["background", "topsilk", "bottomsilk", "topmask", "bottommask", "top", "bottom", "drill", "ipc_netlist"],
        ∃ s, (x.2.get k).2 = .ok s ∧ s.Valid := by
    have : ∀ x ∈ themes, x.2.inner.gen = none ∧ (∀ s ∈ x.2.inner.internal, s.Valid) ∧
      ∀ k ∈ ["background", "topsilk", "bottomsilk", "topmask", "bottommask", "top", "bottom", "drill", "ipc_netlist"],
        (match (x.2.get k).2 with | .ok s => decide s.Valid | .error _ => false) = true := by decide +kernel
    intro x hx
    obtain ⟨h1, h2, h3⟩ := this x hx
    refine ⟨h1, h2, fun k hk => ?_⟩
    have := h3 k hk
    split at this
    · rename_i s hs
      exact ⟨s, hs, of_decide_eq_true this⟩
    · simp at this
  obtain ⟨h1, h2, h3⟩ := hall _ ht
  refine get_all (P := fun _ s => s.Valid) key ?_ (fun _ => by decide +kernel) ?_ hs
  · intro k hk s hs
    obtain ⟨s', hs', hv⟩ := h3 k hk
    rw [get_after (by rintro rfl; simp at hk), hs'] at hs
    injection hs with hs
    exact hs ▸ hv
  · intro s hs
    exact h2 s (request_mem n h1 hs)

/-- **C64 for soldermasks**: they and only they are inverted, in every theme. -/
theorem C64_invert {name : String} {t : FullTheme} (ht : (name, t) ∈ themes) (before : List String) (key : String)
    {s : Settings} (hs : ((t.settings before).1.get key).2 = .ok s) :
    s.invert = true ↔ key = "topmask" ∨ key = "bottommask" := by
  obtain ⟨n, hn⟩ := settings_after t 0 before
  change (t.settings before).1 = t.after n at hn
  rw [hn] at hs
  have hall : ∀ x ∈ themes, x.2.inner.gen = none ∧ (∀ s ∈ x.2.inner.internal, s.invert = false) ∧
      ∀ k ∈ ["background", "topsilk", "bottomsilk", "topmask", "bottommask", "top", "bottom", "drill", "ipc_netlist"],
        (x.2.get k).2.toOption.map (·.invert) = some (decide (k = "topmask" ∨ k = "bottommask")) := by decide +kernel
  obtain ⟨h1, h2, h3⟩ := hall _ ht
  refine get_all (P := fun k s => s.invert = true ↔ k = "topmask" ∨ k = "bottommask") key ?_ ?_ ?_ hs
  · intro k hk s hs
    have := h3 k hk
    rw [get_after (by rintro rfl; simp at hk)] at hs
    rw [hs] at this
    simp only [Except.toOption, Option.map_some, Option.some.injEq] at this
    rw [this]
    simp
  · intro hk
    simp only [List.mem_cons, List.not_mem_nil, or_false, not_or] at hk
    simp [defaultSettings, hk]
  · intro s hs
    rw [h2 s (request_mem n h1 hs)]
    simp

/-- **C64 for sides**: in the themes `default` and `OSH Park` the layers of the bottom side other than the paste are
mirrored, and no others.  Missing: the other themes and the paste (see below). -/
theorem C64_mirror_partial {name : String} {t : FullTheme} (ht : (name, t) ∈ themes)
    (hname : name = "default" ∨ name = "OSH Park") (before : List String) (key : String) {s : Settings}
    (hs : ((t.settings before).1.get key).2 = .ok s) :
    s.mirror = true ↔ key = "bottom" ∨ key = "bottommask" ∨ key = "bottomsilk" := by
  obtain ⟨n, hn⟩ := settings_after t 0 before
  change (t.settings before).1 = t.after n at hn
  rw [hn] at hs
  have hall : ∀ x ∈ themes, x.1 = "default" ∨ x.1 = "OSH Park" → x.2.inner.gen = none ∧
      (∀ s ∈ x.2.inner.internal, s.mirror = false) ∧
      ∀ k ∈ ["background", "topsilk", "bottomsilk", "topmask", "bottommask", "top", "bottom", "drill", "ipc_netlist"],
        (x.2.get k).2.toOption.map (·.mirror) =
          some (decide (k = "bottom" ∨ k = "bottommask" ∨ k = "bottomsilk")) := by decide +kernel
  obtain ⟨h1, h2, h3⟩ := hall _ ht hname
  refine get_all (P := fun k s => s.mirror = true ↔ k = "bottom" ∨ k = "bottommask" ∨ k = "bottomsilk") key ?_ ?_ ?_ hs
  · intro k hk s hs
    have := h3 k hk
    rw [get_after (by rintro rfl; simp at hk)] at hs
    rw [hs] at this
    simp only [Except.toOption, Option.map_some, Option.some.injEq] at this
    rw [this]
    simp
  · intro hk
    simp only [List.mem_cons, List.not_mem_nil, or_false, not_or] at hk
    simp [defaultSettings, hk]
  · intro s hs
    rw [h2 s (request_mem n h1 hs)]
    simp

/-- The second internal layer of a board rendered with the theme `OSH Park`. -/
example : ∃ t s, ("OSH Park", t) ∈ themes ∧ ((t.settings ["topsilk", "internal", "bottom"]).1.get "internal").2 = .ok s ∧
    s.color = [78 / 100, 776 / 1000, 251 / 1000] := by
  refine ⟨_, _, List.mem_cons_of_mem _ List.mem_cons_self, rfl, rfl⟩

/-- **C64 fails for some bottom layers**: in three themes copper or soldermask of the bottom side is not mirrored while
its silkscreen is, and the paste of the bottom side is mirrored in no theme. -/
theorem C64_mirror_violated :
    (∀ x ∈ themes, x.1 = "Blue" → (x.2.get "bottommask").2.toOption.map (·.mirror) = some false) ∧
    (∀ x ∈ themes, x.1 = "Transparent Copper" ∨ x.1 = "Transparent Multilayer" →
      (x.2.get "bottom").2.toOption.map (·.mirror) = some false) ∧
    (∀ x ∈ themes, (x.2.get "bottomsilk").2.toOption.map (·.mirror) = some true) ∧
    (∀ x ∈ themes, (x.2.get "bottompaste").2.toOption.map (·.mirror) = some false) ∧
    "Blue" ∈ themes.map (·.1) ∧ "Transparent Copper" ∈ themes.map (·.1) ∧
    "Transparent Multilayer" ∈ themes.map (·.1) := by decide +kernel

/-- **C64 fails for layers a theme does not know** (paste, outline, drawing, unknown): opaque black in every theme. -/
theorem C64_unknown_violated (t : FullTheme) {key : String} (h : key ∉ ["background", "topsilk", "bottomsilk",
    "topmask", "bottommask", "top", "bottom", "drill", "ipc_netlist", "internal"]) :
    (t.get key).2 = .ok { color := [0, 0, 0], alpha := 1 } := by
  rw [get_other h]
  rfl

example : "toppaste" ∉ ["background", "topsilk", "bottomsilk", "topmask", "bottommask", "top", "bottom", "drill",
    "ipc_netlist", "internal"] := by decide

/-- **C64** Both sides look the same but for being mirrored: silkscreens and masks in every theme, copper in the themes
that do not tell the sides apart by colour. -/
theorem C64_sides {name : String} {t : FullTheme} (ht : (name, t) ∈ themes) (before : List String) {top bottom : Settings}
    {key key' : String} (hk : (key, key') ∈ [("topsilk", "bottomsilk"), ("topmask", "bottommask"), ("top", "bottom")])
    (hname : key = "top" → name = "default" ∨ name = "OSH Park" ∨ name = "Blue")
    (h1 : ((t.settings before).1.get key).2 = .ok top) (h2 : ((t.settings before).1.get key').2 = .ok bottom) :
    { bottom with mirror := top.mirror } = top := by
  obtain ⟨n, hn⟩ := settings_after t 0 before
  change (t.settings before).1 = t.after n at hn
  rw [hn] at h1 h2
  have hall : ∀ x ∈ themes, { x.2.bottomsilk with mirror := x.2.topsilk.mirror } = x.2.topsilk ∧
      { x.2.bottommask with mirror := x.2.topmask.mirror } = x.2.topmask ∧
      (x.1 = "default" ∨ x.1 = "OSH Park" ∨ x.1 = "Blue" → { x.2.bottom with mirror := x.2.top.mirror } = x.2.top) := by
    decide +kernel
  obtain ⟨a1, a2, a3⟩ := hall _ ht
  simp only [List.mem_cons, Prod.mk.injEq, List.not_mem_nil, or_false] at hk
  rcases hk with ⟨rfl, rfl⟩ | ⟨rfl, rfl⟩ | ⟨rfl, rfl⟩
  · cases h1; cases h2; exact a1
  · cases h1; cases h2; exact a2
  · cases h1; cases h2; exact a3 (hname rfl)

/-- **C64** The layers of both sides are equally opaque in every theme. -/
theorem C64_opacity {name : String} {t : FullTheme} (ht : (name, t) ∈ themes) (before : List String) {top bottom : Settings}
    {key key' : String} (hk : (key, key') ∈ [("topsilk", "bottomsilk"), ("topmask", "bottommask"), ("top", "bottom")])
    (h1 : ((t.settings before).1.get key).2 = .ok top) (h2 : ((t.settings before).1.get key').2 = .ok bottom) :
    bottom.alpha = top.alpha := by
  obtain ⟨n, hn⟩ := settings_after t 0 before
  change (t.settings before).1 = t.after n at hn
  rw [hn] at h1 h2
  have hall : ∀ x ∈ themes, x.2.bottomsilk.alpha = x.2.topsilk.alpha ∧ x.2.bottommask.alpha = x.2.topmask.alpha ∧
      x.2.bottom.alpha = x.2.top.alpha := by decide +kernel
  obtain ⟨a1, a2, a3⟩ := hall _ ht
  simp only [List.mem_cons, Prod.mk.injEq, List.not_mem_nil, or_false] at hk
  rcases hk with ⟨rfl, rfl⟩ | ⟨rfl, rfl⟩ | ⟨rfl, rfl⟩
  · cases h1; cases h2; exact a1
  · cases h1; cases h2; exact a2
  · cases h1; cases h2; exact a3

example : (("Blue", "topmask"), 8 / 10) ∈ themes.flatMap fun x => ((x.2.get "bottommask").2.toOption.map fun s =>
    ((x.1, "topmask"), s.alpha)).toList := by decide +kernel

/-- **C64 for boards without internal layers**: the settings are the same each time. -/
theorem C64_again (t : FullTheme) {layers : List String} (h : "internal" ∉ layers) : (t.settings layers).1 = t := by
  induction layers with
  | nil => rfl
  | cons c l ih =>
    have hc : (t.get c).1 = t := by
      unfold FullTheme.get
      have : c ≠ "internal" := fun e => h (by simp [e])
      rw [if_neg this]
      split_ifs <;> rfl
    unfold FullTheme.settings
    generalize t.get c = g at *
    obtain ⟨g1, g2⟩ := g
    simp only at hc
    subst hc
    cases g2 with
    | error e => rfl
    | ok s =>
      have := ih fun hm => h (List.mem_cons_of_mem _ hm)
      simp only
      generalize g1.settings l = r at *
      obtain ⟨r1, r2⟩ := r
      simp only at this
      subst this
      cases r2 <;> rfl

example : "internal" ∉ ["bottomsilk", "bottommask", "bottom", "drill"] := by decide

/-- **C64 fails for boards with internal layers**: rendered a second time with the same theme, an internal layer has
another colour; from the ninth on rendering raises `StopIteration`. -/
theorem C64_again_violated :
    ∃ t, ("default", t) ∈ themes ∧
      (t.settings ["internal"]).2 ≠ ((t.settings ["internal"]).1.settings ["internal"]).2 ∧
      ((t.settings (List.replicate 8 "internal")).1.settings ["internal"]).2 = .error .stopIteration := by
  refine ⟨_, List.mem_cons_self, ?_, ?_⟩ <;> decide +kernel

end Verif.Render
