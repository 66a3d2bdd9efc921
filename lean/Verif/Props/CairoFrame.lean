import Verif.Model.Cairo
import Verif.Spec.Cairo
import Mathlib.Tactic.Linarith
import Mathlib.Tactic.NormNum

/-! # C65: the frame of a picture

The place of every point of a board on the picture, what is visible, and how `render_layers` chooses the frame. -/

namespace Verif.Cairo

open Verif.Py Verif.Geom Verif.Render

/-- Every point drawn on a mask appears on the picture where it belongs, for plain and mirrored layers. -/
theorem C65_place {b : Box} (hb : Ordered b) (s : ℝ) (mirror : Bool) (p : RPt) :
    ((Frame.of s b).matrix mirror).apply ((Frame.of s b).placeMask (scalePoint s p)) = onPicture b s mirror p := by
  obtain ⟨hx, hy⟩ := hb
  have ax : |b.1.2 - b.1.1| = b.1.2 - b.1.1 := abs_of_nonneg (by linarith)
  have ay : |b.2.2 - b.2.1| = b.2.2 - b.2.1 := abs_of_nonneg (by linarith)
  cases mirror <;>
    simp only [Frame.matrix, Frame.of, Matrix.apply, Frame.placeMask, Frame.originPx, Frame.sizePx, scalePoint,
      onPicture, ax, ay, Bool.false_eq_true, if_true, if_false, Prod.mk.injEq] <;>
    constructor <;> ring

example : Ordered ((1, 3), (2, 5)) ∧ onPicture ((1, 3), (2, 5)) 10 false (1, 5) = (0, 0) ∧
    onPicture ((1, 3), (2, 5)) 10 true (1, 2) = (20, 30) := by
  refine ⟨⟨by norm_num, by norm_num⟩, ?_, ?_⟩ <;> norm_num [onPicture]

/-- The surface shows exactly the points of the box. -/
theorem C65_visible {b : Box} (hb : Ordered b) {s : ℝ} (hs : 0 < s) (mirror : Bool) (p : RPt) :
    Visible (Frame.of s b).sizePx (onPicture b s mirror p) ↔ b.Holds p := by
  obtain ⟨hx, hy⟩ := hb
  have ax : |b.1.2 - b.1.1| = b.1.2 - b.1.1 := abs_of_nonneg (by linarith)
  have ay : |b.2.2 - b.2.1| = b.2.2 - b.2.1 := abs_of_nonneg (by linarith)
  have key : ∀ x : ℝ, 0 ≤ s * x ↔ 0 ≤ x := fun x => mul_nonneg_iff_of_pos_left hs
  have key2 : ∀ x y : ℝ, s * x ≤ y * s ↔ x ≤ y := fun x y => by rw [mul_comm y s]; exact mul_le_mul_iff_right₀ hs
  cases mirror <;>
    simp only [Visible, onPicture, Frame.sizePx, Frame.of, scalePoint, ax, ay, Box.Holds, key, key2,
      Bool.false_eq_true, if_true, if_false] <;>
    constructor <;> rintro ⟨h1, h2, h3, h4⟩ <;> refine ⟨?_, ?_, ?_, ?_⟩ <;> linarith

example : Ordered ((0, 1), (0, 2)) ∧ Box.Holds ((0, 1), (0, 2)) (1 / 2, 1) ∧
    ¬ Box.Holds ((0, 1), (0, 2)) (2, 1) := by
  refine ⟨⟨by norm_num, by norm_num⟩, ?_, ?_⟩ <;> norm_num [Box.Holds]

/-! ## The ranges and the scale of `render_layers` -/

/-- The box `r` reaches at least as far as `b`. -/
def Reaches (r b : Box) : Prop := r.1.1 ≤ b.1.1 ∧ b.1.2 ≤ r.1.2 ∧ r.2.1 ≤ b.2.1 ∧ b.2.2 ≤ r.2.2

theorem reaches_foldl (layers : List Layer) : ∀ r : Box,
    Reaches (layers.foldl (fun r l => match l.bounds with
      | none => r
      | some b => ((min r.1.1 b.1.1, max r.1.2 b.1.2), (min r.2.1 b.2.1, max r.2.2 b.2.2))) r) r ∧
    ∀ l ∈ layers, ∀ b, l.bounds = some b →
      Reaches (layers.foldl (fun r l => match l.bounds with
        | none => r
        | some b => ((min r.1.1 b.1.1, max r.1.2 b.1.2), (min r.2.1 b.2.1, max r.2.2 b.2.2))) r) b := by
  induction layers with
  | nil => exact fun r => ⟨⟨le_rfl, le_rfl, le_rfl, le_rfl⟩, by simp⟩
  | cons l ls ih =>
    intro r
    simp only [List.foldl_cons]
    cases hl : l.bounds with
    | none =>
      obtain ⟨h1, h2⟩ := ih r
      refine ⟨h1, ?_⟩
      intro l' hl' b hb
      rcases List.mem_cons.mp hl' with rfl | h
      · rw [hl] at hb; cases hb
      · exact h2 l' h b hb
    | some c =>
      obtain ⟨⟨a1, a2, a3, a4⟩, h2⟩ :=
        ih ((min r.1.1 c.1.1, max r.1.2 c.1.2), (min r.2.1 c.2.1, max r.2.2 c.2.2))
      refine ⟨⟨a1.trans (min_le_left _ _), (le_max_left _ _).trans a2, a3.trans (min_le_left _ _),
        (le_max_left _ _).trans a4⟩, ?_⟩
      intro l' hl' b hb
      rcases List.mem_cons.mp hl' with rfl | h
      · rw [hl] at hb
        cases hb
        exact ⟨a1.trans (min_le_right _ _), (le_max_right _ _).trans a2, a3.trans (min_le_right _ _),
          (le_max_right _ _).trans a4⟩
      · exact h2 l' h b hb

/-- The ranges reach as far as every layer. -/
theorem C65_ranges {layers : List Layer} {l : Layer} (hl : l ∈ layers) {b : Box} (hb : l.bounds = some b) :
    Reaches (ranges layers) b := (reaches_foldl layers _).2 l hl b hb

example : ranges [⟨"top", some ((1, 3), (0, 2)), []⟩, ⟨"drill", none, []⟩, ⟨"bottom", some ((2, 4), (-1, 1)), []⟩] =
    ((1, 4), (-1, 2)) := by norm_num [ranges]

/-- With the scale chosen for a box, a picture of any box within it is at most as large as allowed. -/
theorem C65_fits {r b : Box} {w h s : ℝ} (hs : fitScale r w h = .ok s) (hw : 0 ≤ w) (hh : 0 ≤ h) (hb : Ordered b)
    (hrb : Reaches r b) : (Frame.of s b).sizePx.1 ≤ w ∧ (Frame.of s b).sizePx.2 ≤ h := by
  obtain ⟨hx, hy⟩ := hb
  obtain ⟨r1, r2, r3, r4⟩ := hrb
  unfold fitScale at hs
  split at hs
  · cases hs
  · rename_i hne
    push Not at hne
    obtain ⟨n1, n2⟩ := hne
    have p1 : 0 < r.1.2 - r.1.1 := lt_of_le_of_ne (by linarith) (Ne.symm n1)
    have p2 : 0 < r.2.2 - r.2.1 := lt_of_le_of_ne (by linarith) (Ne.symm n2)
    have hs' : s = ((⌊min (w / (r.1.2 - r.1.1)) (h / (r.2.2 - r.2.1))⌋ : ℤ) : ℝ) := by
      injection hs with hs; exact hs.symm
    have hle := Int.floor_le (min (w / (r.1.2 - r.1.1)) (h / (r.2.2 - r.2.1)))
    rw [← hs'] at hle
    have h0 : 0 ≤ s := by
      rw [hs']
      exact_mod_cast Int.floor_nonneg.mpr (le_min (div_nonneg hw p1.le) (div_nonneg hh p2.le))
    have e1 : s * (r.1.2 - r.1.1) ≤ w := (le_div_iff₀ p1).mp (hle.trans (min_le_left _ _))
    have e2 : s * (r.2.2 - r.2.1) ≤ h := (le_div_iff₀ p2).mp (hle.trans (min_le_right _ _))
    simp only [Frame.sizePx, Frame.of, scalePoint]
    rw [abs_of_nonneg (by linarith : (0 : ℝ) ≤ b.1.2 - b.1.1), abs_of_nonneg (by linarith : (0 : ℝ) ≤ b.2.2 - b.2.1)]
    constructor
    · nlinarith [mul_le_mul_of_nonneg_left (show b.1.2 - b.1.1 ≤ r.1.2 - r.1.1 by linarith) h0]
    · nlinarith [mul_le_mul_of_nonneg_left (show b.2.2 - b.2.1 ≤ r.2.2 - r.2.1 by linarith) h0]

example : fitScale ((0, 4), (0, 2)) 800 600 = .ok 200 := by
  have : (⌊(200 : ℝ)⌋ : ℤ) = 200 := by exact_mod_cast Int.floor_intCast (R := ℝ) 200
  norm_num [fitScale, this]

/-- Violation: boards wider than the largest picture get scale 0, and a picture without any pixel. -/
theorem C65_scale_violated {r : Box} {w h : ℝ} (hw : 0 ≤ w) (hh : 0 ≤ h) (hy : r.2.1 < r.2.2)
    (hx : w < r.1.2 - r.1.1) : fitScale r w h = .ok 0 := by
  have p1 : 0 < r.1.2 - r.1.1 := by linarith
  have p2 : 0 < r.2.2 - r.2.1 := by linarith
  have : ⌊min (w / (r.1.2 - r.1.1)) (h / (r.2.2 - r.2.1))⌋ = 0 := by
    rw [Int.floor_eq_iff]
    refine ⟨?_, ?_⟩
    · simpa using ⟨div_nonneg hw p1.le, div_nonneg hh p2.le⟩
    · have : w / (r.1.2 - r.1.1) < 1 := (div_lt_one p1).mpr hx
      simpa using Or.inl this
  unfold fitScale
  rw [if_neg (by push Not; exact ⟨p1.ne', p2.ne'⟩), this]
  simp

example : ∃ r : Box, r.2.1 < r.2.2 ∧ (800 : ℝ) < r.1.2 - r.1.1 := ⟨((0, 1000), (0, 1)), by norm_num⟩

/-- Violation: a set of layers without width (or height) raises `ZeroDivisionError`. -/
theorem C65_flat_violated (K : Engine) (c : Ctx) {layers : List Layer} (t : FullTheme) (w h : ℝ)
    (hf : (ranges layers).1.1 = (ranges layers).1.2 ∨ (ranges layers).2.1 = (ranges layers).2.2) :
    c.renderLayers K layers t w h = .error .zeroDivisionError := by
  have : fitScale (ranges layers) w h = .error .zeroDivisionError := by
    unfold fitScale
    rw [if_pos (hf.imp (fun h => by rw [h]; ring) (fun h => by rw [h]; ring))]
  simp only [Ctx.renderLayers, this, bind, Except.bind]

example : (ranges [⟨"top", some ((1, 1), (0, 2)), []⟩]).1.1 = (ranges [⟨"top", some ((1, 1), (0, 2)), []⟩]).1.2 := by
  norm_num [ranges]

/-! ## The frame of `render_layers` -/

theorem paintLayer_frame {K : Engine} {c c' : Ctx} {l : Layer} {s : Settings} (h : c.paintLayer K l s = .ok c') :
    c'.frame = c.frame ∧ c'.count = c.count ∧
    ∃ f area, c.frame = some f ∧ K.layer f s.invert s.mirror l.prims = .ok area ∧
      c'.paints = c.paints ++ [.layer s.color s.alpha area] := by
  unfold Ctx.paintLayer at h
  cases hf : c.frame with
  | none => rw [hf] at h; cases h
  | some f =>
    rw [hf] at h
    simp only [bind, Except.bind] at h
    cases ha : K.layer f s.invert s.mirror l.prims with
    | error e => rw [ha] at h; cases h
    | ok area =>
      rw [ha] at h
      injection h with h
      subst h
      exact ⟨rfl, rfl, f, area, rfl, ha, rfl⟩

theorem renderLayer_later {K : Engine} {c c' : Ctx} {l : Layer} {s bg : Settings} (hc : c.count ≠ 0)
    (h : c.renderLayer K l s bg = .ok c') :
    c'.frame = c.frame ∧ c'.count ≠ 0 ∧ ∃ f area, c.frame = some f ∧
      K.layer f s.invert s.mirror l.prims = .ok area ∧ c'.paints = c.paints ++ [.layer s.color s.alpha area] := by
  simp only [Ctx.renderLayer, if_neg hc, bind, Except.bind] at h
  obtain ⟨h1, h2, h3⟩ := paintLayer_frame h
  exact ⟨h1, by rw [h2]; exact Nat.succ_ne_zero _, h3⟩

theorem renderLayer_first {K : Engine} {c c' : Ctx} {l : Layer} {s bg : Settings} (hc : c.count = 0)
    (h : c.renderLayer K l s bg = .ok c') :
    ∃ b area, l.bounds = some b ∧ c'.frame = some (Frame.of c.scale b) ∧ c'.count ≠ 0 ∧
      K.layer (Frame.of c.scale b) s.invert s.mirror l.prims = .ok area ∧
      c'.paints = [.background bg.color bg.alpha, .layer s.color s.alpha area] := by
  simp only [Ctx.renderLayer, if_pos hc] at h
  cases hb : l.bounds with
  | none => rw [hb] at h; simp [bind, Except.bind] at h
  | some b =>
    rw [hb] at h
    simp only [Option.none_or, bind, Except.bind] at h
    obtain ⟨h1, h2, f, area, h3, h4, h5⟩ := paintLayer_frame h
    simp only [Ctx.paintBackground, Ctx.setBounds, Ctx.clear, Option.getD_none] at h1 h2 h3 h5
    have hf : f = Frame.of c.scale b := by
      simpa using h3.symm
    subst hf
    refine ⟨b, area, rfl, by simpa using h1, ?_, h4, by simpa using h5⟩
    rw [h2]; exact Nat.succ_ne_zero _

/-- What a list of layers paints in a given frame: one paint per layer, in order, with the settings of the theme. -/
inductive Painted (K : Engine) (f : Frame) : FullTheme → List Layer → List Paint → Prop
  | nil (t) : Painted K f t [] []
  | cons {t t' : FullTheme} {l : Layer} {ls : List Layer} {s : Settings} {area : Set RPt} {ps : List Paint}
      (hs : t.get l.cls = (t', .ok s)) (ha : K.layer f s.invert s.mirror l.prims = .ok area)
      (h : Painted K f t' ls ps) : Painted K f t (l :: ls) (.layer s.color s.alpha area :: ps)

theorem renderAll_later {K : Engine} {bg : Settings} {f : Frame} (ls : List Layer) : ∀ {c c' : Ctx} {t t' : FullTheme},
    c.count ≠ 0 → c.frame = some f → c.renderAll K bg t ls = .ok (c', t') →
    c'.frame = some f ∧ ∃ ps, Painted K f t ls ps ∧ c'.paints = c.paints ++ ps := by
  induction ls with
  | nil =>
    intro c c' t t' _ hf h
    simp only [Ctx.renderAll] at h
    injection h with h
    injection h with h1 h2
    subst h1
    exact ⟨hf, [], .nil _, by simp⟩
  | cons l ls ih =>
    intro c c' t t' hc hf h
    simp only [Ctx.renderAll] at h
    split at h
    · cases h
    · rename_i t1 s hs
      simp only [bind, Except.bind] at h
      cases h1 : c.renderLayer K l s bg with
      | error e => rw [h1] at h; cases h
      | ok c1 =>
        rw [h1] at h
        obtain ⟨a1, a2, f', area, a3, a4, a5⟩ := renderLayer_later hc h1
        rw [hf] at a3
        injection a3 with a3
        subst a3
        obtain ⟨b1, ps, b2, b3⟩ := ih a2 (by rw [a1, hf]) h
        exact ⟨b1, _, .cons hs a4 b2, by rw [b3, a5]; simp⟩

/-- A successful `render_layers` paints the background once and then every layer once, in the order given and with the
settings of the theme.  The frame is that of the *first* layer, at the scale for all layers. -/
theorem C65_layers {K : Engine} {c c' : Ctx} {l : Layer} {ls : List Layer} {t t' : FullTheme} {w h : ℝ}
    (hr : c.renderLayers K (l :: ls) t w h = .ok (c', t')) :
    ∃ s b ps, fitScale (ranges (l :: ls)) w h = .ok s ∧ l.bounds = some b ∧ c'.frame = some (Frame.of s b) ∧
      Painted K (Frame.of s b) t (l :: ls) ps ∧
      c'.paints = .background t.background.color t.background.alpha :: ps := by
  simp only [Ctx.renderLayers, bind, Except.bind] at hr
  cases hs : fitScale (ranges (l :: ls)) w h with
  | error e => rw [hs] at hr; cases hr
  | ok s =>
    rw [hs] at hr
    simp only [Ctx.renderAll] at hr
    split at hr
    · cases hr
    · rename_i t1 st hst
      simp only [bind, Except.bind] at hr
      cases h1 : (({ c with scale := s } : Ctx).clear).renderLayer K l st t.background with
      | error e => rw [h1] at hr; cases hr
      | ok c1 =>
        rw [h1] at hr
        obtain ⟨b, area, b1, b2, b3, b4, b5⟩ := renderLayer_first rfl h1
        obtain ⟨d1, ps, d2, d3⟩ := renderAll_later ls b3 b2 hr
        exact ⟨s, b, _, rfl, b1, d1, .cons hst b4 d2, by rw [d3, b5]; simp⟩

/-- Setting bounds again, any number of times, does not move the picture: the first bounds stay until `clear`. -/
theorem C65_bounds_kept (c : Ctx) (hc : c.frame = none) (b : Box) (later : List Box) :
    (later.foldl Ctx.setBounds (c.setBounds b)).frame = some (Frame.of c.scale b) := by
  have key : ∀ (later : List Box) (c : Ctx) (f : Frame), c.frame = some f →
      (later.foldl Ctx.setBounds c).frame = some f := by
    intro later
    induction later with
    | nil => exact fun _ _ h => h
    | cons b' l ih => exact fun c f h => ih _ f (by simp [Ctx.setBounds, h])
  exact key later _ _ (by simp [Ctx.setBounds, hc])

example : ({} : Ctx).frame = none := rfl

/-- Violation: without bounds of the first layer (an empty file) `render_layers` raises, whatever follows. -/
theorem C65_no_bounds_violated (K : Engine) (c : Ctx) {l : Layer} (ls : List Layer) (t : FullTheme) (w h : ℝ)
    (hl : l.bounds = none) : ¬ ∃ r, c.renderLayers K (l :: ls) t w h = .ok r := by
  rintro ⟨⟨c', t'⟩, hr⟩
  obtain ⟨s, b, ps, -, hb, -⟩ := C65_layers hr
  rw [hl] at hb
  cases hb

/-- If all layers have the same bounds, all of them is visible on the picture. -/
theorem C65_whole_partial {K : Engine} {c c' : Ctx} {l : Layer} {ls : List Layer} {t t' : FullTheme} {w h : ℝ}
    (hr : c.renderLayers K (l :: ls) t w h = .ok (c', t')) {b : Box} (hb : Ordered b)
    (hall : ∀ x ∈ l :: ls, x.bounds = some b) (hpos : ∀ s, fitScale (ranges (l :: ls)) w h = .ok s → 0 < s)
    (mirror : Bool) {p : RPt} (hp : b.Holds p) :
    ∃ f, c'.frame = some f ∧ Visible f.sizePx ((f.matrix mirror).apply (f.placeMask (scalePoint f.scale p))) := by
  obtain ⟨s, b', ps, hs, hb', hf, -⟩ := C65_layers hr
  have : b' = b := by
    have := hall l (by simp)
    rw [hb'] at this
    exact Option.some.inj this
  subst this
  refine ⟨_, hf, ?_⟩
  change Visible _ (((Frame.of s b').matrix mirror).apply ((Frame.of s b').placeMask (scalePoint s p)))
  rw [C65_place hb, C65_visible hb (hpos s hs)]
  exact hp

/-- The hypotheses of `C65_layers` and `C65_whole_partial` are met by two layers with the same bounds. -/
example (K : Engine) (c : Ctx) :
    (∃ r, c.renderLayers K [⟨"top", some ((0, 4), (0, 2)), []⟩, ⟨"drill", some ((0, 4), (0, 2)), []⟩] {} 800 600 =
      .ok r) ∧
    ∀ s, fitScale (ranges [⟨"top", some ((0, 4), (0, 2)), []⟩, ⟨"drill", some ((0, 4), (0, 2)), []⟩]) 800 600 = .ok s →
      0 < s := by
  have hf : (⌊(200 : ℝ)⌋ : ℤ) = 200 := by exact_mod_cast Int.floor_intCast (R := ℝ) 200
  have hs : fitScale (ranges [⟨"top", some ((0, 4), (0, 2)), []⟩, ⟨"drill", some ((0, 4), (0, 2)), []⟩]) 800 600 =
      .ok 200 := by
    norm_num [fitScale, ranges, hf]
  refine ⟨?_, fun s h => ?_⟩
  · simp only [Ctx.renderLayers, hs, bind, Except.bind]
    exact ⟨_, rfl⟩
  · rw [hs] at h
    injection h with h
    rw [← h]
    norm_num

/-- Violation: what other layers have beyond the bounds of the first one is cut off, although the scale leaves room
for it. -/
theorem C65_whole_violated (K : Engine) (c : Ctx) : ∃ (layers : List Layer) (c' : Ctx) (t' : FullTheme) (f : Frame)
    (b : Box) (p : RPt), c.renderLayers K layers {} 800 600 = .ok (c', t') ∧ c'.frame = some f ∧
      (∃ l ∈ layers, l.bounds = some b) ∧ b.Holds p ∧
      ¬ Visible f.sizePx ((f.matrix false).apply (f.placeMask (scalePoint f.scale p))) := by
  have hf : (⌊(200 : ℝ)⌋ : ℤ) = 200 := by exact_mod_cast Int.floor_intCast (R := ℝ) 200
  have hs : fitScale (ranges [⟨"top", some ((0, 1), (0, 1)), []⟩, ⟨"drill", some ((0, 4), (0, 2)), []⟩]) 800 600 =
      .ok 200 := by
    norm_num [fitScale, ranges, hf]
  have hr : ∃ r, c.renderLayers K [⟨"top", some ((0, 1), (0, 1)), []⟩, ⟨"drill", some ((0, 4), (0, 2)), []⟩] {} 800 600 =
      .ok r := by
    simp only [Ctx.renderLayers, hs, bind, Except.bind]
    exact ⟨_, rfl⟩
  obtain ⟨⟨c', t'⟩, hr⟩ := hr
  obtain ⟨s, b, ps, h1, h2, h3, -⟩ := C65_layers hr
  rw [hs] at h1
  injection h1 with h1
  injection h2 with h2
  subst h1 h2
  refine ⟨_, c', t', _, ((0, 4), (0, 2)), (3, 1), hr, h3, ⟨_, List.mem_cons_of_mem _ List.mem_cons_self, rfl⟩,
    by norm_num [Box.Holds], ?_⟩
  change ¬ Visible _ (((Frame.of 200 ((0, 1), (0, 1))).matrix false).apply
    ((Frame.of 200 ((0, 1), (0, 1))).placeMask (scalePoint 200 (3, 1))))
  rw [C65_place ⟨by norm_num, by norm_num⟩, C65_visible ⟨by norm_num, by norm_num⟩ (by norm_num)]
  norm_num [Box.Holds]

end Verif.Cairo
