import Verif.Model.MacroPicture
import Verif.Spec.MacroPicture
import Verif.Props.AmShape
import Verif.Props.GerberPicture

/-! # Pictures of Gerber files with macros (C76) -/

namespace Verif.Am
open Verif.Py Verif.Cairo Verif.Geom Verif.Render Verif.Gerber

/-! ## Primitives that are drawn right -/

/-- Macro primitives that are drawn right. -/
def AmPrim.Draws : AmPrim → Prop
  | .comment _ => True
  | .circle _ d _ => 0 ≤ d
  | .outline _ s ps _ => ps.getLast? = some s
  | .polygon _ n p d rot => 3 ≤ n ∧ 0 < d ∧ (p = (0, 0) ∨ rot = 0)
  | .centerLine _ w h c rot => 0 < w ∧ 0 < h ∧ (c = (0, 0) ∨ rot = 0)
  | _ => False

/-- Is not a comment. -/
def AmPrim.Real : AmPrim → Prop
  | .comment _ => False
  | _ => True

/-- Macro primitives that do not make drawing fail. -/
def AmPrim.Paints : AmPrim → Prop
  | .circle _ d _ => 0 ≤ d
  | .vectorLine _ _ w _ _ _ => 0 < w
  | .outline _ s ps _ => ps.getLast? = some s
  | .polygon _ n _ d _ => 3 ≤ n ∧ 0 < d
  | .centerLine _ w h _ _ => 0 < w ∧ 0 < h
  | .thermal _ o i g _ => 0 < i ∧ i ≤ o ∧ 0 ≤ g ∧ 2 * g ^ 2 ≤ i ^ 2
  | _ => True

/-- Something is painted for it. -/
def AmPrim.Seen : AmPrim → Prop
  | .comment _ | .moire .. | .lowerLeft .. | .unsupported _ => False
  | _ => True

/-! ## One part -/

/-- What is known of an area that is drawn right. -/
def ShownPart (K : Engine) (x : Bool × Set RPt) (sh : Cairo.Shape) (b : Box) : Prop :=
  sh.box = .ok b ∧ Ordered b ∧ (∀ p ∈ x.2, b.Holds p) ∧ ∀ s : ℝ, 0 < s → K.mask s x.1 false sh = .ok (inPixels s x.2)

theorem shift_turned (p c : RPt) (rot : ℝ) (q : RPt) : shift p (turned c rot q) = turned (shift p c) rot q := by
  simp only [shift, turned]
  ext <;> simp only <;> ring

theorem planar_turned {vs : List RPt} (c : RPt) (rot : ℝ) (h : Planar vs) : Planar (vs.map (turned c rot)) := by
  obtain ⟨p, hp, q, hq, r, hr, h⟩ := h
  exact ⟨_, List.mem_map_of_mem hp, _, List.mem_map_of_mem hq, _, List.mem_map_of_mem hr, by rwa [cross3_turned]⟩

theorem placed_turn (c p : RPt) (rot : ℝ) (A : Set RPt) :
    placed c 0 (placed (0, 0) rot (placed p 0 A)) = placed (shift c (turned (0, 0) rot p)) rot A := by
  rw [placed_turned, placed_turned, placed_turned, placed_turned, Set.image_image, Set.image_image]
  apply Set.image_congr
  intro x _
  simp only [turned, shift, radians, zero_mul, zero_div, Real.cos_zero, Real.sin_zero]
  ext <;> simp only <;> ring

theorem turned_still {p : ℚ × ℚ} {rot : ℚ} (h : p = (0, 0) ∨ rot = 0) : turned (0, 0) rot (toR p) = toR p := by
  rcases h with rfl | rfl <;> simp [turned, toR, radians]

/-- Filled outlines of lines. -/
theorem outline_shown {K : Engine} (hK : K.Winding) (on : Bool) (a : RPt × RPt) (l : List (RPt × RPt)) :
    ∃ b, ShownPart K (on, inside (a.1 :: (a :: l).map Prod.snd)) (.region ((a :: l).map fun l => .line l.1 l.2)) b := by
  obtain ⟨b, hb⟩ : ∃ b, unionBox (((a :: l).map fun l => Part.line l.1 l.2).map Part.box) = some b := ⟨_, rfl⟩
  obtain ⟨hb1, -⟩ := unionBox_spec hb
  have hin : ∀ v ∈ a.1 :: (a :: l).map Prod.snd, b.Holds v := by
    intro v hv
    rcases List.mem_cons.mp hv with rfl | hv
    · refine hb1 _ (List.mem_map_of_mem (List.mem_map_of_mem List.mem_cons_self)) _ ?_
      exact ⟨min_le_left _ _, le_max_left _ _, min_le_left _ _, le_max_left _ _⟩
    · obtain ⟨x, hx, rfl⟩ := List.mem_map.mp hv
      refine hb1 _ (List.mem_map_of_mem (List.mem_map_of_mem hx)) _ ?_
      exact ⟨min_le_right _ _, le_max_right _ _, min_le_right _ _, le_max_right _ _⟩
  refine ⟨b, by simp only [Cairo.Shape.box, hb], ?_, ?_, ?_⟩
  · obtain ⟨h1, h2, h3, h4⟩ := hin a.2 (by simp)
    exact ⟨h1.trans h2, h3.trans h4⟩
  · intro p hp
    exact convexHull_min (fun v hv => hin v hv) (box_convex b) (inside_span _ hp)
  · intro s hs
    have h := hK.lines (scalePoint s a.1) (((a :: l).map Prod.snd).map (scalePoint s))
    rw [← List.map_cons] at h
    rw [← inside_scaled hs, ← h]
    simp only [Engine.mask, List.map_cons, List.map_map, Function.comp_def]
    rfl

/-- Filled outlines around their corners. -/
theorem outline_around {K : Engine} (hK : K.Winding) (on : Bool) {lines : List (RPt × RPt)} (hne : lines ≠ [])
    (hl : (lines.getLast hne).2 = (lines.head hne).1) (ha : Around (lines.map Prod.snd)) :
    ∃ b, ShownPart K (on, span (lines.map Prod.snd)) (.region (lines.map fun l => .line l.1 l.2)) b := by
  obtain ⟨a, l, rfl⟩ := List.exists_cons_of_ne_nil hne
  obtain ⟨b, hb⟩ := outline_shown hK on a l
  have h := inside_around (by simp) ha
  rw [List.getLast_map, hl] at h
  rw [← h]
  exact ⟨b, hb⟩

theorem inside_shift (c : RPt) (vs : List RPt) : inside (vs.map (shift c)) = placed c 0 (inside vs) := by
  ext q
  have h := inside_map (s := 1) one_pos c vs (q.1 - c.1, q.2 - c.2)
  have e : (1 * (q.1 - c.1, q.2 - c.2).1 + c.1, 1 * (q.1 - c.1, q.2 - c.2).2 + c.2) = q := by ext <;> simp
  have hf : (fun v : RPt => (1 * v.1 + c.1, 1 * v.2 + c.2)) = shift c := by
    funext v
    simp only [shift, one_mul, add_comm]
  rw [e, hf] at h
  rw [h]
  simp only [placed_zero]

/-- What is known of some areas and of the shapes drawn for them. -/
def ShownParts (K : Engine) (As : List (Bool × Set RPt)) (xs : List (Bool × Cairo.Shape)) (bs : List Box) : Prop :=
  ∃ ys : List ((Bool × Set RPt) × (Cairo.Shape × Box)), (∀ y ∈ ys, ShownPart K y.1 y.2.1 y.2.2) ∧
    As = ys.map (·.1) ∧ xs = ys.map (fun y => (y.1.1, y.2.1)) ∧ bs = ys.map (·.2.2)

theorem ShownParts.nil (K : Engine) : ShownParts K [] [] [] := ⟨[], by simp⟩

theorem ShownParts.one {K : Engine} {x : Bool × Set RPt} {sh : Cairo.Shape} {b : Box} (h : ShownPart K x sh b) :
    ShownParts K [x] [(x.1, sh)] [b] := ⟨[(x, (sh, b))], by simpa using h, rfl, rfl, rfl⟩

theorem ShownParts.append {K : Engine} {As As' : List (Bool × Set RPt)} {xs xs' : List (Bool × Cairo.Shape)}
    {bs bs' : List Box} (h : ShownParts K As xs bs) (h' : ShownParts K As' xs' bs') :
    ShownParts K (As ++ As') (xs ++ xs') (bs ++ bs') := by
  obtain ⟨ys, h1, rfl, rfl, rfl⟩ := h
  obtain ⟨ys', h1', rfl, rfl, rfl⟩ := h'
  refine ⟨ys ++ ys', ?_, by simp, by simp, by simp⟩
  intro y hy
  rcases List.mem_append.mp hy with hy | hy
  · exact h1 y hy
  · exact h1' y hy

/-- Drawing the shapes of macro primitives moved to `p`. -/
noncomputable def drawAt (p : Pt) (l : List Drawn) : PyR (List (Bool × Cairo.Shape)) :=
  l.mapM fun x => do .ok (x.dark, ← x.shape.drawn (Pt.real p))

theorem drawAt_append {p : Pt} {l l' : List Drawn} {xs xs' : List (Bool × Cairo.Shape)} (h : drawAt p l = .ok xs)
    (h' : drawAt p l' = .ok xs') : drawAt p (l ++ l') = .ok (xs ++ xs') := by
  unfold drawAt at *
  rw [List.mapM_append, h, h']
  rfl

/-- The areas of several outlines. -/
theorem outlines_shown {K : Engine} (hK : K.Winding) (p : Pt) {areas : List (List (RPt × RPt))} (hne : ∀ x ∈ areas, x ≠ []) :
    ∃ xs bs, drawAt p (areas.map fun lines => ⟨true, .outline lines⟩) = .ok xs ∧
      ShownParts K (areas.map fun lines => (true, placed (toPlane p) 0 (inside (filled lines)))) xs bs := by
  induction areas with
  | nil => exact ⟨[], [], rfl, .nil K⟩
  | cons lines areas ih =>
    obtain ⟨xs, bs, h1, h2⟩ := ih fun x hx => hne x (by simp [hx])
    obtain ⟨a, l, rfl⟩ := List.exists_cons_of_ne_nil (hne lines (by simp))
    obtain ⟨b, hb⟩ := outline_shown hK true (shift (toPlane p) a.1, shift (toPlane p) a.2)
      (l.map fun y => (shift (toPlane p) y.1, shift (toPlane p) y.2))
    refine ⟨(true, .region (((a :: l).map fun y => (shift (toPlane p) y.1, shift (toPlane p) y.2)).map
      fun y => .line y.1 y.2)) :: xs, b :: bs, ?_, ?_⟩
    · rw [List.map_cons, ← List.singleton_append, ← List.singleton_append (l := xs)]
      refine drawAt_append ?_ h1
      simp only [drawAt, List.mapM_cons, List.mapM_nil, Shape.drawn, List.map_map]
      rfl
    · rw [List.map_cons, ← List.singleton_append, ← List.singleton_append (l := xs), ← List.singleton_append (l := bs)]
      refine ShownParts.append (.one (x := (true, _)) ?_) h2
      rw [← inside_shift]
      simpa only [filled, List.head?_cons, Option.map_some, Option.toList_some, List.cons_append, List.nil_append,
        List.map_cons, List.map_map, Function.comp_def] using hb

theorem arcCorners_base {r g : ℝ} : arcCorners r g = arcBase (Real.arcsin (g / 2 / r)) r := by
  simp only [arcCorners, arcBase, approximateArc]
  apply List.map_congr_left
  intro i _
  ext <;> simp only [zero_add] <;> rw [mul_comm] <;> congr 2 <;> ring

theorem quarter_corners (p : ℚ × ℚ) {outer inner gap : ℚ} (rot : ℚ) (hi : 0 < inner) (ho : inner ≤ outer)
    (hg : 0 ≤ gap) (hgap : 2 * gap ^ 2 ≤ inner ^ 2) :
    ∃ c l, quarterCorners outer inner gap = c :: l ∧
      toPrimitive (.thermal p outer inner gap rot) = .ok ([0, 90, 180, 270].map fun a : ℝ =>
        ⟨true, .outline (fan (turned (toR p) (rot + a) c) ((l ++ [c]).map (turned (toR p) (rot + a))))⟩) := by
  have hi' : (0 : ℝ) < inner := by exact_mod_cast hi
  have ho' : (inner : ℝ) ≤ outer := by exact_mod_cast ho
  have hg' : (0 : ℝ) ≤ gap := by exact_mod_cast hg
  have hgap' : 2 * (gap : ℝ) ^ 2 ≤ (inner : ℝ) ^ 2 := by exact_mod_cast hgap
  have ang : ∀ r : ℝ, inner ≤ r → (fdiv ((gap : ℝ) / 2) (r / 2) >>= asin) = .ok (Real.arcsin ((gap : ℝ) / 2 / (r / 2))) := by
    intro r hr
    obtain ⟨a, e, -⟩ := offset_angle (r := r / 2) (by linarith) hg' (by rw [mul_div_cancel₀ _ two_ne_zero]; nlinarith)
    rw [e]
    simp only [fdiv, if_neg (show r / 2 ≠ 0 by linarith), bind, Except.bind, asin] at e
    split at e
    · cases e
    · exact e.symm
  obtain ⟨c, l, hl⟩ : ∃ c l, quarterCorners outer inner gap = c :: l := by
    apply List.exists_cons_of_ne_nil
    simp [quarterCorners, arcCorners]
  refine ⟨c, l, hl, ?_⟩
  simp only [toPrimitive]
  refine thermal_eq (toR p) (ang _ le_rfl) (ang _ ho') ?_
  rw [← arcCorners_base, ← arcCorners_base]
  exact hl

theorem placed_move (c p : RPt) (rot : ℝ) (A : Set RPt) : placed c 0 (placed p rot A) = placed (shift c p) rot A := by
  rw [placed_turned, placed_turned, placed_turned, Set.image_image]
  apply Set.image_congr
  intro x _
  simp only [turned, shift, radians, zero_mul, zero_div, Real.cos_zero, Real.sin_zero]
  ext <;> simp only <;> ring

theorem am_shown {K : Engine} (hK : K.Winding) {a : AmPrim} (h : a.Paints) (p : Pt) :
    ∃ l xs bs, toPrimitive a = .ok l ∧ drawAt p l = .ok xs ∧ ShownParts K (a.painted (toPlane p)) xs bs := by
  cases a with
  | comment c => exact ⟨[], [], [], rfl, rfl, .nil K⟩
  | circle on d pos =>
    have d0 : (0 : ℝ) ≤ d := by exact_mod_cast (show 0 ≤ d from h)
    obtain ⟨b, b1, -, b2, b3⟩ := C66_box_circle (shift (toPlane p) (toR pos)) d0 0 {}
    obtain ⟨s, h1, h2⟩ := C63_circle on d pos
    subst h2
    have e : placed (toPlane p) 0 (placed ((pos.1 : ℝ), (pos.2 : ℝ)) 0 (disc ((d : ℝ) / 2))) =
        placed (shift (toPlane p) (toR pos)) 0 (disc ((d : ℝ) / 2)) := by
      ext q
      simp only [placed_zero, shift, toR, sub_sub, add_comm]
    refine ⟨_, _, _, h1, rfl, .one (x := (on, _)) ⟨b1, b2, ?_, ?_⟩⟩
    · rw [e]; exact b3
    · intro s hs
      rw [e]
      obtain ⟨M, m1, m2⟩ := C68_circle K hs on false (shift (toPlane p) (toR pos)) d 0 0
      rw [if_neg (lt_irrefl _)] at m2
      rw [← m2]
      exact m1
  | outline on start ps rot =>
    obtain ⟨lines, l1, l2, -⟩ := C63_outline on start ps rot h
    obtain ⟨x, l, rfl⟩ : ∃ x l, lines = x :: l := by
      apply List.exists_cons_of_ne_nil
      rintro rfl
      simp [filled] at l2
    have l2' : x.1 :: (x :: l).map Prod.snd = ((start :: ps).map toPlane).map (turned (0, 0) rot) := by
      rw [List.map_map]
      simpa [filled, toPlane, Function.comp_def] using l2
    obtain ⟨b, hb⟩ := outline_shown hK on (shift (toPlane p) x.1, shift (toPlane p) x.2)
      (l.map fun y => (shift (toPlane p) y.1, shift (toPlane p) y.2))
    refine ⟨_, [(on, .region (((x :: l).map fun y => (shift (toPlane p) y.1, shift (toPlane p) y.2)).map
      fun y => .line y.1 y.2))], _, l1, ?_, .one (x := (on, _)) (b := b) ?_⟩
    · simp only [drawAt, List.mapM_cons, List.mapM_nil, Shape.drawn, List.map_map]
      rfl
    · have e1 : placed (toPlane p) 0 (inside ((start :: ps).map fun p => turned (0, 0) rot ((p.1 : ℝ), (p.2 : ℝ)))) =
          inside ((x.1 :: (x :: l).map Prod.snd).map (shift (toPlane p))) := by
        rw [inside_shift, l2', List.map_map]
        rfl
      rw [e1]
      simpa only [List.map_cons, List.map_map, Function.comp_def] using hb
  | polygon on n pos d rot =>
    obtain ⟨hn, hd⟩ := h
    have d0 : (0 : ℝ) < (d : ℝ) / 2 := by
      have : (0 : ℝ) < d := by exact_mod_cast hd
      linarith
    have hn' : 3 ≤ n.toNat := by omega
    have hs' : sides n = .ok n.toNat := by unfold sides; rw [if_neg (by omega)]
    obtain ⟨b, b1, b2, b3⟩ := C66_box_polygon (shift (toPlane p) (toR pos)) (show n.toNat ≠ 0 by omega) d0.le rot {}
    have e : placed (toPlane p) 0 (placed ((pos.1 : ℝ), (pos.2 : ℝ)) rot (regular n.toNat ((d : ℝ) / 2))) =
        placed (shift (toPlane p) (toR pos)) rot (regular n.toNat ((d : ℝ) / 2)) := by
      rw [placed_move]
      rfl
    refine ⟨_, _, _, rfl, ?_, .one (x := (on, _)) ⟨b1, b2, ?_, ?_⟩⟩
    · simp only [drawAt, List.mapM_cons, List.mapM_nil, Shape.drawn, hs', bind, Except.bind]
      rfl
    · rw [e]; exact b3
    · intro s hs
      rw [e]
      exact C68_polygon_partial (C68_convex hK) hs on false _ hn' d0.ne' rot
  | centerLine on w g c rot =>
    obtain ⟨hw, hg⟩ := h
    have w0 : (0 : ℝ) < w := by exact_mod_cast hw
    have g0 : (0 : ℝ) < g := by exact_mod_cast hg
    have l1 := centerLine_eq on w g c rot
    have hlast := center_last w g (toR c) rot
    obtain ⟨lines, k1, k2, k3⟩ := C63_center_line on hw.le hg.le c rot
    rw [l1] at k1
    obtain rfl : fan (turned (toR c) rot ((w : ℝ) / 2, (g : ℝ) / 2)) ((centerBase w g).map (turned (toR c) rot)) = lines := by
      injection k1 with k1
      simpa using k1
    rw [filled_fan hlast, span_cons (mem_of_last hlast), span_turned] at k2
    rw [fan_snd, around_turned] at k3
    have e1 : ((fan (turned (toR c) rot ((w : ℝ) / 2, (g : ℝ) / 2)) ((centerBase w g).map (turned (toR c) rot))).map
        fun y => (shift (toPlane p) y.1, shift (toPlane p) y.2)).map Prod.snd =
        (centerBase w g).map (turned (shift (toPlane p) (toR c)) rot) := by
      rw [List.map_map, show (Prod.snd ∘ fun y : RPt × RPt => (shift (toPlane p) y.1, shift (toPlane p) y.2)) =
        shift (toPlane p) ∘ Prod.snd from rfl, ← List.map_map, fan_snd, List.map_map]
      apply List.map_congr_left
      intro q _
      rw [Function.comp_apply, shift_turned]
    have e3 : Around (((fan (turned (toR c) rot ((w : ℝ) / 2, (g : ℝ) / 2))
        ((centerBase w g).map (turned (toR c) rot))).map
        fun y => (shift (toPlane p) y.1, shift (toPlane p) y.2)).map Prod.snd) := by
      rw [e1, around_turned]; exact k3
    obtain ⟨b, hb⟩ := outline_around hK on (by simp [fan, centerBase]) rfl e3
    refine ⟨_, [(on, .region (((fan (turned (toR c) rot ((w : ℝ) / 2, (g : ℝ) / 2))
        ((centerBase w g).map (turned (toR c) rot))).map fun y => (shift (toPlane p) y.1, shift (toPlane p) y.2)).map
        fun y => .line y.1 y.2))], _, l1, ?_, .one (x := (on, _)) (b := b) ?_⟩
    · simp only [drawAt, List.mapM_cons, List.mapM_nil, Shape.drawn, List.map_map]
      rfl
    · rw [e1, span_turned] at hb
      have hslab : span (centerBase w g) = slab w g := by
        apply Set.image_injective.2 (turned_injective (toR c) rot)
        rw [← placed_turned, ← placed_turned]
        exact k2
      have e2 : placed (toPlane p) 0 (placed ((c.1 : ℝ), (c.2 : ℝ)) rot (slab w g)) =
          placed (shift (toPlane p) (toR c)) rot (span (centerBase w g)) := by
        rw [placed_move, hslab]
        rfl
      rw [e2]
      exact hb
  | vectorLine code on w start stop rot =>
    have w0 : (0 : ℝ) < w := by exact_mod_cast (show 0 < w from h)
    obtain ⟨vs, hv, hspan, har, -⟩ := C62_line_partial (toR start) (toR stop) w0.le w0.le (.inl ⟨w0, w0⟩)
    have e0 : placed (0, 0) 0 (slab (w : ℝ) w) = slab w w := by
      ext q
      simp [placed, radians]
    rw [e0] at hspan
    have hne : vs ≠ [] := by
      rintro rfl
      have : ((toR start).1 + 0, (toR start).2 + 0) ∈ span [] := by
        rw [hspan]
        exact ⟨toR start, ⟨0, le_refl _, by norm_num, by simp⟩, (0, 0),
          ⟨by simpa using by linarith, by simpa using by linarith⟩, by simp⟩
      simp [span] at this
    have l1 := vectorLine_eq code on start stop rot hv (List.getLast?_eq_some_getLast hne)
    obtain ⟨lines, hl⟩ : ∃ lines, lines = fan (turned (0, 0) (rot : ℝ) (vs.getLast hne)) (vs.map (turned (0, 0) rot)) :=
      ⟨_, rfl⟩
    rw [← hl] at l1
    have hsnd : (lines.map fun y => (shift (toPlane p) y.1, shift (toPlane p) y.2)).map Prod.snd =
        vs.map (turned (shift (toPlane p) (0, 0)) rot) := by
      rw [hl, List.map_map, show (Prod.snd ∘ fun y : RPt × RPt => (shift (toPlane p) y.1, shift (toPlane p) y.2)) =
        shift (toPlane p) ∘ Prod.snd from rfl, ← List.map_map, fan_snd, List.map_map]
      apply List.map_congr_left
      intro q _
      rw [Function.comp_apply, shift_turned]
    have hne' : lines.map (fun y => (shift (toPlane p) y.1, shift (toPlane p) y.2)) ≠ [] := by
      simpa [hl, fan] using hne
    obtain ⟨b, hb⟩ := outline_around hK on hne' (by
      subst hl
      simp only [fan, List.map_map, List.getLast_map, List.head_map, Function.comp_apply]) (by rw [hsnd, around_turned]; exact har)
    refine ⟨_, [(on, .region ((lines.map fun y => (shift (toPlane p) y.1, shift (toPlane p) y.2)).map
        fun y => .line y.1 y.2))], _, l1, ?_, .one (x := (on, _)) (b := b) ?_⟩
    · simp only [drawAt, List.mapM_cons, List.mapM_nil, Shape.drawn, List.map_map]
      rfl
    · rw [hsnd, span_turned, hspan] at hb
      rw [placed_move]
      exact hb
  | thermal pos outer inner gap rot =>
    obtain ⟨hi, ho, hg, hgap⟩ := h
    obtain ⟨c, l, hq, ht⟩ := quarter_corners pos rot hi ho hg hgap
    obtain ⟨xs, bs, h1, h2⟩ := outlines_shown hK p (areas := [0, 90, 180, 270].map fun a : ℝ =>
      fan (turned (toR pos) (rot + a) c) ((l ++ [c]).map (turned (toR pos) (rot + a)))) (by simp [fan])
    refine ⟨_, xs, bs, ht, by rw [List.map_map] at h1; exact h1, ?_⟩
    rw [List.map_map] at h2
    have e : AmPrim.painted (toPlane p) (.thermal pos outer inner gap rot) = [0, 90, 180, 270].map
        ((fun lines => (true, placed (toPlane p) 0 (inside (filled lines)))) ∘ fun a : ℝ =>
          fan (turned (toR pos) (rot + a) c) ((l ++ [c]).map (turned (toR pos) (rot + a)))) := by
      simp only [AmPrim.painted]
      apply List.map_congr_left
      intro a _
      rw [Function.comp_apply, filled_fan (by simp), hq]
      simp [toR]
    rw [e]
    exact h2
  | moire => exact ⟨[], [], [], rfl, rfl, .nil K⟩
  | lowerLeft => exact ⟨[], [], [], rfl, rfl, .nil K⟩
  | unsupported => exact ⟨[], [], [], rfl, rfl, .nil K⟩

/-! ## Groups -/

theorem groupShapes_cons {a : AmPrim} {g : List AmPrim} {l l' : List Drawn} (h : toPrimitive a = .ok l)
    (h' : groupShapes g = .ok l') : groupShapes (a :: g) = .ok (l ++ l') := by
  unfold groupShapes at *
  obtain ⟨parts, h1, h2⟩ := Excellon.bindOk h'
  cases h2
  rw [List.mapM_cons, h, h1]
  rfl

theorem group_shown {K : Engine} (hK : K.Winding) {g : List AmPrim} (h : ∀ a ∈ g, a.Paints) (p : Pt) :
    ∃ l xs bs, groupShapes g = .ok l ∧ drawAt p l = .ok xs ∧ ShownParts K (g.flatMap (AmPrim.painted (toPlane p))) xs bs := by
  induction g with
  | nil => exact ⟨[], [], [], rfl, rfl, .nil K⟩
  | cons a g ih =>
    obtain ⟨l, xs, bs, h1, h2, h3⟩ := am_shown hK (h a (by simp)) p
    obtain ⟨l', xs', bs', h1', h2', h3'⟩ := ih fun x hx => h x (by simp [hx])
    exact ⟨_, _, _, groupShapes_cons h1 h1', drawAt_append h2 h2', h3.append h3'⟩

/-- One box lies in another. -/
def Inside (x b : Box) : Prop := b.1.1 ≤ x.1.1 ∧ x.1.2 ≤ b.1.2 ∧ b.2.1 ≤ x.2.1 ∧ x.2.2 ≤ b.2.2

theorem Inside.refl (b : Box) : Inside b b := ⟨le_rfl, le_rfl, le_rfl, le_rfl⟩

theorem Inside.holds {x b : Box} (h : Inside x b) {p : RPt} (hp : x.Holds p) : b.Holds p :=
  ⟨h.1.trans hp.1, hp.2.1.trans h.2.1, h.2.2.1.trans hp.2.2.1, hp.2.2.2.trans h.2.2.2⟩

theorem inside_of_holds {x b : Box} (ho : Ordered x) (h : ∀ q, x.Holds q → b.Holds q) : Inside x b := by
  obtain ⟨h1, -, h3, -⟩ := h (x.1.1, x.2.1) ⟨le_rfl, ho.1, le_rfl, ho.2⟩
  obtain ⟨-, k2, -, k4⟩ := h (x.1.2, x.2.2) ⟨ho.1, le_rfl, ho.2, le_rfl⟩
  exact ⟨h1, k2, h3, k4⟩

theorem ShownParts.boxes {K : Engine} {As : List (Bool × Set RPt)} {xs : List (Bool × Cairo.Shape)} {bs : List Box}
    (h : ShownParts K As xs bs) : xs.mapM (fun x => x.2.box) = .ok bs ∧ ∀ b ∈ bs, Ordered b := by
  obtain ⟨ys, h1, -, rfl, rfl⟩ := h
  constructor
  · induction ys with
    | nil => rfl
    | cons y l ih =>
      rw [List.map_cons, List.mapM_cons, (h1 y (by simp)).1, ih fun z hz => h1 z (by simp [hz])]
      rfl
  · intro b hb
    obtain ⟨y, hy, rfl⟩ := List.mem_map.mp hb
    exact (h1 y hy).2.1

end Verif.Am

namespace Verif.Gerber
open Verif.Py Verif.Cairo Verif.Geom Verif.Render Verif.Am

/-- Primitives of files with macros whose parts are drawn right. -/
def Prim.Builds : Prim (List AmPrim) → Prop
  | .flash (.group g) _ _ _ => (∀ a ∈ g, a.Draws) ∧ ∃ a ∈ g, a.Real
  | P => P.Draws

/-- Primitives of files with macros that do not make drawing fail. -/
def Prim.Paints : Prim (List AmPrim) → Prop
  | .flash (.group g) _ _ _ => (∀ a ∈ g, a.Paints) ∧ ∃ a ∈ g, a.Seen
  | P => P.Draws

/-- Primitives of files with macros that are drawn right; flashed macros, if they are dark. -/
def Prim.DrawsAll (P : Prim (List AmPrim)) : Prop := P.Builds ∧ ∀ g p pol u, P = .flash (.group g) p pol u → P.dark = true

theorem painted_ne {a : AmPrim} (h : a.Seen) (c : RPt) : a.painted c ≠ [] := by
  cases a <;> simp_all [AmPrim.painted, AmPrim.Seen]

/-- What is painted for primitives that are drawn right. -/
theorem painted_layer {a : AmPrim} (h : a.Draws) (c : RPt) : a.Paints ∧ (a.Real → a.Seen) ∧ a.painted c = a.layer c := by
  cases a with
  | comment => exact ⟨trivial, id, rfl⟩
  | circle => exact ⟨h, id, rfl⟩
  | outline => exact ⟨h, id, rfl⟩
  | polygon on n p d rot =>
    refine ⟨⟨h.1, h.2.1⟩, id, ?_⟩
    simp only [AmPrim.painted, AmPrim.layer, AmPrim.exposed, AmPrim.area]
    rw [placed_turn, show (((p.1 : ℝ), (p.2 : ℝ)) : RPt) = toR p from rfl, turned_still h.2.2, placed_move]
  | centerLine on w g p rot =>
    refine ⟨⟨h.1, h.2.1⟩, id, ?_⟩
    simp only [AmPrim.painted, AmPrim.layer, AmPrim.exposed, AmPrim.area]
    rw [placed_turn, show (((p.1 : ℝ), (p.2 : ℝ)) : RPt) = toR p from rfl, turned_still h.2.2, placed_move]
  | _ => exact h.elim

theorem builds_paints {P : Prim (List AmPrim)} (h : P.Builds) : P.Paints ∧ P.painted = P.layers := by
  cases P with
  | edge => exact ⟨h, rfl⟩
  | region => exact ⟨h, rfl⟩
  | flash sh p pol u =>
    cases sh with
    | group g =>
      obtain ⟨h1, a, ha, hr⟩ := h
      refine ⟨⟨fun x hx => (painted_layer (h1 x hx) (0, 0)).1, a, ha, (painted_layer (h1 a ha) (0, 0)).2.1 hr⟩, ?_⟩
      simp only [Prim.painted, Prim.layers]
      exact List.flatMap_congr fun x hx => (painted_layer (h1 x hx) _).2.2
    | _ => exact ⟨h, rfl⟩

theorem prim_parts {K : Engine} (hK : K.Winding) {P : Prim (List AmPrim)} (h : P.Paints) :
    ∃ cp b xs bs, P.drawn groupParts = .ok cp ∧ primBox cp = .ok b ∧ (∀ fr : Frame, fr.shapes cp = xs) ∧
      ShownParts K P.painted xs bs ∧ (∀ x ∈ bs, Inside x b) ∧ bs ≠ [] := by
  have plain : P.Draws → P.painted = [(P.dark, P.area)] → ∃ cp b xs bs, P.drawn groupParts = .ok cp ∧ primBox cp = .ok b ∧
      (∀ fr : Frame, fr.shapes cp = xs) ∧ ShownParts K P.painted xs bs ∧ (∀ x ∈ bs, Inside x b) ∧ bs ≠ [] := by
    intro hd hl
    obtain ⟨x, b, h1, h2⟩ := prim_shown hK groupParts hd
    refine ⟨_, b, _, [b], h1, h2.1, fun _ => rfl, ?_, by simp [Inside.refl], by simp⟩
    rw [hl]
    exact .one (x := (P.dark, P.area)) h2
  cases P with
  | edge e => exact plain h rfl
  | region es pol u => exact plain h rfl
  | flash sh p pol u =>
    cases sh with
    | group g =>
      obtain ⟨h1, a, ha, hr⟩ := h
      obtain ⟨l, xs, bs, g1, g2, g3⟩ := group_shown hK h1 p
      have hparts : groupParts g p = .ok xs := by
        unfold groupParts
        rw [g1]
        exact g2
      have hbs : bs ≠ [] := by
        obtain ⟨ys, -, e, -, rfl⟩ := g3
        have : g.flatMap (AmPrim.painted (toPlane p)) ≠ [] := by
          intro h0
          rw [List.flatMap_eq_nil_iff] at h0
          exact painted_ne hr _ (h0 a ha)
        rw [e] at this
        simpa using this
      obtain ⟨b, hb⟩ : ∃ b, unionBox bs = some b := by
        cases bs with
        | nil => exact absurd rfl hbs
        | cons _ _ => exact ⟨_, rfl⟩
      obtain ⟨hb1, -⟩ := unionBox_spec hb
      obtain ⟨hbx, hbo⟩ := g3.boxes
      refine ⟨.group xs, b, xs, bs, by simp only [Prim.drawn, hparts, bind, Except.bind], ?_, fun _ => rfl, g3,
        fun x hx => inside_of_holds (hbo x hx) (hb1 x hx), hbs⟩
      simp only [primBox, hbx, bind, Except.bind, hb]
    | circle => exact plain h rfl
    | rect => exact plain h rfl
    | obround => exact plain h rfl
    | polygon => exact plain h rfl

theorem prims_parts {K : Engine} (hK : K.Winding) {Ps : List (Prim (List AmPrim))} (h : ∀ P ∈ Ps, P.Paints) :
    ∃ cps bs xs cs, Ps.mapM (Prim.drawn groupParts) = .ok cps ∧
      List.Forall₂ (fun x b => primBox x = .ok b) cps bs ∧ (∀ fr : Frame, cps.flatMap fr.shapes = xs) ∧
      ShownParts K (Ps.flatMap Prim.painted) xs cs ∧ (∀ x ∈ cs, ∃ b ∈ bs, Inside x b) ∧ (Ps ≠ [] → cs ≠ []) := by
  induction Ps with
  | nil => exact ⟨[], [], [], [], rfl, .nil, fun _ => rfl, .nil K, by simp, by simp⟩
  | cons P l ih =>
    obtain ⟨cp, b, xs, bs, h1, h2, h3, h4, h5, h6⟩ := prim_parts hK (h P (by simp))
    obtain ⟨cps, bs', xs', cs', h1', h2', h3', h4', h5', -⟩ := ih fun Q hQ => h Q (by simp [hQ])
    refine ⟨cp :: cps, b :: bs', xs ++ xs', bs ++ cs', ?_, .cons h2 h2', ?_, h4.append h4', ?_, ?_⟩
    · rw [List.mapM_cons, h1, h1']
      rfl
    · intro fr
      rw [List.flatMap_cons, h3, h3']
    · intro x hx
      rcases List.mem_append.mp hx with hx | hx
      · exact ⟨b, by simp, h5 x hx⟩
      · obtain ⟨c, hc, hi⟩ := h5' x hx
        exact ⟨c, by simp [hc], hi⟩
    · simp [h6]

/-! ## The picture -/

/-- **C76.** The picture of a file with macros, for all macros that do not make drawing fail: as in `C75_picture_partial`, but
with the areas painted for the primitives of flashed macros one after the other. -/
theorem C76_picture {K : Engine} (hK : K.Winding) {f : GerberFile (List AmPrim)} (hne : f.primitives ≠ [])
    (h : ∀ P ∈ f.primitives, P.Paints) {s : ℝ} (hs : 0 < s) :
    ∃ (b : Box) (area : Set RPt) (tops : List ℝ), Ordered b ∧
      (∀ x ∈ f.primitives.flatMap Prim.painted, ∀ p ∈ x.2, b.Holds p) ∧
      Am.render K f { scale := s } = .ok
        { scale := s, frame := some (Frame.of s b), hasBg := true, count := 0,
          paints := [.background [0, 0, 0] 1, .layer [7215 / 10000, 451 / 1000, 200 / 1000] 1 area] } ∧
      List.Forall₂ (fun (x : Bool × Set RPt) t => ∀ p ∈ x.2, p.2 ≤ t) (f.primitives.flatMap Prim.painted) tops ∧
      ∀ q, q ∈ area ↔ ∃ p, q = onPicture b s false p ∧
        LastDark (((f.primitives.flatMap Prim.painted).zip tops).map fun y => (y.1.1, cutAt b s y.2 y.1.2)) p := by
  obtain ⟨stmts, settings, Ps⟩ := f
  simp only at hne h ⊢
  obtain ⟨cps, bs, xs, cs, h1, h2, h3, ⟨ys, h4, e1, rfl, rfl⟩, h5, h6⟩ := prims_parts hK h
  have hbox := boxAround_fold h2
  obtain ⟨w1, -⟩ := widen_fold bs million
  generalize bs.foldl widen million = b at hbox w1
  have hins : ∀ y ∈ ys, Inside y.2.2 b := by
    intro y hy
    obtain ⟨c, hc, i1, i2, i3, i4⟩ := h5 y.2.2 (List.mem_map_of_mem hy)
    obtain ⟨k1, k2, k3, k4⟩ := w1 c hc
    exact ⟨k1.trans i1, i2.trans k2, k3.trans i3, i4.trans k4⟩
  have ho : Ordered b := by
    obtain ⟨c, hc⟩ := List.exists_mem_of_ne_nil _ (h6 hne)
    obtain ⟨y, hy, rfl⟩ := List.mem_map.mp hc
    obtain ⟨i1, i2, i3, i4⟩ := hins y hy
    obtain ⟨o1, o2⟩ := (h4 y hy).2.1
    exact ⟨(i1.trans o1).trans i2, (i3.trans o2).trans i4⟩
  have hcov : ∀ y ∈ ys, ∃ D, K.covered (Frame.of s b) false false y.1.1 y.2.1 = .ok D ∧
      ∀ q, q ∈ D ↔ ∃ p ∈ y.1.2, s * p.2 - b.2.1 * s ≤ ⌊s * y.2.2.2.2 - ⌊b.2.1 * s⌋⌋ ∧ q = onPicture b s false p := by
    intro y hy
    obtain ⟨k1, k2, k3, k4⟩ := h4 y hy
    exact C66_covered ho hs k1 k2 (k4 s hs) k3
  obtain ⟨area, hP⟩ : ∃ area, K.layer (Frame.of s b) false false cps = .ok area := by
    unfold Engine.layer
    rw [h3]
    refine Excellon.draw_all _ _ fun z hz => ?_
    obtain ⟨y, hy, rfl⟩ := List.mem_map.mp hz
    obtain ⟨D, hD, -⟩ := hcov y hy
    exact ⟨D, hD⟩
  refine ⟨b, area, ys.map fun y => y.2.2.2.2, ho, ?_, ?_, ?_, ?_⟩
  · rw [e1]
    intro x hx p hp
    obtain ⟨y, hy, rfl⟩ := List.mem_map.mp hx
    exact (hins y hy).holds ((h4 y hy).2.2.1 p hp)
  · simp only [Am.render, GerberFile.render, h1, bind, Except.bind, Ctx.renderFile, hbox, Ctx.setBounds,
      Ctx.paintBackground, Ctx.paintLayer, Option.getD_none, Bool.false_eq_true, if_false, hP]
    rfl
  · rw [e1, List.forall₂_map_left_iff, List.forall₂_map_right_iff, List.forall₂_same]
    exact fun y hy p hp => ((h4 y hy).2.2.1 p hp).2.2.2
  · obtain ⟨As, a1, a2⟩ := C67_painted hP
    rw [h3] at a1
    intro q
    rw [a2]
    obtain ⟨p, hp⟩ : ∃ p, q = onPicture b s false p := by
      refine ⟨(q.1 / s + b.1.1, b.2.2 - q.2 / s), ?_⟩
      simp only [onPicture, Bool.false_eq_true, if_false]
      ext <;> field_simp <;> ring
    have key : List.Forall₂ (fun a c => a.1 = c.1 ∧ (q ∈ a.2 ↔ p ∈ c.2)) As
        (((Ps.flatMap Prim.painted).zip (ys.map fun y => y.2.2.2.2)).map fun y => (y.1.1, cutAt b s y.2 y.1.2)) := by
      rw [e1]
      clear h1 h2 h3 h5 h6 e1 hbox w1 hP hne h a2 hins
      induction ys generalizing As with
      | nil => cases a1; exact .nil
      | cons y l ih =>
        cases a1 with
        | cons c1 c2 =>
          refine .cons ⟨c1.1, ?_⟩ (ih (fun z hz => h4 z (by simp [hz])) (fun z hz => hcov z (by simp [hz])) _ c2)
          obtain ⟨D, hD, hD'⟩ := hcov y (by simp)
          have := c1.2
          rw [hD] at this
          injection this with this
          rw [← this, hD']
          constructor
          · rintro ⟨p', hp', hc, he⟩
            rw [hp] at he
            obtain rfl := onPicture_inj hs he
            exact ⟨hp', hc⟩
          · rintro ⟨hp', hc⟩
            exact ⟨p, hp', hc, hp⟩
    rw [lastDark_congr key]
    constructor
    · exact fun hl => ⟨p, hp, hl⟩
    · rintro ⟨p', hp', hl⟩
      rw [hp] at hp'
      obtain rfl := onPicture_inj hs hp'
      exact hl

theorem lastDark_nil (p : RPt) : ¬ LastDark [] p := by
  rintro ⟨_, _, _, h, -⟩
  simp at h

theorem lastDark_append (As Bs : List (Bool × Set RPt)) (p : RPt) :
    LastDark (As ++ Bs) p ↔ LastDark Bs p ∨ (∀ x ∈ Bs, p ∉ x.2) ∧ LastDark As p := by
  induction As with
  | nil =>
    rw [List.nil_append]
    exact ⟨.inl, fun h => h.elim id fun h => absurd h.2 (lastDark_nil p)⟩
  | cons a As ih =>
    rw [List.cons_append, lastDark_cons, lastDark_cons, ih]
    simp only [List.mem_append, or_imp, forall_and]
    tauto

theorem mem_image_cons {a : AmPrim} {g : List AmPrim} {q : RPt} :
    q ∈ Image (a :: g) ↔ q ∈ Image g ∨ (a.exposed = true ∧ q ∈ a.area ∧ ∀ x ∈ g, q ∉ x.area) := by
  constructor
  · rintro ⟨before, x, after, h, h1, h2, h3⟩
    cases before with
    | nil =>
      simp only [List.nil_append, List.cons.injEq] at h
      obtain ⟨rfl, rfl⟩ := h
      exact .inr ⟨h1, h2, h3⟩
    | cons b l =>
      simp only [List.cons_append, List.cons.injEq] at h
      obtain ⟨rfl, rfl⟩ := h
      exact .inl ⟨l, x, after, rfl, h1, h2, h3⟩
  · rintro (⟨before, x, after, rfl, h1, h2, h3⟩ | ⟨h1, h2, h3⟩)
    · exact ⟨a :: before, x, after, rfl, h1, h2, h3⟩
    · exact ⟨[], a, g, rfl, h1, h2, h3⟩

theorem layer_reach (a : AmPrim) (c q : RPt) : (∀ x ∈ a.layer c, q ∉ x.2) ↔ q ∉ placed c 0 a.area := by
  cases a with
  | comment => simp [AmPrim.layer, AmPrim.area, placed_zero]
  | _ => simp only [AmPrim.layer, List.mem_singleton, forall_eq]

theorem layers_reach (g : List AmPrim) (c q : RPt) :
    (∀ x ∈ g.flatMap (AmPrim.layer c), q ∉ x.2) ↔ ∀ a ∈ g, q ∉ placed c 0 a.area := by
  simp only [List.mem_flatMap, forall_exists_index, and_imp]
  constructor
  · intro h a ha
    exact (layer_reach a c q).mp fun x hx => h x a ha hx
  · intro h x a ha hx
    exact (layer_reach a c q).mpr (h a ha) x hx

theorem layer_dark (a : AmPrim) (c q : RPt) : LastDark (a.layer c) q ↔ a.exposed = true ∧ q ∈ placed c 0 a.area := by
  cases a with
  | comment => simp [AmPrim.layer, AmPrim.area, placed_zero, lastDark_nil]
  | _ =>
    rw [AmPrim.layer, lastDark_cons]
    · simp [lastDark_nil]
    · simp

theorem layers_dark (g : List AmPrim) (c q : RPt) :
    LastDark (g.flatMap (AmPrim.layer c)) q ↔ q ∈ placed c 0 (Image g) := by
  induction g with
  | nil =>
    rw [placed_zero]
    refine ⟨fun h => absurd h (lastDark_nil q), ?_⟩
    rintro ⟨_, _, _, h, -⟩
    simp at h
  | cons a g ih =>
    rw [List.flatMap_cons, lastDark_append, ih, layers_reach, layer_dark]
    simp only [placed_zero, mem_image_cons]
    tauto

theorem prim_dark {P : Prim (List AmPrim)} (h : P.DrawsAll) (q : RPt) :
    (LastDark P.layers q ↔ P.dark = true ∧ q ∈ P.image) ∧ ((∀ x ∈ P.layers, q ∉ x.2) ↔ q ∉ P.reach) ∧
      (q ∈ P.image → q ∈ P.reach) ∧ (q ∈ P.reach → q ∉ P.image → P.dark = true) := by
  have plain : P.layers = [(P.dark, P.area)] → P.image = P.area → P.reach = P.area →
      (LastDark P.layers q ↔ P.dark = true ∧ q ∈ P.image) ∧ ((∀ x ∈ P.layers, q ∉ x.2) ↔ q ∉ P.reach) ∧
      (q ∈ P.image → q ∈ P.reach) ∧ (q ∈ P.reach → q ∉ P.image → P.dark = true) := by
    intro h1 h2 h3
    rw [h1, h2, h3]
    refine ⟨?_, by simp, id, fun h h' => absurd h h'⟩
    rw [lastDark_cons]
    simp [lastDark_nil]
  cases P with
  | edge e => exact plain rfl rfl rfl
  | region es pol u => exact plain rfl rfl rfl
  | flash sh p pol u =>
    cases sh with
    | group g =>
      have hd := h.2 g p pol u rfl
      refine ⟨?_, ?_, ?_, fun _ _ => hd⟩
      · rw [hd]
        exact (layers_dark g _ q).trans (by simp [Prim.image])
      · refine (layers_reach g _ q).trans ?_
        simp only [Prim.reach, placed_zero, Set.mem_ofPred_eq, not_exists, not_and]
      · simp only [Prim.image, Prim.reach, placed_zero]
        rintro ⟨before, a, after, rfl, -, ha, -⟩
        exact ⟨a, by simp, ha⟩
    | circle => exact plain rfl rfl rfl
    | rect => exact plain rfl rfl rfl
    | obround => exact plain rfl rfl rfl
    | polygon => exact plain rfl rfl rfl

theorem lastDark_image {Ps : List (Prim (List AmPrim))} {p : RPt} (ha : Apart Ps p) (h : ∀ P ∈ Ps, P.DrawsAll) :
    LastDark (Ps.flatMap Prim.layers) p ↔ LastDark (Ps.map fun P => (P.dark, P.image)) p := by
  induction Ps using List.reverseRecOn with
  | nil => rfl
  | append_singleton Ps P ih =>
    obtain ⟨h1, h2, h3, -⟩ := prim_dark (h P (by simp)) p
    have hl := ih (fun before Q after e => ha before Q (after ++ [P]) (by simp [e])) fun Q hQ => h Q (by simp [hQ])
    rw [List.flatMap_append, List.map_append, List.flatMap_cons, List.flatMap_nil, List.append_nil, lastDark_append,
      List.map_cons, List.map_nil, lastDark_concat, h1, h2, hl]
    have hno : p ∈ P.reach → p ∉ P.image → ¬ LastDark (Ps.map fun P => (P.dark, P.image)) p := by
      intro r1 r2 hd
      obtain ⟨before, A, after, e, hA, -⟩ := hd
      have : (true, A) ∈ Ps.map fun P => (P.dark, P.image) := by rw [e]; simp
      obtain ⟨Q, hQ, e'⟩ := List.mem_map.mp this
      simp only [Prod.mk.injEq] at e'
      obtain ⟨-, rfl⟩ := e'
      exact ha Ps P [] rfl r1 r2 Q hQ hA
    tauto

/-- **C76.** For all macros that do not make drawing fail: every point that lies at least one pixel lower than some point
of each of the areas containing it is painted exactly if the last of the areas containing it is one that is added. -/
theorem C76_painted {K : Engine} (hK : K.Winding) {f : GerberFile (List AmPrim)} (hne : f.primitives ≠ [])
    (h : ∀ P ∈ f.primitives, P.Paints) {s : ℝ} (hs : 0 < s) :
    ∃ (b : Box) (area : Set RPt), Am.render K f { scale := s } = .ok
        { scale := s, frame := some (Frame.of s b), hasBg := true, count := 0,
          paints := [.background [0, 0, 0] 1, .layer [7215 / 10000, 451 / 1000, 200 / 1000] 1 area] } ∧
      (∀ x ∈ f.primitives.flatMap Prim.painted, ∀ p ∈ x.2, Visible (Frame.of s b).sizePx (onPicture b s false p)) ∧
      (∀ q ∈ area, ∃ x ∈ f.primitives.flatMap Prim.painted, x.1 = true ∧ ∃ p ∈ x.2, q = onPicture b s false p) ∧
      ∀ p, (∀ x ∈ f.primitives.flatMap Prim.painted, p ∈ x.2 → ∃ p' ∈ x.2, s * p.2 ≤ s * p'.2 - 1) →
        (onPicture b s false p ∈ area ↔ LastDark (f.primitives.flatMap Prim.painted) p) := by
  obtain ⟨b, area, tops, ho, hin, h1, h2, h3⟩ := C76_picture hK hne h hs
  refine ⟨b, area, h1, fun x hx p hp => (C65_visible ho hs false p).mpr (hin x hx p hp), ?_, ?_⟩
  · intro q hq
    obtain ⟨p, rfl, before, A, after, he, hA, -⟩ := (h3 q).mp hq
    have hmem : (true, A) ∈ ((f.primitives.flatMap Prim.painted).zip tops).map fun y => (y.1.1, cutAt b s y.2 y.1.2) := by
      rw [he]; simp
    obtain ⟨⟨x, t⟩, hy, e⟩ := List.mem_map.mp hmem
    simp only [Prod.mk.injEq] at e
    obtain ⟨e1, rfl⟩ := e
    exact ⟨x, (List.of_mem_zip hy).1, e1, p, hA.1, rfl⟩
  · intro p hp
    rw [h3]
    have key : List.Forall₂ (fun a c => a.1 = c.1 ∧ (p ∈ a.2 ↔ p ∈ c.2))
        (((f.primitives.flatMap Prim.painted).zip tops).map fun y => (y.1.1, cutAt b s y.2 y.1.2))
        (f.primitives.flatMap Prim.painted) := by
      clear h1 h3 hne h hin
      revert hp
      generalize f.primitives.flatMap Prim.painted = Ls at *
      intro hp
      induction h2 with
      | nil => exact .nil
      | @cons P t _ _ ht _ ih =>
        refine .cons ⟨rfl, ⟨fun h => h.1, fun h => ⟨h, ?_⟩⟩⟩ (ih fun P hP => hp P (by simp [hP]))
        obtain ⟨p', hp', hle⟩ := hp _ (by simp) h
        have k0 := mul_le_mul_of_nonneg_left (ht p' hp') hs.le
        have k1 := Int.sub_one_lt_floor (s * t - ⌊b.2.1 * s⌋)
        have k2 := Int.floor_le (b.2.1 * s)
        show s * p.2 - b.2.1 * s ≤ _
        linarith
    constructor
    · rintro ⟨p', he, hl⟩
      obtain rfl := onPicture_inj hs he
      exact (lastDark_congr key).mp hl
    · exact fun hl => ⟨p, rfl, (lastDark_congr key).mpr hl⟩

/-- **C76.** If the parts of all primitives are drawn right, every point that lies at least one pixel lower than some point
of each of the areas containing it is painted exactly if the last of the areas containing it is one that is added. -/
theorem C76_layers_partial {K : Engine} (hK : K.Winding) {f : GerberFile (List AmPrim)} (hne : f.primitives ≠ [])
    (h : ∀ P ∈ f.primitives, P.Builds) {s : ℝ} (hs : 0 < s) :
    ∃ (b : Box) (area : Set RPt), Am.render K f { scale := s } = .ok
        { scale := s, frame := some (Frame.of s b), hasBg := true, count := 0,
          paints := [.background [0, 0, 0] 1, .layer [7215 / 10000, 451 / 1000, 200 / 1000] 1 area] } ∧
      (∀ x ∈ f.primitives.flatMap Prim.layers, ∀ p ∈ x.2, Visible (Frame.of s b).sizePx (onPicture b s false p)) ∧
      (∀ q ∈ area, ∃ x ∈ f.primitives.flatMap Prim.layers, x.1 = true ∧ ∃ p ∈ x.2, q = onPicture b s false p) ∧
      ∀ p, (∀ x ∈ f.primitives.flatMap Prim.layers, p ∈ x.2 → ∃ p' ∈ x.2, s * p.2 ≤ s * p'.2 - 1) →
        (onPicture b s false p ∈ area ↔ LastDark (f.primitives.flatMap Prim.layers) p) := by
  have e : f.primitives.flatMap Prim.painted = f.primitives.flatMap Prim.layers :=
    List.flatMap_congr fun P hP => (builds_paints (h P hP)).2
  rw [← e]
  exact C76_painted hK hne (fun P hP => (builds_paints (h P hP)).1) hs

/-- **C76.** As `C75_inner_partial`, with the image of flashed macros: every point at which nothing removed from a macro
lies over an earlier primitive, and that lies at least one pixel lower than some point of each of the areas containing it,
is painted exactly if the last of the primitives whose images contain it is dark. -/
theorem C76_inner_partial {K : Engine} (hK : K.Winding) {f : GerberFile (List AmPrim)} (hne : f.primitives ≠ [])
    (h : ∀ P ∈ f.primitives, P.DrawsAll) {s : ℝ} (hs : 0 < s) :
    ∃ (b : Box) (area : Set RPt) (c : Cairo.Ctx), Am.render K f { scale := s } = .ok c ∧
      c.frame = some (Frame.of s b) ∧
      c.paints = [.background [0, 0, 0] 1, .layer [7215 / 10000, 451 / 1000, 200 / 1000] 1 area] ∧
      (∀ P ∈ f.primitives, ∀ p ∈ P.reach, Visible (Frame.of s b).sizePx (onPicture b s false p)) ∧
      (∀ q ∈ area, ∃ P ∈ f.primitives, P.dark = true ∧ ∃ p ∈ P.reach, q = onPicture b s false p) ∧
      ∀ p, Apart f.primitives p →
        (∀ x ∈ f.primitives.flatMap Prim.layers, p ∈ x.2 → ∃ p' ∈ x.2, s * p.2 ≤ s * p'.2 - 1) →
        (onPicture b s false p ∈ area ↔ LastDark (f.primitives.map fun P => (P.dark, P.image)) p) := by
  obtain ⟨b, area, h1, h2, h3, h4⟩ := C76_layers_partial hK hne (fun P hP => (h P hP).1) hs
  refine ⟨b, area, _, h1, rfl, rfl, fun P hP p hp => ?_, ?_, fun p hap hp => ?_⟩
  · have hr := (prim_dark (h P hP) p).2.1.not.mpr (not_not.mpr hp)
    simp only [not_forall, not_not] at hr
    obtain ⟨x, hx, hpx⟩ := hr
    exact h2 x (List.mem_flatMap.mpr ⟨P, hP, hx⟩) p hpx
  · intro q hq
    obtain ⟨x, hx, e1, p, hp, rfl⟩ := h3 q hq
    obtain ⟨P, hP, hx⟩ := List.mem_flatMap.mp hx
    obtain ⟨-, k2, -, -⟩ := prim_dark (h P hP) p
    have hr : p ∈ P.reach := by
      by_contra hr
      exact (k2.mpr hr) x hx hp
    refine ⟨P, hP, ?_, p, hr, rfl⟩
    have hd := h P hP
    cases P with
    | flash sh c pol u =>
      cases sh with
      | group g => exact hd.2 _ _ _ _ rfl
      | _ =>
        simp only [Prim.layers, List.mem_singleton] at hx
        rw [hx] at e1
        exact e1
    | _ =>
      simp only [Prim.layers, List.mem_singleton] at hx
      rw [hx] at e1
      exact e1
  · rw [← lastDark_image hap h]
    exact h4 p hp

/-- **C76, from the text.** For every text of a Gerber file that can be read with its macros, and that draws something, all
of it drawn right. -/
theorem C76_text_partial {K : Engine} (hK : K.Winding) {center : String → Pt → Pt → Pt → Option Pt}
    {fs : Str → Option Str} {data : Str} {f : GerberFile (List AmPrim)} (hf : loads (macroEnv center) fs data = .ok f) :
    ∃ stmts settings, parseText fs data = .ok (stmts, settings) ∧
      let Ps := picture (macroEnv center) stmts.reverse
      (Ps ≠ [] → (∀ P ∈ Ps, P.DrawsAll) → ∀ s : ℝ, 0 < s →
        ∃ (b : Box) (area : Set RPt) (c : Cairo.Ctx), Am.render K f { scale := s } = .ok c ∧
          c.frame = some (Frame.of s b) ∧
          c.paints = [.background [0, 0, 0] 1, .layer [7215 / 10000, 451 / 1000, 200 / 1000] 1 area] ∧
          (∀ P ∈ Ps, ∀ p ∈ P.reach, Visible (Frame.of s b).sizePx (onPicture b s false p)) ∧
          (∀ q ∈ area, ∃ P ∈ Ps, P.dark = true ∧ ∃ p ∈ P.reach, q = onPicture b s false p) ∧
          ∀ p, Apart Ps p → (∀ x ∈ Ps.flatMap Prim.layers, p ∈ x.2 → ∃ p' ∈ x.2, s * p.2 ≤ s * p'.2 - 1) →
            (onPicture b s false p ∈ area ↔ LastDark (Ps.map fun P => (P.dark, P.image)) p)) := by
  obtain ⟨stmts, settings, h1, h2⟩ := C14_file_picture (macroEnv center) fs data hf
  refine ⟨stmts, settings, h1, ?_⟩
  intro Ps hne h s hs
  have h2 : f.primitives = Ps := h2
  rw [← h2] at hne h ⊢
  exact C76_inner_partial hK hne h hs

end Verif.Gerber
