import Verif.Props.CairoArea
import Verif.Props.Enclosed

/-! # C68: paths filled by the winding rule -/

namespace Verif.Cairo
open Verif.Py Verif.Geom Verif.Render

/-- Pieces of paths as documented for cairo: `arc` increases the second angle by whole turns until it is not less than
the first, `arc_negative` decreases it until it is not greater; both begin with a line to the beginning of the arc. -/
noncomputable def Piece.bend : Piece → Bend
  | .line p => .line p
  | .arc c r a1 a2 negative =>
    .arc c r a1 (if negative then a2 - ⌈(a2 - a1) / (2 * Real.pi)⌉₊ * (2 * Real.pi)
      else a2 + ⌈(a1 - a2) / (2 * Real.pi)⌉₊ * (2 * Real.pi))

/-- What is assumed of cairo: `fill()` closes the path and fills what it goes around (`CAIRO_FILL_RULE_WINDING`, the
default rule). -/
def Engine.Winding (K : Engine) : Prop := ∀ v l, K.fill v l = enclosed v (l.map Piece.bend)

/-- The assumption can be met. -/
example : ∃ K : Engine, K.Winding :=
  ⟨⟨fun v l => enclosed v (l.map Piece.bend), fun _ _ _ _ _ _ => ∅⟩, fun _ _ => rfl⟩

theorem Engine.Winding.lines {K : Engine} (hK : K.Winding) (v : RPt) (l : List RPt) :
    K.fill v (l.map .line) = inside (v :: l) := by
  rw [hK, List.map_map, ← enclosed_lines]
  rfl

/-- **C68.** With the winding rule, corners that run around a convex polygon fill it. -/
theorem C68_convex {K : Engine} (hK : K.Winding) : K.Convex := by
  rintro vs ha ⟨p, hp, -⟩
  have hne : vs ≠ [] := List.ne_nil_of_mem hp
  simp only [Engine.polygon, List.getLast?_eq_some_getLast hne]
  rw [hK.lines, inside_around hne ha]

theorem inside_scaled {s : ℝ} (hs : 0 < s) (vs : List RPt) : inside (vs.map (scalePoint s)) = inPixels s (inside vs) := by
  have hf : scalePoint s = fun v => (s * v.1 + (0 : RPt).1, s * v.2 + (0 : RPt).2) := by
    funext v
    simp only [scalePoint, Prod.fst_zero, Prod.snd_zero, add_zero, mul_comm]
  ext q
  rw [mem_inPixels hs, ← inside_map hs 0 vs (q.1 / s, q.2 / s), ← hf]
  have : (s * (q.1 / s, q.2 / s).1 + (0 : RPt).1, s * (q.1 / s, q.2 / s).2 + (0 : RPt).2) = q := by
    ext <;> simp <;> field_simp
  rw [this]

/-- **C68.** Regions bounded by lines, each beginning where the one before ended, are filled with what the closed path
goes around. -/
theorem C68_lines {K : Engine} (hK : K.Winding) {s : ℝ} (hs : 0 < s) (dark invert : Bool) (start : RPt) {vs : List RPt}
    (hne : vs ≠ []) :
    K.mask s dark invert (.region (outlineOf vs start)) = .ok (inPixels s (inside (start :: vs))) := by
  rw [← inside_scaled hs, List.map_cons, ← hK.lines, ← outlineOf_pieces s vs start]
  cases vs with
  | nil => exact absurd rfl hne
  | cons v l => rfl

/-- The corners of an L, which is not convex. -/
example : ∃ vs : List RPt, vs ≠ [] ∧ (1 / 2, 3 / 2) ∈ inside ((0, 0) :: vs) ∧ (3 / 2, 3 / 2) ∉ inside ((0, 0) :: vs) ∧
    (3 / 2, 3 / 2) ∈ span ((0, 0) :: vs) := by
  refine ⟨[(3, 0), (3, 1), (1, 1), (1, 3), (0, 3)], by simp, .inr ?_, ?_, ?_⟩
  · simp only [winding, loop, steps, List.cons_append, List.nil_append, List.map_cons, List.map_nil, List.sum_cons,
      List.sum_nil, crossing]
    norm_num
  · rintro (⟨e, he, h⟩ | h)
    · rw [segment_eq_image] at h
      obtain ⟨t, ⟨h0, h1⟩, h⟩ := h
      simp only [loop, steps, List.cons_append, List.nil_append, List.mem_cons, List.not_mem_nil, or_false] at he
      rcases he with rfl | rfl | rfl | rfl | rfl | rfl <;>
        simp only [Prod.smul_mk, Prod.mk_add_mk, smul_eq_mul, Prod.mk.injEq] at h <;> linarith [h.1, h.2]
    · apply h
      simp only [winding, loop, steps, List.cons_append, List.nil_append, List.map_cons, List.map_nil, List.sum_cons,
        List.sum_nil, crossing]
      norm_num
  · have h1 : ((3, 0) : RPt) ∈ span [(0, 0), (3, 0), (3, 1), (1, 1), (1, 3), (0, 3)] := subset_convexHull ℝ _ (by simp)
    have h2 : ((0, 3) : RPt) ∈ span [(0, 0), (3, 0), (3, 1), (1, 1), (1, 3), (0, 3)] := subset_convexHull ℝ _ (by simp)
    have := (convex_convexHull ℝ _) h1 h2 (show (0 : ℝ) ≤ 1 / 2 by norm_num) (show (0 : ℝ) ≤ 1 / 2 by norm_num)
      (by norm_num)
    have e : ((1 / 2 : ℝ) • ((3, 0) : RPt) + (1 / 2 : ℝ) • ((0, 3) : RPt)) = (3 / 2, 3 / 2) := by ext <;> norm_num
    rw [e] at this
    exact this

/-! ## Regions with arcs -/

/-- A piece drawn `s` times as large. -/
noncomputable def bendScaled (s : ℝ) : Bend → Bend
  | .line p => .line (scalePoint s p)
  | .arc c r α β => .arc (scalePoint s c) (s * r) α β

theorem onCircle_scaled (s : ℝ) (c : RPt) (r t : ℝ) : onCircle (scalePoint s c) (s * r) t = scalePoint s (onCircle c r t) := by
  simp only [onCircle, scalePoint, Prod.mk.injEq]
  constructor <;> ring

theorem corners_scaled (s : ℝ) (n : ℕ) (b : Bend) : (bendScaled s b).corners n = (b.corners n).map (scalePoint s) := by
  cases b with
  | line p => rfl
  | arc c r α β =>
    simp only [bendScaled, Bend.corners, List.map_map]
    congr 1
    funext k
    exact onCircle_scaled s c r _

theorem bow_scaled (s : ℝ) (b : Bend) : (bendScaled s b).bow = scalePoint s '' b.bow := by
  cases b with
  | line p => simp [bendScaled, Bend.bow]
  | arc c r α β =>
    ext q
    constructor
    · rintro ⟨t, h0, h1, rfl⟩
      exact ⟨_, ⟨t, h0, h1, rfl⟩, (onCircle_scaled s c r _).symm⟩
    · rintro ⟨_, ⟨t, h0, h1, rfl⟩, rfl⟩
      exact ⟨t, h0, h1, (onCircle_scaled s c r _).symm⟩

theorem enclosed_scaled {s : ℝ} (hs : 0 < s) (v : RPt) (l : List Bend) :
    enclosed (scalePoint s v) (l.map (bendScaled s)) = inPixels s (enclosed v l) := by
  have hc : ∀ n, scalePoint s v :: (l.map (bendScaled s)).flatMap (Bend.corners n) =
      (v :: l.flatMap (Bend.corners n)).map (scalePoint s) := by
    intro n
    rw [List.map_cons, List.flatMap_map, List.map_flatMap]
    simp only [corners_scaled]
  ext q
  rw [mem_inPixels hs]
  simp only [enclosed, Set.mem_ofPred_eq, hc, inside_scaled hs, mem_inPixels hs, List.mem_map, exists_exists_and_eq_and,
    bow_scaled]
  have hb : ∀ b : Bend, q ∈ scalePoint s '' b.bow ↔ (q.1 / s, q.2 / s) ∈ b.bow := fun b => mem_inPixels hs _ _
  simp only [hb]

/-- Parts of regions whose meaning is clear: lines, and arcs between different points of their circle. -/
def Part.Proper : Part → Prop
  | .line _ _ => True
  | .arc s e c _ _ => s ≠ e ∧ arcRadius e c = arcRadius s c

/-- The path of a part. -/
noncomputable def Part.bend : Part → Bend
  | .line _ e => .line e
  | .arc s e c d _ => arcBend d s e c

theorem bearing_range (p c : RPt) : -Real.pi < bearing p c ∧ bearing p c ≤ Real.pi :=
  ⟨Complex.neg_pi_lt_arg _, Complex.arg_le_pi _⟩

theorem ceil_turn {a b : ℝ} (ha : -Real.pi < a ∧ a ≤ Real.pi) (hb : -Real.pi < b ∧ b ≤ Real.pi) :
    ⌈(a - b) / (2 * Real.pi)⌉₊ = if b < a then 1 else 0 := by
  have hpi := Real.two_pi_pos
  split
  · rename_i h
    rw [Nat.ceil_eq_iff (by norm_num)]
    constructor
    · simp only [Nat.sub_self, Nat.cast_zero]
      exact div_pos (by linarith) hpi
    · rw [div_le_iff₀ hpi]
      norm_num
      linarith
  · rename_i h
    rw [Nat.ceil_eq_zero]
    exact div_nonpos_of_nonpos_of_nonneg (by linarith) hpi.le

theorem piece_bend (s : ℝ) {x : Part} (h : x.Proper) : (x.piece s).bend = bendScaled s x.bend := by
  cases x with
  | line p q => rfl
  | arc a e c d mode =>
    obtain ⟨hne, he⟩ := h
    have hpi := Real.two_pi_pos
    have ra := bearing_range a c
    have re := bearing_range e c
    have hb : bearing a c ≠ bearing e c := by
      intro hb
      apply hne
      rw [← onCircle_bearing a c, ← onCircle_bearing e c, hb, he]
    show Bend.arc _ _ (bearing a c) _ = Bend.arc _ _ (bearing a c) _
    congr 1
    show (if decide (d ≠ "counterclockwise") = true then
        bearing e c - ⌈(bearing e c - bearing a c) / (2 * Real.pi)⌉₊ * (2 * Real.pi)
      else bearing e c + ⌈(bearing a c - bearing e c) / (2 * Real.pi)⌉₊ * (2 * Real.pi)) = _
    rw [ceil_turn re ra, ceil_turn ra re]
    by_cases hd : d = "counterclockwise"
    · simp only [hd, ne_eq, not_true_eq_false, decide_false, Bool.false_eq_true, if_false, if_true]
      symm
      rw [toIocMod_eq_iff]
      split
      · exact ⟨⟨by norm_num; linarith, by norm_num; linarith⟩, -1, by norm_num⟩
      · have : bearing a c < bearing e c := lt_of_le_of_ne (by linarith) hb
        exact ⟨⟨by norm_num; linarith, by norm_num; linarith⟩, 0, by norm_num⟩
    · simp only [hd, ne_eq, not_false_eq_true, decide_true, if_false, if_true]
      symm
      rw [toIcoMod_eq_iff]
      split
      · exact ⟨⟨by norm_num; linarith, by norm_num; linarith⟩, 1, by norm_num⟩
      · have : bearing e c < bearing a c := lt_of_le_of_ne (by linarith) hb.symm
        exact ⟨⟨by norm_num; linarith, by norm_num; linarith⟩, 0, by norm_num⟩

/-- **C68.** Regions bounded by lines and arcs are filled with what the closed path goes around. -/
theorem C68_region_arcs_partial {K : Engine} (hK : K.Winding) {s : ℝ} (hs : 0 < s) (dark invert : Bool) {x : Part}
    {l : List Part} (h : ∀ y ∈ x :: l, y.Proper) :
    K.mask s dark invert (.region (x :: l)) = .ok (inPixels s (enclosed x.start ((x :: l).map Part.bend))) := by
  have : ((x :: l).map (Part.piece s)).map Piece.bend = ((x :: l).map Part.bend).map (bendScaled s) := by
    rw [List.map_map, List.map_map]
    exact List.map_congr_left fun y hy => piece_bend s (h y hy)
  rw [← enclosed_scaled hs, ← this, ← hK]
  rfl

/-- A half disc. -/
example : ∀ y ∈ [Part.line (-1, 0) (1, 0), .arc (1, 0) (-1, 0) (0, 0) "counterclockwise" "multi-quadrant"], y.Proper := by
  simp [Part.Proper, arcRadius]
  norm_num

/-- **C68 fails** for a region that is bounded by one whole circle: it goes around a disc, but only the point where the
circle begins is filled. -/
theorem C68_circle_violated {K : Engine} (hK : K.Winding) {s : ℝ} (hs : 0 < s) (dark invert : Bool) {a c : RPt}
    (hr : 0 < arcRadius a c) (direction mode : String) :
    K.mask s dark invert (.region [.arc a a c direction mode]) = .ok (inPixels s {a}) ∧
    enclosed a [(Part.arc a a c direction mode).bend] = {p : RPt | (p.1 - c.1) ^ 2 + (p.2 - c.2) ^ 2 ≤ arcRadius a c ^ 2} := by
  refine ⟨?_, enclosed_circle direction hr⟩
  have hb : (Part.piece s (.arc a a c direction mode)).bend =
      bendScaled s (.arc c (arcRadius a c) (bearing a c) (bearing a c)) := by
    show Bend.arc _ _ (bearing a c) _ = Bend.arc _ _ (bearing a c) _
    congr 1
    show (if decide (direction ≠ "counterclockwise") = true then
        bearing a c - ⌈(bearing a c - bearing a c) / (2 * Real.pi)⌉₊ * (2 * Real.pi)
      else bearing a c + ⌈(bearing a c - bearing a c) / (2 * Real.pi)⌉₊ * (2 * Real.pi)) = _
    simp
  have hp : enclosed a [.arc c (arcRadius a c) (bearing a c) (bearing a c)] = {a} := by
    apply Set.Subset.antisymm
    · apply enclosed_convex (convex_singleton a) rfl
      intro b hb
      rw [List.mem_singleton.mp hb]
      refine ⟨?_, fun p h => by cases h⟩
      rintro q ⟨t, -, -, rfl⟩
      rw [sub_self, zero_mul, add_zero, onCircle_bearing]
      rfl
    · rintro _ rfl
      exact .inl ⟨_, List.mem_singleton_self _, 0, le_rfl, zero_le_one, by rw [mul_zero, add_zero, onCircle_bearing]⟩
  rw [← hp, ← enclosed_scaled hs]
  simp only [List.map_cons, List.map_nil]
  rw [← hb]
  show Except.ok (K.fill _ _) = _
  rw [hK]
  rfl

end Verif.Cairo
