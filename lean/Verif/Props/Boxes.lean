import Verif.Spec.Shapes
import Verif.Props.Angle

/-! # Bounding boxes contain the shapes (C32) -/

namespace Verif.Geom

/-! ## Flashed shapes -/

theorem abs_le_of_disc {r x y : ℝ} (hr : 0 ≤ r) (h : x ^ 2 + y ^ 2 ≤ r ^ 2) : |x| ≤ r ∧ |y| ≤ r :=
  ⟨abs_le_of_sq_le_sq (by nlinarith [sq_nonneg y]) hr,
    abs_le_of_sq_le_sq (by nlinarith [sq_nonneg x]) hr⟩

theorem holds_around {c : RPt} {a b x y : ℝ} (hx : |x| ≤ a) (hy : |y| ≤ b) :
    (around c a b).Holds (c.1 + x, c.2 + y) := by
  rw [abs_le] at hx hy
  refine ⟨?_, ?_, ?_, ?_⟩ <;> simp only [around] <;> linarith

theorem disc_turn {r rot : ℝ} {p : RPt} (h : p ∈ disc r) :
    (Real.cos (radians rot) * p.1 - Real.sin (radians rot) * p.2) ^ 2 +
      (Real.sin (radians rot) * p.1 + Real.cos (radians rot) * p.2) ^ 2 ≤ r ^ 2 := by
  have := Real.sin_sq_add_cos_sq (radians rot)
  have h' : p.1 ^ 2 + p.2 ^ 2 ≤ r ^ 2 := h
  nlinarith [h', this]

theorem holds_disc {c : RPt} {rot r : ℝ} (hr : 0 ≤ r) {S : Set RPt} (hS : S ⊆ disc r) {q : RPt}
    (hq : q ∈ placed c rot S) : (around c r r).Holds q := by
  obtain ⟨p, hp, rfl⟩ := hq
  obtain ⟨h1, h2⟩ := abs_le_of_disc hr (disc_turn (rot := rot) (hS hp))
  exact holds_around h1 h2

/-- A circle (also a round butterfly or a drill hole) lies in its box. -/
theorem C32_circle {o : Obj} (hk : o.kind = .circle ∨ o.kind = .roundButterfly ∨ o.kind = .drill)
    {c : RPt} {d : ℝ} (hc : o.pts .position = some c) (hd : o.nums .diameter = some d) (h0 : 0 ≤ d)
    {b : Box} (hb : o.ownBox none = some b) {q : RPt} (hq : q ∈ placed c o.rotation (disc (d / 2))) :
    b.Holds q := by
  have : b = around c (d / 2) (d / 2) := by
    rcases hk with h | h | h <;> simp [Obj.ownBox, h, hc, hd] at hb <;> exact hb.symm
  rw [this]
  exact holds_disc (by linarith) (fun _ h => h) hq

theorem regular_disc {n : ℕ} {r : ℝ} : regular n r ⊆ disc r := by
  have hconv : Convex ℝ (disc r) := by
    intro p hp q hq a b ha hb hab
    have hp' : p.1 ^ 2 + p.2 ^ 2 ≤ r ^ 2 := hp
    have hq' : q.1 ^ 2 + q.2 ^ 2 ≤ r ^ 2 := hq
    have hb' : b = 1 - a := by linarith
    subst hb'
    show (a * p.1 + (1 - a) * q.1) ^ 2 + (a * p.2 + (1 - a) * q.2) ^ 2 ≤ r ^ 2
    nlinarith [mul_nonneg ha hb, mul_nonneg (mul_nonneg ha hb) (add_nonneg
      (sq_nonneg (p.1 - q.1)) (sq_nonneg (p.2 - q.2)))]
  refine convexHull_min ?_ hconv
  rintro p ⟨i, -, rfl⟩
  have := Real.sin_sq_add_cos_sq (2 * Real.pi * i / n)
  show (r * _) ^ 2 + (r * _) ^ 2 ≤ r ^ 2
  nlinarith

/-- A regular polygon lies in its box, whatever its number of sides and rotation. -/
theorem C32_polygon {o : Obj} (hk : o.kind = .polygon) {c : RPt} {r : ℝ} {n : ℕ}
    (hc : o.pts .position = some c) (hr : o.nums .radius = some r) (h0 : 0 ≤ r)
    {b : Box} (hb : o.ownBox none = some b) {q : RPt} (hq : q ∈ placed c o.rotation (regular n r)) :
    b.Holds q := by
  have : b = around c r r := by
    simp [Obj.ownBox, hk, hc, hr] at hb
    exact hb.symm
  rw [this]
  exact holds_disc h0 regular_disc hq

/-- Cauchy's inequality in the form needed. -/
theorem cauchy {x y u v : ℝ} (h : u ^ 2 + v ^ 2 ≤ 1) : |x * u + y * v| ≤ Real.sqrt (x * x + y * y) := by
  apply Real.abs_le_sqrt
  nlinarith [sq_nonneg (x * v - y * u), mul_nonneg (add_nonneg (sq_nonneg x) (sq_nonneg y))
    (sub_nonneg.2 h)]

/-- An ellipse lies in its box, for every size and rotation. -/
theorem C32_ellipse {o : Obj} (hk : o.kind = .ellipse) {c : RPt} {w h : ℝ}
    (hc : o.pts .position = some c) (hw : o.nums .width = some w) (hh : o.nums .height = some h)
    {b : Box} (hb : o.ownBox none = some b) {q : RPt} (hq : q ∈ placed c o.rotation (oval w h)) :
    b.Holds q := by
  have : b = around c (ellipseWidth o.rotation w h / 2) (ellipseHeight o.rotation w h / 2) := by
    simp [Obj.ownBox, hk, hc, hw, hh] at hb
    exact hb.symm
  rw [this]
  obtain ⟨p, ⟨u, v, huv, rfl⟩, rfl⟩ := hq
  refine holds_around ?_ ?_
  · have := cauchy (x := w / 2 * Real.cos (radians o.rotation))
      (y := h / 2 * Real.cos (radians o.rotation + Real.pi / 2)) huv
    unfold ellipseWidth
    simp only [mul_div_cancel_left₀ _ (two_ne_zero (α := ℝ))]
    refine le_trans (le_of_eq ?_) this
    rw [Real.cos_add_pi_div_two]
    congr 1
    ring
  · have := cauchy (x := w / 2 * Real.sin (radians o.rotation))
      (y := h / 2 * Real.sin (radians o.rotation + Real.pi / 2)) huv
    unfold ellipseHeight
    simp only [mul_div_cancel_left₀ _ (two_ne_zero (α := ℝ))]
    refine le_trans (le_of_eq ?_) this
    rw [Real.sin_add_pi_div_two]
    congr 1
    ring

/-! ### Shapes with a rectangular box -/

theorem stadium_slab {w h : ℝ} (hw : 0 ≤ w) (hh : 0 ≤ h) : stadium w h ⊆ slab w h := by
  intro p hp
  unfold stadium at hp
  split at hp
  · obtain ⟨t, ht, hd⟩ := hp
    obtain ⟨h1, h2⟩ := abs_le_of_disc (by linarith) hd
    rw [abs_le] at ht h1 h2
    constructor <;> rw [abs_le] <;> constructor <;> linarith
  · obtain ⟨t, ht, hd⟩ := hp
    obtain ⟨h1, h2⟩ := abs_le_of_disc (by linarith) hd
    rw [abs_le] at ht h1 h2
    constructor <;> rw [abs_le] <;> constructor <;> linarith

theorem rhombus_slab {w h : ℝ} (hw : 0 ≤ w) (hh : 0 ≤ h) : rhombus w h ⊆ slab w h := by
  rintro p ⟨u, v, huv, rfl⟩
  have h1 : |u| ≤ 1 := by linarith [abs_nonneg v]
  have h2 : |v| ≤ 1 := by linarith [abs_nonneg u]
  constructor
  · rw [abs_mul, abs_of_nonneg (by linarith : 0 ≤ w / 2)]
    nlinarith
  · rw [abs_mul, abs_of_nonneg (by linarith : 0 ≤ h / 2)]
    nlinarith

theorem slab_turn {w h co si : ℝ} {p : RPt} (hp : p ∈ slab w h) :
    |co * p.1 - si * p.2| ≤ (|co| * w + |si| * h) / 2 ∧
    |si * p.1 + co * p.2| ≤ (|co| * h + |si| * w) / 2 := by
  obtain ⟨h1, h2⟩ := hp
  constructor
  · calc |co * p.1 - si * p.2| ≤ |co * p.1| + |si * p.2| := abs_sub _ _
      _ = |co| * |p.1| + |si| * |p.2| := by rw [abs_mul, abs_mul]
      _ ≤ |co| * (w / 2) + |si| * (h / 2) := by gcongr
      _ = _ := by ring
  · calc |si * p.1 + co * p.2| ≤ |si * p.1| + |co * p.2| := abs_add_le _ _
      _ = |si| * |p.1| + |co| * |p.2| := by rw [abs_mul, abs_mul]
      _ ≤ |si| * (w / 2) + |co| * (h / 2) := by gcongr
      _ = _ := by ring

/-- The classes whose box is computed from `axis_aligned_width` and `axis_aligned_height`. -/
def Kind.Rectangular (k : Kind) : Prop :=
  k = .rectangle ∨ k = .diamond ∨ k = .chamferRectangle ∨ k = .roundRectangle ∨ k = .obround

theorem ownBox_rectangular {o : Obj} (hk : o.kind.Rectangular) {c : RPt} {w h : ℝ}
    (hc : o.pts .position = some c) (hw : o.nums .width = some w) (hh : o.nums .height = some h) :
    o.ownBox none = some (around c (axisAlignedWidth o.rotation w h / 2)
      (axisAlignedHeight o.rotation w h / 2)) := by
  rcases hk with h | h | h | h | h <;> simp [Obj.ownBox, h, hc, hw, hh]

/-- A rectangle, or anything inside it (obround, diamond, chamfered or rounded rectangle), lies in its
box if the rotation is between 0 and 90 degrees.  Missing: the other rotations, for which
`C32_rectangle_iff` shows that it does not. -/
theorem C32_rectangular_partial {o : Obj} (hk : o.kind.Rectangular) {c : RPt} {w h : ℝ}
    (hc : o.pts .position = some c) (hw : o.nums .width = some w) (hh : o.nums .height = some h)
    (hcos : 0 ≤ Real.cos (radians o.rotation)) (hsin : 0 ≤ Real.sin (radians o.rotation))
    {b : Box} (hb : o.ownBox none = some b) {S : Set RPt} (hS : S ⊆ slab w h) {q : RPt}
    (hq : q ∈ placed c o.rotation S) : b.Holds q := by
  rw [ownBox_rectangular hk hc hw hh, Option.some.injEq] at hb
  subst hb
  obtain ⟨p, hp, rfl⟩ := hq
  obtain ⟨h1, h2⟩ := slab_turn (co := Real.cos (radians o.rotation))
    (si := Real.sin (radians o.rotation)) (hS hp)
  rw [abs_of_nonneg hcos, abs_of_nonneg hsin] at h1 h2
  exact holds_around h1 h2

/-- An obround at a rotation between 0 and 90 degrees. -/
theorem C32_obround_partial {o : Obj} (hk : o.kind = .obround) {c : RPt} {w h : ℝ}
    (hc : o.pts .position = some c) (hw : o.nums .width = some w) (hh : o.nums .height = some h)
    (hw0 : 0 ≤ w) (hh0 : 0 ≤ h)
    (hcos : 0 ≤ Real.cos (radians o.rotation)) (hsin : 0 ≤ Real.sin (radians o.rotation))
    {b : Box} (hb : o.ownBox none = some b) {q : RPt}
    (hq : q ∈ placed c o.rotation (stadium w h)) : b.Holds q :=
  C32_rectangular_partial (.inr (.inr (.inr (.inr hk)))) hc hw hh hcos hsin hb
    (stadium_slab hw0 hh0) hq

/-- **C32 for rectangles**: the box contains the rectangle exactly if sine and cosine of the rotation
are not negative. -/
theorem C32_rectangle_iff {o : Obj} (hk : o.kind = .rectangle) {c : RPt} {w h : ℝ}
    (hc : o.pts .position = some c) (hw : o.nums .width = some w) (hh : o.nums .height = some h)
    (hw0 : 0 < w) (hh0 : 0 < h) {b : Box} (hb : o.ownBox none = some b) :
    (∀ q ∈ placed c o.rotation (slab w h), b.Holds q) ↔
      0 ≤ Real.cos (radians o.rotation) ∧ 0 ≤ Real.sin (radians o.rotation) := by
  constructor
  swap
  · rintro ⟨hcos, hsin⟩ q hq
    exact C32_rectangular_partial (.inl hk) hc hw hh hcos hsin hb (fun _ h => h) hq
  · intro hall
    rw [ownBox_rectangular (.inl hk) hc hw hh, Option.some.injEq] at hb
    subst hb
    have corner : ∀ x y : ℝ, |x| = w / 2 → |y| = h / 2 →
        Real.cos (radians o.rotation) * x - Real.sin (radians o.rotation) * y ≤
          (Real.cos (radians o.rotation) * w + Real.sin (radians o.rotation) * h) / 2 := by
      intro x y hx hy
      have := (hall _ ⟨(x, y), ⟨hx.le, hy.le⟩, rfl⟩).2.1
      simp only [around, axisAlignedWidth, cosD, sinD] at this
      linarith
    have a1 : |w / 2| = w / 2 := abs_of_pos (by linarith)
    have a2 : |h / 2| = h / 2 := abs_of_pos (by linarith)
    have c1 := corner (-(w / 2)) (-(h / 2)) (by rwa [abs_neg]) (by rwa [abs_neg])
    have c2 := corner (w / 2) (h / 2) a1 a2
    constructor
    · by_contra hn
      push Not at hn
      nlinarith
    · by_contra hn
      push Not at hn
      nlinarith

/-! ## Lines and slots -/

theorem straight_box {s e q : RPt} (hq : q ∈ straight s e) : (segBox s e).Holds q := by
  obtain ⟨t, h0, h1, rfl⟩ := hq
  have key : ∀ a b : ℝ, min a b ≤ a + t * (b - a) ∧ a + t * (b - a) ≤ max a b := by
    intro a b
    rcases le_total a b with h | h
    · rw [min_eq_left h, max_eq_right h]
      constructor <;> nlinarith
    · rw [min_eq_right h, max_eq_left h]
      constructor <;> nlinarith
  exact ⟨(key s.1 e.1).1, (key s.1 e.1).2, (key s.2 e.2).1, (key s.2 e.2).2⟩

theorem swept_box {b : Box} {path S : Set RPt} (hp : ∀ c ∈ path, b.Holds c) {m : ℝ × ℝ}
    (hS : ∀ p ∈ S, |p.1| ≤ m.1 ∧ |p.2| ≤ m.2) {q : RPt} (hq : q ∈ swept path S) :
    (b.grow m).Holds q := by
  obtain ⟨c, hc, p, hp', rfl⟩ := hq
  obtain ⟨h1, h2, h3, h4⟩ := hp c hc
  obtain ⟨h5, h6⟩ := hS p hp'
  rw [abs_le] at h5 h6
  refine ⟨?_, ?_, ?_, ?_⟩ <;> simp only [Box.grow] <;> linarith

/-- A line drawn with a circle lies in its box. -/
theorem C32_line_circle {o ap : Obj} (hk : o.kind = .line) (ha : ap.kind = .circle) {s e : RPt} {d : ℝ}
    (hs : o.pts .start = some s) (he : o.pts .stop = some e) (hd : ap.nums .diameter = some d)
    (h0 : 0 ≤ d) {b : Box} (hb : o.ownBox (some ap) = some b) {q : RPt}
    (hq : q ∈ swept (straight s e) (disc (d / 2))) : b.Holds q := by
  have : b = (segBox s e).grow (d / 2, d / 2) := by
    simp [Obj.ownBox, hk, hs, he, lineMargin, ha, Obj.radius?, hd] at hb
    exact hb.symm
  rw [this]
  exact swept_box (fun _ => straight_box) (fun p hp => abs_le_of_disc (by linarith) hp) hq

/-- A line drawn with a rectangle, an obround, or anything inside the rectangle, that is not rotated. -/
theorem C32_line_rectangle {o ap : Obj} (hk : o.kind = .line)
    (ha : ap.kind = .rectangle ∨ ap.kind = .obround) {s e : RPt} {w h : ℝ}
    (hs : o.pts .start = some s) (he : o.pts .stop = some e) (hw : ap.nums .width = some w)
    (hh : ap.nums .height = some h) {S : Set RPt} (hS : S ⊆ slab w h)
    {b : Box} (hb : o.ownBox (some ap) = some b) {q : RPt}
    (hq : q ∈ swept (straight s e) S) : b.Holds q := by
  have : b = (segBox s e).grow (w / 2, h / 2) := by
    rcases ha with ha | ha <;>
    · simp [Obj.ownBox, hk, hs, he, lineMargin, ha, Obj.size?, hw, hh] at hb
      exact hb.symm
  rw [this]
  exact swept_box (m := (w / 2, h / 2)) (fun _ => straight_box) (fun p hp => hS hp) hq

/-- A drilled slot lies in its box. -/
theorem C32_slot {o : Obj} (hk : o.kind = .slot) {s e : RPt} {d : ℝ}
    (hs : o.pts .start = some s) (he : o.pts .stop = some e) (hd : o.nums .diameter = some d)
    (h0 : 0 ≤ d) {b : Box} (hb : o.ownBox none = some b) {q : RPt}
    (hq : q ∈ swept (straight s e) (disc (d / 2))) : b.Holds q := by
  have : b = (segBox s e).grow (d / 2, d / 2) := by
    simp [Obj.ownBox, hk, hs, he, hd] at hb
    exact hb.symm
  rw [this]
  exact swept_box (fun _ => straight_box) (fun p hp => abs_le_of_disc (by linarith) hp) hq

/-- **C32 fails** for lines drawn with a polygon: there is no box, since a polygon has no `width`. -/
theorem C32_line_polygon_violated {o ap : Obj} (hk : o.kind = .line) (ha : ap.kind = .polygon) :
    o.ownBox (some ap) = none := by
  simp [Obj.ownBox, hk, lineMargin, ha, Obj.size?]

/-! ## Arcs -/

theorem mem_hullBox {L : List RPt} {q : RPt} (h1 : ∃ p ∈ L, p.1 ≤ q.1) (h2 : ∃ p ∈ L, q.1 ≤ p.1)
    (h3 : ∃ p ∈ L, p.2 ≤ q.2) (h4 : ∃ p ∈ L, q.2 ≤ p.2) : (hullBox L).Holds q := by
  have fmin : ∀ (l : List ℝ) (a : ℝ), (l.foldl min a ≤ a) ∧ ∀ x ∈ l, l.foldl min a ≤ x := by
    intro l
    induction l with
    | nil => exact fun a => ⟨le_rfl, by simp⟩
    | cons y l ih =>
      intro a
      obtain ⟨i1, i2⟩ := ih (min a y)
      refine ⟨le_trans i1 (min_le_left _ _), ?_⟩
      intro x hx
      rcases List.mem_cons.1 hx with rfl | hx
      · exact le_trans i1 (min_le_right _ _)
      · exact i2 x hx
  have fmax : ∀ (l : List ℝ) (a : ℝ), (a ≤ l.foldl max a) ∧ ∀ x ∈ l, x ≤ l.foldl max a := by
    intro l
    induction l with
    | nil => exact fun a => ⟨le_rfl, by simp⟩
    | cons y l ih =>
      intro a
      obtain ⟨i1, i2⟩ := ih (max a y)
      refine ⟨le_trans (le_max_left _ _) i1, ?_⟩
      intro x hx
      rcases List.mem_cons.1 hx with rfl | hx
      · exact le_trans (le_max_right _ _) i1
      · exact i2 x hx
  cases L with
  | nil => obtain ⟨p, hp, -⟩ := h1; simp at hp
  | cons a L =>
    have lo : ∀ (f : RPt → ℝ), ∀ p ∈ a :: L, (L.map f).foldl min (f a) ≤ f p := by
      intro f p hp
      rcases List.mem_cons.1 hp with rfl | hp
      · exact (fmin _ _).1
      · exact (fmin _ _).2 _ (List.mem_map.2 ⟨p, hp, rfl⟩)
    have hi : ∀ (f : RPt → ℝ), ∀ p ∈ a :: L, f p ≤ (L.map f).foldl max (f a) := by
      intro f p hp
      rcases List.mem_cons.1 hp with rfl | hp
      · exact (fmax _ _).1
      · exact (fmax _ _).2 _ (List.mem_map.2 ⟨p, hp, rfl⟩)
    obtain ⟨p1, m1, h1⟩ := h1
    obtain ⟨p2, m2, h2⟩ := h2
    obtain ⟨p3, m3, h3⟩ := h3
    obtain ⟨p4, m4, h4⟩ := h4
    exact ⟨le_trans (lo Prod.fst p1 m1) h1, le_trans h2 (hi Prod.fst p2 m2),
      le_trans (lo Prod.snd p3 m3) h3, le_trans h4 (hi Prod.snd p4 m4)⟩

/-- Between two directions less than a turn apart with `q` not strictly between them, nothing reaches
farther in the direction `q` than the ends. -/
theorem cos_quasi {q x y t : ℝ} (h1 : q ≤ x) (h2 : y ≤ q + 2 * Real.pi) (h3 : x ≤ t) (h4 : t ≤ y) :
    Real.cos (t - q) ≤ max (Real.cos (x - q)) (Real.cos (y - q)) := by
  by_cases ht : t - q ≤ Real.pi
  · exact le_max_of_le_left (Real.cos_le_cos_of_nonneg_of_le_pi (by linarith) ht (by linarith))
  · push Not at ht
    refine le_max_of_le_right ?_
    rw [← Real.cos_two_pi_sub (t - q), ← Real.cos_two_pi_sub (y - q)]
    exact Real.cos_le_cos_of_nonneg_of_le_pi (by linarith) (by linarith) (by linarith)

/-- The end of the counterclockwise arc from `t0` to `t1`. -/
noncomputable def arcEnd (t0 t1 : ℝ) : ℝ := if t0 < t1 then t1 else t1 + 2 * Real.pi

theorem cos_arcEnd (t0 t1 q : ℝ) : Real.cos (arcEnd t0 t1 - q) = Real.cos (t1 - q) := by
  unfold arcEnd
  split
  · rfl
  · rw [show t1 + 2 * Real.pi - q = t1 - q + 2 * Real.pi by ring, Real.cos_add_two_pi]

theorem support {q t0 t1 t : ℝ} (hq0 : 0 ≤ q) (hq1 : q < 2 * Real.pi) (h00 : 0 ≤ t0)
    (h11 : t1 < 2 * Real.pi) (ht0 : t0 ≤ t) (ht1 : t ≤ arcEnd t0 t1)
    (hn : ¬ passes q t0 t1) : Real.cos (t - q) ≤ max (Real.cos (t0 - q)) (Real.cos (t1 - q)) := by
  rw [← cos_arcEnd t0 t1 q]
  unfold passes at hn
  push Not at hn
  obtain ⟨n1, n2⟩ := hn
  by_cases ha : t0 ≤ q
  · obtain ⟨n3, n4⟩ := n1 ha
    have he : arcEnd t0 t1 = t1 := if_pos n4
    have hp : ∀ z, Real.cos (z - (q - 2 * Real.pi)) = Real.cos (z - q) := by
      intro z
      rw [show z - (q - 2 * Real.pi) = z - q + 2 * Real.pi by ring, Real.cos_add_two_pi]
    rw [← hp t, ← hp t0, ← hp (arcEnd t0 t1)]
    refine cos_quasi (by linarith) ?_ ht0 ht1
    rw [he]
    linarith
  · push Not at ha
    refine cos_quasi ha.le ?_ ht0 ht1
    unfold arcEnd
    split
    · linarith
    · rename_i hlt
      push Not at hlt
      by_contra hc
      push Not at hc
      have := n2 (by linarith)
      linarith

theorem arcExtra_support {c : RPt} {r t0 t1 t : ℝ} (hr : 0 ≤ r) (h00 : 0 ≤ t0)
    (h11 : t1 < 2 * Real.pi) (ht0 : t0 ≤ t) (ht1 : t ≤ arcEnd t0 t1) :
    (hullBox ([onCircle c r t0, onCircle c r t1] ++ arcExtra c r t0 t1)).Holds (onCircle c r t) := by
  have hpi := Real.pi_pos
  -- the farthest point in one of the four directions
  have far : ∀ (q : ℝ) (P : Prop) (z : RPt), (P → z ∈ arcExtra c r t0 t1) →
      (¬ P → Real.cos (t - q) ≤ max (Real.cos (t0 - q)) (Real.cos (t1 - q))) →
      ∃ p ∈ [onCircle c r t0, onCircle c r t1] ++ arcExtra c r t0 t1,
        (p = z ∨ ∃ u, p = onCircle c r u ∧ r * Real.cos (t - q) ≤ r * Real.cos (u - q)) := by
    intro q P z hP hN
    by_cases h : P
    · exact ⟨z, List.mem_append_right _ (hP h), .inl rfl⟩
    · rcases le_max_iff.1 (hN h) with h1 | h1
      · exact ⟨_, by simp, .inr ⟨t0, rfl, mul_le_mul_of_nonneg_left h1 hr⟩⟩
      · exact ⟨_, by simp, .inr ⟨t1, rfl, mul_le_mul_of_nonneg_left h1 hr⟩⟩
  have s1 : ∀ u, Real.cos (u - Real.pi) = - Real.cos u := Real.cos_sub_pi
  have s2 : ∀ u, Real.cos (u - Real.pi / 2) = Real.sin u := Real.cos_sub_pi_div_two
  have s3 : ∀ u, Real.cos (u - Real.pi * (3 / 2)) = - Real.sin u := by
    intro u
    rw [show u - Real.pi * (3 / 2) = u - Real.pi / 2 - Real.pi by ring, Real.cos_sub_pi, s2]
  have c1 := Real.cos_le_one t
  have c2 := Real.neg_one_le_cos t
  have c3 := Real.sin_le_one t
  have c4 := Real.neg_one_le_sin t
  refine mem_hullBox ?_ ?_ ?_ ?_
  · obtain ⟨p, hp, h⟩ := far Real.pi (passes Real.pi t0 t1) (c.1 - r, c.2)
      (fun h => by unfold arcExtra; simp [h])
      (support (by linarith) (by linarith) h00 h11 ht0 ht1)
    refine ⟨p, hp, ?_⟩
    rcases h with rfl | ⟨u, rfl, h⟩
    · simp only [onCircle]; nlinarith
    · rw [s1, s1] at h
      simp only [onCircle]; linarith
  · obtain ⟨p, hp, h⟩ := far 0 (passesZero t0 t1) (c.1 + r, c.2)
      (fun h => by unfold arcExtra; simp [h])
      (fun hn => by
        unfold passesZero at hn
        push Not at hn
        have he : arcEnd t0 t1 = t1 := if_pos hn
        rw [he] at ht1
        exact cos_quasi h00 (by linarith) ht0 ht1)
    refine ⟨p, hp, ?_⟩
    rcases h with rfl | ⟨u, rfl, h⟩
    · simp only [onCircle]; nlinarith
    · rw [sub_zero, sub_zero] at h
      simp only [onCircle]; linarith
  · obtain ⟨p, hp, h⟩ := far (Real.pi * (3 / 2)) (passes (Real.pi * (3 / 2)) t0 t1) (c.1, c.2 - r)
      (fun h => by unfold arcExtra; simp [h])
      (support (by linarith) (by linarith) h00 h11 ht0 ht1)
    refine ⟨p, hp, ?_⟩
    rcases h with rfl | ⟨u, rfl, h⟩
    · simp only [onCircle]; nlinarith
    · rw [s3, s3] at h
      simp only [onCircle]; linarith
  · obtain ⟨p, hp, h⟩ := far (Real.pi / 2) (passes (Real.pi / 2) t0 t1) (c.1, c.2 + r)
      (fun h => by unfold arcExtra; simp [h])
      (support (by linarith) (by linarith) h00 h11 ht0 ht1)
    refine ⟨p, hp, ?_⟩
    rcases h with rfl | ⟨u, rfl, h⟩
    · simp only [onCircle]; nlinarith
    · rw [s2, s2] at h
      simp only [onCircle]; linarith

theorem onCircle_add (c : RPt) (r t : ℝ) (k : ℤ) :
    onCircle c r (t + k * (2 * Real.pi)) = onCircle c r t := by
  simp [onCircle, Real.cos_add_int_mul_two_pi, Real.sin_add_int_mul_two_pi]

theorem theta_onCircle {c : RPt} {r : ℝ} (hr : 0 < r) (α : ℝ) :
    ∃ k : ℤ, α = theta (onCircle c r α) c + k * (2 * Real.pi) := by
  have hv : vec (onCircle c r α) c = r * Complex.exp ((α : ℝ) * Complex.I) := by
    apply Complex.ext
    · simp [vec, onCircle, Complex.exp_ofReal_mul_I_re]
    · simp [vec, onCircle, Complex.exp_ofReal_mul_I_im]
  have hnorm : ‖vec (onCircle c r α) c‖ = r := by
    rw [hv, norm_mul, Complex.norm_exp_ofReal_mul_I, mul_one]
    simp [abs_of_pos hr]
  have h := vec_eq (onCircle c r α) c
  rw [hnorm, hv] at h
  have h' := mul_left_cancel₀ (by exact_mod_cast hr.ne') h
  obtain ⟨k, hk⟩ := Complex.exp_eq_exp_iff_exists_int.1 h'
  refine ⟨k, ?_⟩
  have := congrArg Complex.im hk
  simpa using this

theorem arcRadius_onCircle {c : RPt} {r : ℝ} (hr : 0 ≤ r) (α : ℝ) :
    arcRadius (onCircle c r α) c = r := by
  unfold arcRadius onCircle
  have := Real.sin_sq_add_cos_sq α
  rw [show (c.1 + r * Real.cos α - c.1) ^ 2 + (c.2 + r * Real.sin α - c.2) ^ 2 = r ^ 2 by
    linear_combination r ^ 2 * this]
  exact Real.sqrt_sq hr

/-- The counterclockwise case, for either choice of the point the radius is taken from. -/
theorem circular_extra {c : RPt} {r α β t : ℝ} (hr : 0 ≤ r) (h1 : α < β) (h2 : β ≤ α + 2 * Real.pi)
    (h3 : α ≤ t) (h4 : t ≤ β) :
    (hullBox ([onCircle c r α, onCircle c r β] ++
      arcExtra c r (theta (onCircle c r α) c) (theta (onCircle c r β) c))).Holds (onCircle c r t) := by
  rcases hr.eq_or_lt with rfl | hr
  · have : ∀ u, onCircle c 0 u = c := by intro u; simp [onCircle]
    rw [this, this, this]
    exact mem_hullBox ⟨c, by simp, le_rfl⟩ ⟨c, by simp, le_rfl⟩ ⟨c, by simp, le_rfl⟩
      ⟨c, by simp, le_rfl⟩
  · obtain ⟨k, hk⟩ := theta_onCircle (c := c) hr α
    obtain ⟨m, hm⟩ := theta_onCircle (c := c) hr β
    have ra := theta_range (onCircle c r α) c
    have rb := theta_range (onCircle c r β) c
    have ea : onCircle c r α = onCircle c r (theta (onCircle c r α) c) := by
      conv_lhs => rw [hk]
      exact onCircle_add _ _ _ _
    have eb : onCircle c r β = onCircle c r (theta (onCircle c r β) c) := by
      conv_lhs => rw [hm]
      exact onCircle_add _ _ _ _
    generalize theta (onCircle c r α) c = t0 at *
    generalize theta (onCircle c r β) c = t1 at *
    rw [ea, eb]
    have et : onCircle c r t = onCircle c r (t + (-k : ℤ) * (2 * Real.pi)) := (onCircle_add _ _ _ _).symm
    rw [et]
    refine arcExtra_support hr.le ra.1 rb.2 (by push_cast; linarith) ?_
    -- the end of the arc is less than a turn after its start
    have hpi := Real.two_pi_pos
    unfold arcEnd
    have hd1 : (0 : ℝ) < t1 - t0 + (m - k) * (2 * Real.pi) := by linarith
    have hd2 : t1 - t0 + (m - k) * (2 * Real.pi) ≤ 2 * Real.pi := by linarith
    have key : ((m - k : ℤ) : ℝ) = 0 ∨ ((m - k : ℤ) : ℝ) = 1 := by
      have g1 : (-1 : ℝ) < ((m - k : ℤ) : ℝ) := by
        push_cast
        nlinarith
      have g2 : ((m - k : ℤ) : ℝ) < 2 := by
        push_cast
        nlinarith
      have g1' : (-1 : ℤ) < m - k := by exact_mod_cast g1
      have g2' : m - k < 2 := by exact_mod_cast g2
      have : m - k = 0 ∨ m - k = 1 := by omega
      rcases this with h | h <;> rw [h] <;> simp
    push_cast at key ⊢
    split
    · rename_i hlt
      rcases key with hz | hz
      · have : t1 + (m - k) * (2 * Real.pi) = t1 := by rw [hz]; ring
        linarith
      · rw [hz] at hd2
        linarith
    · rename_i hlt
      push Not at hlt
      rcases key with hz | hz
      · rw [hz] at hd1
        linarith
      · have : t1 + (m - k) * (2 * Real.pi) = t1 + 2 * Real.pi := by rw [hz]; ring
        linarith

theorem hullBox_swap (a b : RPt) (L : List RPt) {q : RPt} (h : (hullBox ([a, b] ++ L)).Holds q) :
    (hullBox ([b, a] ++ L)).Holds q := by
  have : hullBox ([b, a] ++ L) = hullBox ([a, b] ++ L) := by
    simp [hullBox, min_comm, max_comm]
  rwa [this]

/-- In multi-quadrant mode every point of the path of an arc lies in its box without aperture. -/
theorem C32_arc_path {direction : String} {s e c q : RPt} (hq : q ∈ circular direction s e c) :
    (arcBox direction "multi-quadrant" s e c).Holds q := by
  obtain ⟨r, α, β, t, hr, rfl, rfl, rfl, h⟩ := hq
  unfold arcBox arcPoints
  rw [if_pos rfl, arcRadius_onCircle hr]
  split at h
  · rename_i hd
    rw [if_pos hd]
    obtain ⟨h1, h2, h3, h4⟩ := h
    exact circular_extra hr h1 h2 h3 h4
  · rename_i hd
    rw [if_neg hd]
    obtain ⟨h1, h2, h3, h4⟩ := h
    exact hullBox_swap _ _ _ (circular_extra hr h1 h2 h3 h4)

/-- An arc in multi-quadrant mode drawn with a circle lies in its box. -/
theorem C32_arc_circle {o ap : Obj} (hk : o.kind = .arc) (hm : o.quadrantMode = "multi-quadrant")
    (ha : ap.kind = .circle) {s e c : RPt} {d : ℝ} (hs : o.pts .start = some s)
    (he : o.pts .stop = some e) (hc : o.pts .center = some c) (hd : ap.nums .diameter = some d)
    (h0 : 0 ≤ d) {b : Box} (hb : o.ownBox (some ap) = some b) {q : RPt}
    (hq : q ∈ swept (circular o.direction s e c) (disc (d / 2))) : b.Holds q := by
  have : b = (arcBox o.direction "multi-quadrant" s e c).grow (d / 2, d / 2) := by
    simp [Obj.ownBox, hk, hs, he, hc, arcMargin, ha, Obj.radius?, hd, hm] at hb
    exact hb.symm
  rw [this]
  exact swept_box (fun _ => C32_arc_path) (fun p hp => abs_le_of_disc (by linarith) hp) hq

/-- The same with a rectangle or obround that is not rotated. -/
theorem C32_arc_rectangle {o ap : Obj} (hk : o.kind = .arc) (hm : o.quadrantMode = "multi-quadrant")
    (ha : ap.kind = .rectangle ∨ ap.kind = .obround) {s e c : RPt} {w h : ℝ}
    (hs : o.pts .start = some s) (he : o.pts .stop = some e) (hc : o.pts .center = some c)
    (hw : ap.nums .width = some w) (hh : ap.nums .height = some h) (hw0 : 0 ≤ w) (hh0 : 0 ≤ h)
    {S : Set RPt} (hS : S ⊆ slab w h) {b : Box} (hb : o.ownBox (some ap) = some b) {q : RPt}
    (hq : q ∈ swept (circular o.direction s e c) S) : b.Holds q := by
  have : b = (arcBox o.direction "multi-quadrant" s e c).grow (w, h) := by
    rcases ha with ha | ha <;>
    · simp [Obj.ownBox, hk, hs, he, hc, arcMargin, ha, Obj.radius?, Obj.size?, hw, hh, hm] at hb
      exact hb.symm
  rw [this]
  refine swept_box (fun _ => C32_arc_path) (fun p hp => ?_) hq
  obtain ⟨h1, h2⟩ := hS hp
  exact ⟨by simp only; linarith, by simp only; linarith⟩

/-! ### Single-quadrant mode -/

/-- Away from the four directions in which a circle is farthest, the ends are farthest. -/
theorem quadrant_box {c : RPt} {r α β t : ℝ} (hr : 0 ≤ r) (j : ℤ)
    (h0 : j * (Real.pi / 2) ≤ α) (h1 : α ≤ t) (h2 : t ≤ β) (h3 : β ≤ (j + 1) * (Real.pi / 2)) :
    (hullBox [onCircle c r α, onCircle c r β]).Holds (onCircle c r t) := by
  have hpi := Real.pi_pos
  have far : ∀ q : ℤ, r * Real.cos (t - q * (Real.pi / 2)) ≤ r * Real.cos (α - q * (Real.pi / 2)) ∨
      r * Real.cos (t - q * (Real.pi / 2)) ≤ r * Real.cos (β - q * (Real.pi / 2)) := by
    intro q
    -- the last time the direction came before the quadrant
    obtain ⟨m, d, hm, hd0, hd4⟩ : ∃ m d : ℤ, j = q + 4 * m + d ∧ 0 ≤ d ∧ d < 4 :=
      ⟨(j - q) / 4, (j - q) % 4, by omega, by omega, by omega⟩
    have hp : ∀ z, Real.cos (z - ((q + 4 * m : ℤ) : ℝ) * (Real.pi / 2)) =
        Real.cos (z - q * (Real.pi / 2)) := by
      intro z
      rw [show z - ((q + 4 * m : ℤ) : ℝ) * (Real.pi / 2) = z - q * (Real.pi / 2) -
        m * (2 * Real.pi) by push_cast; ring, Real.cos_sub_int_mul_two_pi]
    have hq := cos_quasi (q := ((q + 4 * m : ℤ) : ℝ) * (Real.pi / 2)) (x := α) (y := β) (t := t)
      (by
        refine le_trans ?_ h0
        have : ((q + 4 * m : ℤ) : ℝ) ≤ (j : ℝ) := by exact_mod_cast (by omega)
        nlinarith)
      (by
        refine le_trans h3 ?_
        have : (j : ℝ) + 1 ≤ ((q + 4 * m : ℤ) : ℝ) + 4 := by exact_mod_cast (by omega)
        nlinarith)
      h1 h2
    rw [hp, hp, hp] at hq
    rcases le_max_iff.1 hq with h | h
    · exact .inl (mul_le_mul_of_nonneg_left h hr)
    · exact .inr (mul_le_mul_of_nonneg_left h hr)
  have s0 : ∀ u, Real.cos (u - (0 : ℤ) * (Real.pi / 2)) = Real.cos u := by intro u; simp
  have s1 : ∀ u, Real.cos (u - (1 : ℤ) * (Real.pi / 2)) = Real.sin u := by
    intro u
    rw [← Real.cos_sub_pi_div_two]
    norm_num
  have s2 : ∀ u, Real.cos (u - (2 : ℤ) * (Real.pi / 2)) = - Real.cos u := by
    intro u
    rw [← Real.cos_sub_pi]
    congr 1
    push_cast
    ring
  have s3 : ∀ u, Real.cos (u - (3 : ℤ) * (Real.pi / 2)) = - Real.sin u := by
    intro u
    rw [← Real.cos_sub_pi_div_two, ← Real.cos_sub_pi]
    congr 1
    push_cast
    ring
  have f0 := far 0
  have f1 := far 1
  have f2 := far 2
  have f3 := far 3
  rw [s0, s0, s0] at f0
  rw [s1, s1, s1] at f1
  rw [s2, s2, s2] at f2
  rw [s3, s3, s3] at f3
  refine mem_hullBox ?_ ?_ ?_ ?_
  · rcases f2 with h | h
    · exact ⟨_, List.mem_cons_self, by simp only [onCircle]; linarith⟩
    · exact ⟨onCircle c r β, by simp, by simp only [onCircle]; linarith⟩
  · rcases f0 with h | h
    · exact ⟨_, List.mem_cons_self, by simp only [onCircle]; linarith⟩
    · exact ⟨onCircle c r β, by simp, by simp only [onCircle]; linarith⟩
  · rcases f3 with h | h
    · exact ⟨_, List.mem_cons_self, by simp only [onCircle]; linarith⟩
    · exact ⟨onCircle c r β, by simp, by simp only [onCircle]; linarith⟩
  · rcases f1 with h | h
    · exact ⟨_, List.mem_cons_self, by simp only [onCircle]; linarith⟩
    · exact ⟨onCircle c r β, by simp, by simp only [onCircle]; linarith⟩

/-- In single-quadrant mode the path of an arc that stays within one quadrant around its centre lies in
the box.  Missing: arcs of at most 90 degrees that cross from one quadrant to the next
(`C32_single_quadrant_violated`). -/
theorem C32_single_quadrant_partial {direction : String} {c : RPt} {r α β t : ℝ} (hr : 0 ≤ r) (j : ℤ)
    (hα : j * (Real.pi / 2) ≤ α ∧ α ≤ (j + 1) * (Real.pi / 2))
    (hβ : j * (Real.pi / 2) ≤ β ∧ β ≤ (j + 1) * (Real.pi / 2)) (ht : t ∈ Set.uIcc α β) :
    (arcBox direction "single-quadrant" (onCircle c r α) (onCircle c r β) c).Holds
      (onCircle c r t) := by
  unfold arcBox arcPoints
  rw [if_neg (by decide), List.append_nil]
  rcases le_total α β with h | h
  · rw [Set.uIcc_of_le h] at ht
    exact quadrant_box hr j hα.1 ht.1 ht.2 hβ.2
  · rw [Set.uIcc_of_ge h] at ht
    have := quadrant_box (c := c) hr j hβ.1 ht.1 ht.2 hα.2
    have := hullBox_swap _ _ [] (by simpa using this)
    simpa using this

/-- The arc of 90 degrees from -45 to 45 degrees on the unit circle: its rightmost point (1, 0) is not in
the box. -/
theorem C32_single_quadrant_violated : ∃ s e c q : RPt,
    q ∈ circular "counterclockwise" s e c ∧
    ¬ (arcBox "counterclockwise" "single-quadrant" s e c).Holds q := by
  have h2 := Real.sqrt_two_lt_three_halves
  have hpi := Real.pi_pos
  refine ⟨onCircle (0, 0) 1 (-(Real.pi / 4)), onCircle (0, 0) 1 (Real.pi / 4), (0, 0),
    onCircle (0, 0) 1 0, ⟨1, -(Real.pi / 4), Real.pi / 4, 0, by norm_num, rfl, rfl, rfl, ?_⟩, ?_⟩
  · rw [if_pos rfl]
    refine ⟨?_, ?_, ?_, ?_⟩ <;> linarith
  · rintro ⟨-, h, -⟩
    simp [arcBox, arcPoints, hullBox, onCircle, Real.cos_pi_div_four] at h
    linarith

/-! ## Violations and examples -/

/-- A rectangle, obround, ... 2 wide and 1 high, upside down. -/
noncomputable def upsideDown (k : Kind) : Obj :=
  ⟨k, some "inch", 180, fun _ => some (0, 0), fun a => if a = .width then some 2 else some 1,
    "clockwise", "multi-quadrant", none, [], 0, [], none, none, none⟩

/-- Turned by 180 degrees the box is inside out: it contains no point at all. -/
theorem C32_rotated_violated (k : Kind) (hk : k.Rectangular) : ∃ b,
    (upsideDown k).ownBox none = some b ∧ ∀ q, ¬ b.Holds q := by
  refine ⟨_, ownBox_rectangular (o := upsideDown k) hk (c := (0, 0)) (w := 2) (h := 1) rfl
    (by simp [upsideDown]) (by simp [upsideDown]), ?_⟩
  rintro q ⟨h1, h2, -, -⟩
  have : radians 180 = Real.pi := by unfold radians; ring
  simp [around, axisAlignedWidth, cosD, sinD, upsideDown, this] at h1 h2
  linarith

/-- A rectangle on its side (90 degrees) is one of the good cases. -/
example : 0 ≤ Real.cos (radians 90) ∧ 0 ≤ Real.sin (radians 90) := by
  have : radians 90 = Real.pi / 2 := by unfold radians; ring
  simp [this]

/-- The points of a three quarter turn and of a full circle. -/
example : (-2, 0) ∈ circular "counterclockwise" (0, 2) (2, 0) (0, 0) ∧
    (0, -2) ∈ circular "clockwise" (2, 0) (2, 0) (0, 0) := by
  have hpi := Real.pi_pos
  have e : ∀ u : ℝ, u = Real.pi / 2 + Real.pi → Real.cos u = 0 ∧ Real.sin u = -1 := by
    intro u hu
    rw [hu, Real.cos_add_pi, Real.sin_add_pi]
    simp
  constructor
  · refine ⟨2, Real.pi / 2, 2 * Real.pi, Real.pi, by norm_num, by simp [onCircle],
      by simp [onCircle], by simp [onCircle], ?_⟩
    rw [if_pos rfl]
    refine ⟨?_, ?_, ?_, ?_⟩ <;> linarith
  · obtain ⟨e1, e2⟩ := e _ rfl
    refine ⟨2, 2 * Real.pi, 0, Real.pi / 2 + Real.pi, by norm_num, by simp [onCircle],
      by simp [onCircle], by simp [onCircle, e1, e2], ?_⟩
    rw [if_neg (by decide)]
    refine ⟨?_, ?_, ?_, ?_⟩ <;> linarith

/-- The same arc's box reaches the leftmost point. -/
example : (arcBox "counterclockwise" "multi-quadrant" (0, 2) (2, 0) (0, 0)).1.1 ≤ -2 := by
  have hpi := Real.pi_pos
  refine (C32_arc_path (q := (-2, 0)) ⟨2, Real.pi / 2, 2 * Real.pi, Real.pi, by norm_num,
    by simp [onCircle], by simp [onCircle], by simp [onCircle], ?_⟩).1
  rw [if_pos rfl]
  refine ⟨?_, ?_, ?_, ?_⟩ <;> linarith

/-- A rectangle as the aperture of a line: turned by 90 degrees, a point at its far end is outside the
line's box, which is computed as if it were not turned. -/
theorem C32_line_rotated_violated : ∃ (o ap : Obj) (b : Box) (q : RPt), o.kind = .line ∧
    ap.kind = .rectangle ∧ o.ownBox (some ap) = some b ∧
    q ∈ swept (straight (0, 0) (0, 0)) (placed (0, 0) ap.rotation (slab 4 2)) ∧ ¬ b.Holds q := by
  have h90 : radians 90 = Real.pi / 2 := by unfold radians; ring
  refine ⟨⟨.line, none, 0, fun _ => some (0, 0), fun _ => none, "clockwise", "multi-quadrant", some 1, [],
    0, [], none, none, none⟩, ⟨.rectangle, none, 90, fun _ => some (0, 0), fun a => if a = .width then some 4 else some 2,
    "clockwise", "multi-quadrant", none, [], 0, [], none, none, none⟩, ((-2, 2), (-1, 1)), (0, 2), rfl, rfl, ?_, ?_, ?_⟩
  · simp [Obj.ownBox, lineMargin, Obj.size?, segBox, Box.grow]
    norm_num
  · refine ⟨(0, 0), ⟨0, le_rfl, by norm_num, by simp⟩, (0, 2), ⟨(2, 0), ⟨by norm_num, by norm_num⟩, ?_⟩,
      by simp⟩
    simp [h90]
  · rintro ⟨-, -, -, h⟩
    norm_num at h

end Verif.Geom
