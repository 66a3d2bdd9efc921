import Verif.Props.BoxesMore
import Verif.Props.CairoArc

/-! # Bounding boxes are as small as possible (C82)

`C32_*` proves that boxes contain shapes.  A box that contains everything would satisfy that, so here is
the other half: no smaller box contains the shape. -/

namespace Verif.Geom

/-- Every box around the shape contains the box. -/
def Box.Least (b : Box) (S : Set RPt) : Prop :=
  ∀ b' : Box, (∀ q ∈ S, b'.Holds q) →
    b'.1.1 ≤ b.1.1 ∧ b.1.2 ≤ b'.1.2 ∧ b'.2.1 ≤ b.2.1 ∧ b.2.2 ≤ b'.2.2

/-- The smallest box around a shape. -/
def Box.Tight (b : Box) (S : Set RPt) : Prop := (∀ q ∈ S, b.Holds q) ∧ b.Least S

/-- A shape has at most one smallest box. -/
theorem C82_unique {b b' : Box} {S : Set RPt} (h : b.Tight S) (h' : b'.Tight S) : b = b' := by
  obtain ⟨a1, a2, a3, a4⟩ := h.2 _ h'.1
  obtain ⟨b1, b2, b3, b4⟩ := h'.2 _ h.1
  exact Prod.ext (Prod.ext (le_antisymm b1 a1) (le_antisymm a2 b2))
    (Prod.ext (le_antisymm b3 a3) (le_antisymm a4 b4))

/-- Each side of the box has a point of the shape. -/
def Touches (b : Box) (S : Set RPt) : Prop :=
  (∃ q ∈ S, q.1 = b.1.1) ∧ (∃ q ∈ S, q.1 = b.1.2) ∧ (∃ q ∈ S, q.2 = b.2.1) ∧ ∃ q ∈ S, q.2 = b.2.2

theorem Touches.least {b : Box} {S : Set RPt} (h : Touches b S) : b.Least S := by
  obtain ⟨⟨q1, m1, e1⟩, ⟨q2, m2, e2⟩, ⟨q3, m3, e3⟩, ⟨q4, m4, e4⟩⟩ := h
  intro b' hb
  exact ⟨e1 ▸ (hb _ m1).1, e2 ▸ (hb _ m2).2.1, e3 ▸ (hb _ m3).2.2.1, e4 ▸ (hb _ m4).2.2.2⟩

/-! ## Flashed shapes -/

theorem disc_touches {r : ℝ} : Touches ((-r, r), (-r, r)) (disc r) :=
  ⟨⟨(-r, 0), by simp [disc], rfl⟩, ⟨(r, 0), by simp [disc], rfl⟩, ⟨(0, -r), by simp [disc], rfl⟩,
    ⟨(0, r), by simp [disc], rfl⟩⟩

theorem slab_touches {w h : ℝ} (hw : 0 ≤ w) (hh : 0 ≤ h) :
    Touches ((-(w / 2), w / 2), (-(h / 2), h / 2)) (slab w h) := by
  have a : |w / 2| ≤ w / 2 := (abs_of_nonneg (by linarith)).le
  have b : |h / 2| ≤ h / 2 := (abs_of_nonneg (by linarith)).le
  exact ⟨⟨(-(w / 2), h / 2), ⟨by simpa using a, b⟩, rfl⟩, ⟨(w / 2, h / 2), ⟨a, b⟩, rfl⟩,
    ⟨(w / 2, -(h / 2)), ⟨a, by simpa using b⟩, rfl⟩, ⟨(w / 2, h / 2), ⟨a, b⟩, rfl⟩⟩

theorem stadium_touches {w h : ℝ} :
    Touches ((-(w / 2), w / 2), (-(h / 2), h / 2)) (stadium w h) := by
  unfold stadium
  split
  · rename_i hlt
    have a : |(h - w) / 2| ≤ (h - w) / 2 := (abs_of_nonneg (by linarith)).le
    have z : |(0 : ℝ)| ≤ (h - w) / 2 := by rw [abs_zero]; linarith
    exact ⟨⟨(-(w / 2), 0), ⟨0, z, by simp⟩, rfl⟩, ⟨(w / 2, 0), ⟨0, z, by simp⟩, rfl⟩,
      ⟨(0, -(h / 2)), ⟨-((h - w) / 2), by rwa [abs_neg], by simp only; nlinarith⟩, rfl⟩,
      ⟨(0, h / 2), ⟨(h - w) / 2, a, by simp only; nlinarith⟩, rfl⟩⟩
  · rename_i hlt
    push Not at hlt
    have a : |(w - h) / 2| ≤ (w - h) / 2 := (abs_of_nonneg (by linarith)).le
    have z : |(0 : ℝ)| ≤ (w - h) / 2 := by rw [abs_zero]; linarith
    exact ⟨⟨(-(w / 2), 0), ⟨-((w - h) / 2), by rwa [abs_neg], by simp only; nlinarith⟩, rfl⟩,
      ⟨(w / 2, 0), ⟨(w - h) / 2, a, by simp only; nlinarith⟩, rfl⟩,
      ⟨(0, -(h / 2)), ⟨0, z, by simp⟩, rfl⟩, ⟨(0, h / 2), ⟨0, z, by simp⟩, rfl⟩⟩

theorem rhombus_touches {w h : ℝ} :
    Touches ((-(w / 2), w / 2), (-(h / 2), h / 2)) (rhombus w h) :=
  ⟨⟨(-(w / 2), 0), ⟨-1, 0, by simp, by simp⟩, rfl⟩, ⟨(w / 2, 0), ⟨1, 0, by simp, by simp⟩, rfl⟩,
    ⟨(0, -(h / 2)), ⟨0, -1, by simp, by simp⟩, rfl⟩, ⟨(0, h / 2), ⟨0, 1, by simp, by simp⟩, rfl⟩⟩

theorem placed_zero_touches {c : RPt} {A B : ℝ} {S : Set RPt} (h : Touches ((-A, A), (-B, B)) S) :
    Touches (around c A B) (placed c 0 S) := by
  have key : ∀ q ∈ S, (c.1 + q.1, c.2 + q.2) ∈ placed c 0 S := by
    intro q hq
    exact ⟨q, hq, by simp [radians]⟩
  obtain ⟨⟨q1, m1, e1⟩, ⟨q2, m2, e2⟩, ⟨q3, m3, e3⟩, ⟨q4, m4, e4⟩⟩ := h
  simp only at e1 e2 e3 e4
  exact ⟨⟨_, key _ m1, by simp only [around, e1]; ring⟩, ⟨_, key _ m2, by simp only [around, e2]⟩,
    ⟨_, key _ m3, by simp only [around, e3]; ring⟩, ⟨_, key _ m4, by simp only [around, e4]⟩⟩

/-- Discs look the same from every side. -/
theorem placed_disc {c : RPt} {rot r : ℝ} {p : RPt} (hp : p ∈ disc r) :
    (c.1 + p.1, c.2 + p.2) ∈ placed c rot (disc r) := by
  have e := Real.sin_sq_add_cos_sq (radians rot)
  have hp' : p.1 ^ 2 + p.2 ^ 2 ≤ r ^ 2 := hp
  refine ⟨(Real.cos (radians rot) * p.1 + Real.sin (radians rot) * p.2,
    -Real.sin (radians rot) * p.1 + Real.cos (radians rot) * p.2), ?_, ?_⟩
  · show _ ^ 2 + _ ^ 2 ≤ r ^ 2
    refine le_trans (le_of_eq ?_) hp'
    linear_combination (p.1 ^ 2 + p.2 ^ 2) * e
  · refine Prod.ext ?_ ?_
    · simp only
      linear_combination -p.1 * e
    · simp only
      linear_combination -p.2 * e

/-- **C82** for circles and drilled holes, at every rotation. -/
theorem C82_circle {o : Obj} (hk : o.kind = .circle ∨ o.kind = .drill)
    {c : RPt} {d : ℝ} (hc : o.pts .position = some c) (hd : o.nums .diameter = some d) (h0 : 0 ≤ d)
    {b : Box} (hb : o.ownBox none = some b) : b.Tight (placed c o.rotation (disc (d / 2))) := by
  refine ⟨fun q hq => C32_circle (by tauto) hc hd h0 hb hq, Touches.least ?_⟩
  have : b = around c (d / 2) (d / 2) := by
    rcases hk with h | h <;> simp [Obj.ownBox, h, hc, hd] at hb <;> exact hb.symm
  rw [this]
  obtain ⟨⟨q1, m1, e1⟩, ⟨q2, m2, e2⟩, ⟨q3, m3, e3⟩, ⟨q4, m4, e4⟩⟩ := disc_touches (r := d / 2)
  simp only at e1 e2 e3 e4
  exact ⟨⟨_, placed_disc m1, by simp only [around, e1]; ring⟩,
    ⟨_, placed_disc m2, by simp only [around, e2]⟩,
    ⟨_, placed_disc m3, by simp only [around, e3]; ring⟩,
    ⟨_, placed_disc m4, by simp only [around, e4]⟩⟩

theorem unit_reaching (x y : ℝ) : ∃ u v : ℝ, u ^ 2 + v ^ 2 ≤ 1 ∧ x * u + y * v = Real.sqrt (x * x + y * y) := by
  have h0 : 0 ≤ x * x + y * y := by nlinarith [mul_self_nonneg x, mul_self_nonneg y]
  rcases (Real.sqrt_nonneg (x * x + y * y)).eq_or_lt with h | h
  · exact ⟨0, 0, by norm_num, by rw [← h]; ring⟩
  · have e := Real.mul_self_sqrt h0
    set R := Real.sqrt (x * x + y * y)
    refine ⟨x / R, y / R, le_of_eq ?_, ?_⟩
    · field_simp
      linarith
    · field_simp
      linarith

/-- **C82** for ellipses, at every rotation. -/
theorem C82_ellipse {o : Obj} (hk : o.kind = .ellipse) {c : RPt} {w h : ℝ}
    (hc : o.pts .position = some c) (hw : o.nums .width = some w) (hh : o.nums .height = some h)
    {b : Box} (hb : o.ownBox none = some b) : b.Tight (placed c o.rotation (oval w h)) := by
  refine ⟨fun q hq => C32_ellipse hk hc hw hh hb hq, Touches.least ?_⟩
  have : b = around c (ellipseWidth o.rotation w h / 2) (ellipseHeight o.rotation w h / 2) := by
    simp [Obj.ownBox, hk, hc, hw, hh] at hb
    exact hb.symm
  rw [this]
  obtain ⟨u, v, huv, e⟩ := unit_reaching (w / 2 * Real.cos (radians o.rotation))
    (h / 2 * Real.cos (radians o.rotation + Real.pi / 2))
  obtain ⟨u', v', huv', e'⟩ := unit_reaching (w / 2 * Real.sin (radians o.rotation))
    (h / 2 * Real.sin (radians o.rotation + Real.pi / 2))
  have hx : ellipseWidth o.rotation w h / 2 = Real.sqrt (w / 2 * Real.cos (radians o.rotation) *
      (w / 2 * Real.cos (radians o.rotation)) + h / 2 * Real.cos (radians o.rotation + Real.pi / 2) *
      (h / 2 * Real.cos (radians o.rotation + Real.pi / 2))) := by
    unfold ellipseWidth
    simp only [mul_div_cancel_left₀ _ (two_ne_zero (α := ℝ))]
  have hy : ellipseHeight o.rotation w h / 2 = Real.sqrt (w / 2 * Real.sin (radians o.rotation) *
      (w / 2 * Real.sin (radians o.rotation)) + h / 2 * Real.sin (radians o.rotation + Real.pi / 2) *
      (h / 2 * Real.sin (radians o.rotation + Real.pi / 2))) := by
    unfold ellipseHeight
    simp only [mul_div_cancel_left₀ _ (two_ne_zero (α := ℝ))]
  rw [← hx] at e
  rw [← hy] at e'
  rw [Real.cos_add_pi_div_two] at e
  rw [Real.sin_add_pi_div_two] at e'
  refine ⟨⟨_, ⟨_, ⟨-u, -v, by simpa using huv, rfl⟩, rfl⟩, ?_⟩, ⟨_, ⟨_, ⟨u, v, huv, rfl⟩, rfl⟩, ?_⟩,
    ⟨_, ⟨_, ⟨-u', -v', by simpa using huv', rfl⟩, rfl⟩, ?_⟩, ⟨_, ⟨_, ⟨u', v', huv', rfl⟩, rfl⟩, ?_⟩⟩ <;>
    simp only [around] <;> linarith

/-- **C82** for rectangles at rotations between 0 and 90 degrees (for the others the box does not even
contain the rectangle, `C32_rectangle_iff`). -/
theorem C82_rectangle_partial {o : Obj} (hk : o.kind = .rectangle) {c : RPt} {w h : ℝ}
    (hc : o.pts .position = some c) (hw : o.nums .width = some w) (hh : o.nums .height = some h)
    (hw0 : 0 ≤ w) (hh0 : 0 ≤ h)
    (hcos : 0 ≤ Real.cos (radians o.rotation)) (hsin : 0 ≤ Real.sin (radians o.rotation))
    {b : Box} (hb : o.ownBox none = some b) : b.Tight (placed c o.rotation (slab w h)) := by
  refine ⟨fun q hq => C32_rectangular_partial (.inl hk) hc hw hh hcos hsin hb (fun _ h => h) hq,
    Touches.least ?_⟩
  rw [ownBox_rectangular (.inl hk) hc hw hh, Option.some.injEq] at hb
  subst hb
  have a : |w / 2| ≤ w / 2 := (abs_of_nonneg (by linarith)).le
  have b : |h / 2| ≤ h / 2 := (abs_of_nonneg (by linarith)).le
  have a' : |-(w / 2)| ≤ w / 2 := by rwa [abs_neg]
  have b' : |-(h / 2)| ≤ h / 2 := by rwa [abs_neg]
  refine ⟨⟨_, ⟨(-(w / 2), h / 2), ⟨a', b⟩, rfl⟩, ?_⟩, ⟨_, ⟨(w / 2, -(h / 2)), ⟨a, b'⟩, rfl⟩, ?_⟩,
    ⟨_, ⟨(-(w / 2), -(h / 2)), ⟨a', b'⟩, rfl⟩, ?_⟩, ⟨_, ⟨(w / 2, h / 2), ⟨a, b⟩, rfl⟩, ?_⟩⟩ <;>
    simp only [around, axisAlignedWidth, axisAlignedHeight, cosD, sinD] <;> ring

/-- **C82** for obrounds and diamonds that are not rotated.  Missing: rotations, for which the box is
that of the rectangle around them and too large (`C82_obround_violated`). -/
theorem C82_unrotated_partial {o : Obj} {c : RPt} {w h : ℝ} {S : Set RPt}
    (hk : (o.kind = .obround ∧ S = stadium w h) ∨ (o.kind = .diamond ∧ S = rhombus w h))
    (hc : o.pts .position = some c) (hw : o.nums .width = some w) (hh : o.nums .height = some h)
    (hw0 : 0 ≤ w) (hh0 : 0 ≤ h) (hr : o.rotation = 0)
    {b : Box} (hb : o.ownBox none = some b) : b.Tight (placed c o.rotation S) := by
  have hR : o.kind.Rectangular := by unfold Kind.Rectangular; tauto
  have hS : S ⊆ slab w h := by
    rcases hk with ⟨-, rfl⟩ | ⟨-, rfl⟩
    · exact stadium_slab hw0 hh0
    · exact rhombus_slab hw0 hh0
  refine ⟨fun q hq => C32_rectangular_partial hR hc hw hh (by simp [hr, radians])
    (by simp [hr, radians]) hb hS hq, Touches.least ?_⟩
  rw [ownBox_rectangular hR hc hw hh, Option.some.injEq] at hb
  subst hb
  rw [hr]
  have : around c (axisAlignedWidth 0 w h / 2) (axisAlignedHeight 0 w h / 2) =
      around c (w / 2) (h / 2) := by
    simp [axisAlignedWidth, axisAlignedHeight, cosD, sinD, radians]
  rw [this]
  rcases hk with ⟨-, rfl⟩ | ⟨-, rfl⟩
  · exact placed_zero_touches stadium_touches
  · exact placed_zero_touches rhombus_touches

/-- An obround or a diamond two wide and two high, turned by 45 degrees. -/
noncomputable def tilted (k : Kind) : Obj :=
  ⟨k, some "inch", 45, fun _ => some (0, 0), fun _ => some 2,
    "clockwise", "multi-quadrant", none, [], 0, [], none, none, none⟩

theorem tilted_large {k : Kind} (hk : k.Rectangular) {S : Set RPt} (hS : S ⊆ disc 1) {b : Box}
    (hb : (tilted k).ownBox none = some b) : ¬ b.Least (placed (0, 0) (tilted k).rotation S) := by
  intro hl
  rw [ownBox_rectangular (o := tilted k) hk (c := (0, 0)) (w := 2) (h := 2) rfl rfl rfl,
    Option.some.injEq] at hb
  subst hb
  have h45 : radians 45 = Real.pi / 4 := by unfold radians; ring
  have h2 : (1 : ℝ) < Real.sqrt 2 := by
    rw [show (1 : ℝ) = Real.sqrt 1 by simp]; exact Real.sqrt_lt_sqrt (by norm_num) (by norm_num)
  have := (hl _ fun q hq => holds_disc (by norm_num) hS hq).2.1
  simp only [around, axisAlignedWidth, tilted, cosD, sinD, h45, Real.cos_pi_div_four,
    Real.sin_pi_div_four] at this
  linarith

/-- **C82 fails** for a rotated obround: one as wide as high is a disc of radius 1, its box reaches
√2 to each side. -/
theorem C82_obround_violated : ∃ b, (tilted .obround).ownBox none = some b ∧
    ¬ b.Tight (placed (0, 0) (tilted .obround).rotation (stadium 2 2)) := by
  have hR : Kind.obround.Rectangular := by unfold Kind.Rectangular; tauto
  refine ⟨_, ownBox_rectangular (o := tilted .obround) hR (c := (0, 0)) (w := 2) (h := 2) rfl rfl rfl,
    fun ht => tilted_large hR ?_ (ownBox_rectangular (o := tilted .obround) hR (c := (0, 0)) rfl rfl rfl)
    ht.2⟩
  intro p hp
  rw [stadium, if_neg (lt_irrefl _)] at hp
  obtain ⟨t, ht, h⟩ := hp
  have : t = 0 := by simpa using ht
  rw [this] at h
  show p.1 ^ 2 + p.2 ^ 2 ≤ 1 ^ 2
  norm_num at h ⊢
  exact h

/-- **C82 fails** for a rotated diamond: the square with corners on the axes, turned, has its sides
parallel to the axes and is √2 wide; its box is twice as wide. -/
theorem C82_diamond_violated : ∃ b, (tilted .diamond).ownBox none = some b ∧
    ¬ b.Tight (placed (0, 0) (tilted .diamond).rotation (rhombus 2 2)) := by
  have hR : Kind.diamond.Rectangular := by unfold Kind.Rectangular; tauto
  refine ⟨_, ownBox_rectangular (o := tilted .diamond) hR (c := (0, 0)) (w := 2) (h := 2) rfl rfl rfl,
    fun ht => tilted_large hR ?_ (ownBox_rectangular (o := tilted .diamond) hR (c := (0, 0)) rfl rfl rfl)
    ht.2⟩
  rintro p ⟨u, v, huv, rfl⟩
  show (2 / 2 * u) ^ 2 + (2 / 2 * v) ^ 2 ≤ 1 ^ 2
  have h1 := abs_nonneg u
  have h2 := abs_nonneg v
  nlinarith [sq_abs u, sq_abs v]

/-! ## Polygons -/

theorem regular_corner {n i : ℕ} (hi : i < n) (r : ℝ) :
    (r * Real.cos (2 * Real.pi * i / n), r * Real.sin (2 * Real.pi * i / n)) ∈ regular n r :=
  subset_convexHull ℝ _ ⟨i, hi, rfl⟩

/-- **C82** for polygons that are not rotated: the box of a regular polygon, that of the circle through
its corners, is the smallest exactly if the number of corners is a multiple of four. -/
theorem C82_polygon_iff {o : Obj} (hk : o.kind = .polygon) {c : RPt} {r : ℝ} {n : ℕ}
    (hc : o.pts .position = some c) (hr : o.nums .radius = some r) (h0 : 0 < r) (hn : 0 < n)
    (hrot : o.rotation = 0) {b : Box} (hb : o.ownBox none = some b) :
    b.Tight (placed c o.rotation (regular n r)) ↔ 4 ∣ n := by
  have hbox : b = around c r r := by
    simp [Obj.ownBox, hk, hc, hr] at hb
    exact hb.symm
  have hpi := Real.pi_pos
  have hn0 : (n : ℝ) ≠ 0 := by positivity
  constructor
  · rintro ⟨-, hl⟩
    by_contra h4
    rw [hrot] at hl
    -- no corner is at the top
    have low : ∀ i < n, Real.sin (2 * Real.pi * i / n) < 1 := by
      intro i _
      refine lt_of_le_of_ne (Real.sin_le_one _) fun h1 => ?_
      have hc0 : Real.cos (2 * Real.pi * i / n - Real.pi / 2) = 1 := by
        rw [Real.cos_sub_pi_div_two]; exact h1
      obtain ⟨k, hk⟩ := (Real.cos_eq_one_iff _).1 hc0
      have : ((4 * i : ℤ) : ℝ) = ((n * (4 * k + 1) : ℤ) : ℝ) := by
        push_cast
        field_simp at hk
        have : Real.pi * (4 * (i : ℝ)) = Real.pi * (n * (4 * k + 1)) := by nlinarith
        exact mul_left_cancel₀ hpi.ne' this
      have hz : (4 * i : ℤ) = n * (4 * k + 1) := by exact_mod_cast this
      have hd : (4 : ℤ) ∣ (n : ℤ) := ⟨i - n * k, by linear_combination -hz⟩
      exact h4 (by exact_mod_cast hd)
    -- so all are below some line below the top
    obtain ⟨M, hM, hall⟩ : ∃ M < (1 : ℝ), ∀ i < n, Real.sin (2 * Real.pi * i / n) ≤ M := by
      have : ∀ m : ℕ, m ≤ n → ∃ M < (1 : ℝ), ∀ i < m, Real.sin (2 * Real.pi * i / n) ≤ M := by
        intro m
        induction m with
        | zero => exact fun _ => ⟨0, by norm_num, by simp⟩
        | succ m ih =>
          intro hm
          obtain ⟨M, hM, hall⟩ := ih (by omega)
          refine ⟨max M (Real.sin (2 * Real.pi * m / n)), max_lt hM (low m (by omega)), ?_⟩
          intro i hi
          rcases (Nat.lt_succ_iff_lt_or_eq.1 hi) with h | rfl
          · exact (hall i h).trans (le_max_left _ _)
          · exact le_max_right _ _
      exact this n le_rfl
    have half : regular n r ⊆ {p : RPt | p.2 ≤ r * M} := by
      refine convexHull_min ?_ ?_
      · rintro p ⟨i, hi, rfl⟩
        exact mul_le_mul_of_nonneg_left (hall i hi) h0.le
      · exact convex_halfSpace_le (f := fun p : RPt => p.2) ⟨fun _ _ => rfl, fun _ _ => rfl⟩ _
    have hb' : ∀ q ∈ placed c 0 (regular n r),
        Box.Holds ((c.1 - r, c.1 + r), (c.2 - r, c.2 + r * M)) q := by
      intro q hq
      have hq' := holds_disc h0.le regular_disc hq
      obtain ⟨p, hp, rfl⟩ := turn_zero hq
      have : p.2 ≤ r * M := half hp
      exact ⟨hq'.1, hq'.2.1, hq'.2.2.1, by simp only; linarith⟩
    have := (hl _ hb').2.2.2
    rw [hbox] at this
    simp only [around] at this
    nlinarith
  · rintro ⟨m, rfl⟩
    have hm : 0 < m := by omega
    have hm0 : (m : ℝ) ≠ 0 := by positivity
    refine ⟨fun q hq => ?_, Touches.least ?_⟩
    · rw [hbox]
      exact holds_disc h0.le regular_disc hq
    · rw [hbox, hrot]
      refine placed_zero_touches ?_
      have a0 := regular_corner (n := 4 * m) (i := 0) (by omega) r
      have a1 := regular_corner (n := 4 * m) (i := m) (by omega) r
      have a2 := regular_corner (n := 4 * m) (i := 2 * m) (by omega) r
      have a3 := regular_corner (n := 4 * m) (i := 3 * m) (by omega) r
      rw [show 2 * Real.pi * ((0 : ℕ) : ℝ) / ((4 * m : ℕ) : ℝ) = 0 by simp] at a0
      rw [show 2 * Real.pi * ((m : ℕ) : ℝ) / ((4 * m : ℕ) : ℝ) = Real.pi / 2 by
        push_cast; field_simp; ring] at a1
      rw [show 2 * Real.pi * ((2 * m : ℕ) : ℝ) / ((4 * m : ℕ) : ℝ) = Real.pi by
        push_cast; field_simp; ring] at a2
      rw [show 2 * Real.pi * ((3 * m : ℕ) : ℝ) / ((4 * m : ℕ) : ℝ) = Real.pi / 2 + Real.pi by
        push_cast; field_simp; ring] at a3
      rw [Real.cos_add_pi, Real.sin_add_pi] at a3
      refine ⟨⟨_, a2, ?_⟩, ⟨_, a0, ?_⟩, ⟨_, a3, ?_⟩, ⟨_, a1, ?_⟩⟩ <;> simp

/-- A square with corners on the axes and a hexagon. -/
example (n : ℕ) (h : n = 4 ∨ n = 6) : ∃ (o : Obj) (b : Box), o.kind = .polygon ∧ o.rotation = 0 ∧
    o.ownBox none = some b ∧ (b.Tight (placed (0, 0) o.rotation (regular n 1)) ↔ n = 4) := by
  refine ⟨⟨.polygon, none, 0, fun _ => some (0, 0), fun _ => some 1, "clockwise", "multi-quadrant", none, [], 0, [],
    none, none, none⟩, _, rfl, rfl, rfl, ?_⟩
  rw [C82_polygon_iff rfl rfl rfl one_pos (by omega) rfl rfl]
  omega

/-! ## Lines and slots -/

theorem swept_touches {b : Box} {path S : Set RPt} {m : ℝ × ℝ} (hb : Touches b path)
    (hS : Touches ((-m.1, m.1), (-m.2, m.2)) S) : Touches (b.grow m) (swept path S) := by
  obtain ⟨⟨q1, m1, e1⟩, ⟨q2, m2, e2⟩, ⟨q3, m3, e3⟩, ⟨q4, m4, e4⟩⟩ := hb
  obtain ⟨⟨p1, n1, f1⟩, ⟨p2, n2, f2⟩, ⟨p3, n3, f3⟩, ⟨p4, n4, f4⟩⟩ := hS
  simp only at f1 f2 f3 f4
  exact ⟨⟨_, ⟨q1, m1, p1, n1, rfl⟩, by simp only [Box.grow, e1, f1]; ring⟩,
    ⟨_, ⟨q2, m2, p2, n2, rfl⟩, by simp only [Box.grow, e2, f2]⟩,
    ⟨_, ⟨q3, m3, p3, n3, rfl⟩, by simp only [Box.grow, e3, f3]; ring⟩,
    ⟨_, ⟨q4, m4, p4, n4, rfl⟩, by simp only [Box.grow, e4, f4]⟩⟩

theorem straight_touches (s e : RPt) : Touches (segBox s e) (straight s e) := by
  have hs : s ∈ straight s e := ⟨0, le_rfl, zero_le_one, by simp⟩
  have he : e ∈ straight s e := ⟨1, zero_le_one, le_rfl, by simp⟩
  refine ⟨?_, ?_, ?_, ?_⟩ <;> simp only [segBox]
  · rcases min_choice s.1 e.1 with h | h <;> rw [h]
    · exact ⟨_, hs, rfl⟩
    · exact ⟨_, he, rfl⟩
  · rcases max_choice s.1 e.1 with h | h <;> rw [h]
    · exact ⟨_, hs, rfl⟩
    · exact ⟨_, he, rfl⟩
  · rcases min_choice s.2 e.2 with h | h <;> rw [h]
    · exact ⟨_, hs, rfl⟩
    · exact ⟨_, he, rfl⟩
  · rcases max_choice s.2 e.2 with h | h <;> rw [h]
    · exact ⟨_, hs, rfl⟩
    · exact ⟨_, he, rfl⟩

/-- **C82** for straight lines without their aperture, as used for the edges of regions. -/
theorem C82_edge (s e : RPt) : (segBox s e).Tight (straight s e) :=
  ⟨fun _ => straight_box, (straight_touches s e).least⟩

/-- **C82** for lines drawn with a circle. -/
theorem C82_line_circle {o ap : Obj} (hk : o.kind = .line) (ha : ap.kind = .circle) {s e : RPt} {d : ℝ}
    (hs : o.pts .start = some s) (he : o.pts .stop = some e) (hd : ap.nums .diameter = some d)
    (h0 : 0 ≤ d) {b : Box} (hb : o.ownBox (some ap) = some b) :
    b.Tight (swept (straight s e) (disc (d / 2))) := by
  refine ⟨fun q hq => C32_line_circle hk ha hs he hd h0 hb hq, Touches.least ?_⟩
  have : b = (segBox s e).grow (d / 2, d / 2) := by
    simp [Obj.ownBox, hk, hs, he, lineMargin, ha, Obj.radius?, hd] at hb
    exact hb.symm
  rw [this]
  exact swept_touches (straight_touches s e) disc_touches

/-- **C82** for lines drawn with a rectangle or an obround that is not rotated.  Missing: rotated
apertures, for which the box does not contain the line (`C32_line_rotated_violated`). -/
theorem C82_line_rectangle_partial {o ap : Obj} (hk : o.kind = .line) {s e : RPt} {w h : ℝ} {S : Set RPt}
    (ha : (ap.kind = .rectangle ∧ S = slab w h) ∨ (ap.kind = .obround ∧ S = stadium w h))
    (hs : o.pts .start = some s) (he : o.pts .stop = some e) (hw : ap.nums .width = some w)
    (hh : ap.nums .height = some h) (hw0 : 0 ≤ w) (hh0 : 0 ≤ h)
    {b : Box} (hb : o.ownBox (some ap) = some b) : b.Tight (swept (straight s e) S) := by
  have hS : S ⊆ slab w h := by
    rcases ha with ⟨-, rfl⟩ | ⟨-, rfl⟩
    · exact fun _ h => h
    · exact stadium_slab hw0 hh0
  refine ⟨fun q hq => C32_line_rectangle hk (by tauto) hs he hw hh hS hb hq, Touches.least ?_⟩
  have : b = (segBox s e).grow (w / 2, h / 2) := by
    rcases ha with ⟨ha, -⟩ | ⟨ha, -⟩ <;>
    · simp [Obj.ownBox, hk, hs, he, lineMargin, ha, Obj.size?, hw, hh] at hb
      exact hb.symm
  rw [this]
  refine swept_touches (straight_touches s e) ?_
  rcases ha with ⟨-, rfl⟩ | ⟨-, rfl⟩
  · exact slab_touches hw0 hh0
  · exact stadium_touches

/-- **C82** for drilled slots. -/
theorem C82_slot {o : Obj} (hk : o.kind = .slot) {s e : RPt} {d : ℝ}
    (hs : o.pts .start = some s) (he : o.pts .stop = some e) (hd : o.nums .diameter = some d)
    (h0 : 0 ≤ d) {b : Box} (hb : o.ownBox none = some b) :
    b.Tight (swept (straight s e) (disc (d / 2))) := by
  refine ⟨fun q hq => C32_slot hk hs he hd h0 hb hq, Touches.least ?_⟩
  have : b = (segBox s e).grow (d / 2, d / 2) := by
    simp [Obj.ownBox, hk, hs, he, hd] at hb
    exact hb.symm
  rw [this]
  exact swept_touches (straight_touches s e) disc_touches

/-! ## Arcs -/

/-- The extreme points that the code says an arc passes are on the arc: they lie in directions between
its start and its end. -/
theorem arcExtra_on {c p : RPt} {r t0 t1 : ℝ} (h0 : 0 ≤ t0 ∧ t0 < 2 * Real.pi)
    (h1 : 0 ≤ t1 ∧ t1 < 2 * Real.pi) (hp : p ∈ arcExtra c r t0 t1) :
    ∃ t, p = onCircle c r t ∧ t0 ≤ t ∧ t ≤ arcEnd t0 t1 := by
  have hpi := Real.pi_pos
  have mid : ∀ q : ℝ, 0 ≤ q → q ≤ 2 * Real.pi → passes q t0 t1 →
      ∃ t, onCircle c r q = onCircle c r t ∧ t0 ≤ t ∧ t ≤ arcEnd t0 t1 := by
    intro q hq0 hq1 hq
    have turn : onCircle c r q = onCircle c r (q + 2 * Real.pi) := by
      have := onCircle_add c r q 1
      simpa using this.symm
    unfold arcEnd
    rcases hq with ⟨ha, hb | hb⟩ | ⟨ha, hb⟩
    · refine ⟨q, rfl, ha, ?_⟩
      split <;> linarith
    · refine ⟨q, rfl, ha, ?_⟩
      rw [if_neg (by linarith)]
      linarith
    · refine ⟨q + 2 * Real.pi, turn, by linarith, ?_⟩
      rw [if_neg (by linarith)]
      linarith
  unfold arcExtra at hp
  simp only [List.mem_append] at hp
  rcases hp with ((hp | hp) | hp) | hp
  · split at hp
    · rename_i h
      obtain rfl := List.mem_singleton.1 hp
      have h : t1 ≤ t0 := h
      refine ⟨2 * Real.pi, by simp [onCircle], by linarith, ?_⟩
      unfold arcEnd
      rw [if_neg (by linarith)]
      linarith
    · cases hp
  · split at hp
    · rename_i h
      obtain rfl := List.mem_singleton.1 hp
      obtain ⟨t, e, h⟩ := mid _ (by linarith) (by linarith) h
      exact ⟨t, by rw [← e]; simp [onCircle], h⟩
    · cases hp
  · split at hp
    · rename_i h
      obtain rfl := List.mem_singleton.1 hp
      obtain ⟨t, e, h⟩ := mid _ (by linarith) (by linarith) h
      exact ⟨t, by rw [← e]; simp [onCircle, sub_eq_add_neg], h⟩
    · cases hp
  · split at hp
    · rename_i h
      obtain rfl := List.mem_singleton.1 hp
      obtain ⟨t, e, h⟩ := mid _ (by linarith) (by linarith) h
      refine ⟨t, ?_, h⟩
      rw [← e, show Real.pi * (3 / 2) = Real.pi / 2 + Real.pi by ring]
      simp [onCircle, Real.cos_add_pi, Real.sin_add_pi, sub_eq_add_neg]
    · cases hp

theorem arcEnd_turn (t0 t1 : ℝ) (h0 : 0 ≤ t0 ∧ t0 < 2 * Real.pi) (h1 : 0 ≤ t1 ∧ t1 < 2 * Real.pi)
    (c : RPt) (r : ℝ) : onCircle c r (arcEnd t0 t1) = onCircle c r t1 ∧ t0 < arcEnd t0 t1 ∧
      arcEnd t0 t1 ≤ t0 + 2 * Real.pi := by
  unfold arcEnd
  split
  · exact ⟨rfl, by linarith, by linarith⟩
  · rename_i h
    push Not at h
    refine ⟨?_, by linarith, by linarith⟩
    have := onCircle_add c r t1 1
    simpa using this

/-- The points from which the box of an arc is made are on the arc. -/
theorem arcPoints_on {direction mode : String} {s e c p : RPt} (hr : arcRadius s c = arcRadius e c)
    (hp : p ∈ arcPoints direction mode s e c) : p ∈ circular direction s e c := by
  have r0 : 0 ≤ arcRadius s c := Real.sqrt_nonneg _
  have hs := Cairo.onCircle_theta s c
  have he := Cairo.onCircle_theta e c
  rw [← hr] at he
  have ts := theta_range s c
  have te := theta_range e c
  have n0 : (0 : ℝ) ≤ 2 * Real.pi := Real.two_pi_pos.le
  -- points in directions between the ends
  have ccw : direction = "counterclockwise" → ∀ t, theta s c ≤ t → t ≤ arcEnd (theta s c) (theta e c) →
      onCircle c (arcRadius s c) t ∈ circular direction s e c := by
    intro hd t h1 h2
    obtain ⟨g1, g2, g3⟩ := arcEnd_turn _ _ ts te c (arcRadius s c)
    refine ⟨arcRadius s c, theta s c, arcEnd (theta s c) (theta e c), t, r0, hs.symm, ?_, rfl, ?_⟩
    · rw [g1, he]
    · rw [if_pos hd]
      exact ⟨g2, g3, h1, h2⟩
  have cw : direction ≠ "counterclockwise" → ∀ t, theta e c ≤ t → t ≤ arcEnd (theta e c) (theta s c) →
      onCircle c (arcRadius s c) t ∈ circular direction s e c := by
    intro hd t h1 h2
    obtain ⟨g1, g2, g3⟩ := arcEnd_turn _ _ te ts c (arcRadius s c)
    refine ⟨arcRadius s c, arcEnd (theta e c) (theta s c), theta e c, t, r0, ?_, he.symm, rfl, ?_⟩
    · rw [g1, hs]
    · rw [if_neg hd]
      exact ⟨g2, g3, h1, h2⟩
  unfold arcPoints at hp
  rcases List.mem_append.1 hp with hp | hp
  · by_cases hd : direction = "counterclockwise"
    · obtain ⟨g1, g2, g3⟩ := arcEnd_turn _ _ ts te c (arcRadius s c)
      rcases List.mem_cons.1 hp with h | h
      · have := ccw hd _ le_rfl g2.le
        rw [hs] at this
        rwa [h]
      · have := ccw hd _ g2.le le_rfl
        rw [g1, he] at this
        rwa [List.mem_singleton.1 h]
    · obtain ⟨g1, g2, g3⟩ := arcEnd_turn _ _ te ts c (arcRadius s c)
      rcases List.mem_cons.1 hp with h | h
      · have := cw hd _ g2.le le_rfl
        rw [g1, hs] at this
        rwa [h]
      · have := cw hd _ le_rfl g2.le
        rw [he] at this
        rwa [List.mem_singleton.1 h]
  · split at hp
    · split at hp
      · rename_i hd
        obtain ⟨t, rfl, h1, h2⟩ := arcExtra_on ts te hp
        exact ccw hd t h1 h2
      · rename_i hd
        obtain ⟨t, rfl, h1, h2⟩ := arcExtra_on te ts hp
        exact cw hd t h1 h2
    · cases hp

theorem hullBox_touches {L : List RPt} {S : Set RPt} (hL : L ≠ []) (h : ∀ p ∈ L, p ∈ S) :
    Touches (hullBox L) S := by
  cases L with
  | nil => exact absurd rfl hL
  | cons a l =>
    have ha := h a List.mem_cons_self
    have hl : ∀ x ∈ l, x ∈ S := fun x hx => h x (List.mem_cons_of_mem _ hx)
    refine ⟨?_, ?_, ?_, ?_⟩ <;> simp only [hullBox]
    · rcases (foldl_min_spec (l.map (·.1)) a.1).2 with e | e
      · exact ⟨a, ha, e.symm⟩
      · obtain ⟨x, hx, e⟩ := List.mem_map.1 e
        exact ⟨x, hl x hx, e⟩
    · rcases (foldl_max_spec (l.map (·.1)) a.1).2 with e | e
      · exact ⟨a, ha, e.symm⟩
      · obtain ⟨x, hx, e⟩ := List.mem_map.1 e
        exact ⟨x, hl x hx, e⟩
    · rcases (foldl_min_spec (l.map (·.2)) a.2).2 with e | e
      · exact ⟨a, ha, e.symm⟩
      · obtain ⟨x, hx, e⟩ := List.mem_map.1 e
        exact ⟨x, hl x hx, e⟩
    · rcases (foldl_max_spec (l.map (·.2)) a.2).2 with e | e
      · exact ⟨a, ha, e.symm⟩
      · obtain ⟨x, hx, e⟩ := List.mem_map.1 e
        exact ⟨x, hl x hx, e⟩

theorem arcBox_touches {direction mode : String} {s e c : RPt} (hr : arcRadius s c = arcRadius e c) :
    Touches (arcBox direction mode s e c) (circular direction s e c) :=
  hullBox_touches (by simp [arcPoints]) fun _ => arcPoints_on hr

/-- **C82** for arcs without their aperture, as used for the edges of regions: in multi-quadrant mode
the box is the smallest one around the path. -/
theorem C82_arc_edge {direction : String} {s e c : RPt} (hr : arcRadius s c = arcRadius e c) :
    (arcBox direction "multi-quadrant" s e c).Tight (circular direction s e c) :=
  ⟨fun _ => C32_arc_path, (arcBox_touches hr).least⟩

/-- **C82** for arcs in multi-quadrant mode drawn with a circle. -/
theorem C82_arc_circle {o ap : Obj} (hk : o.kind = .arc) (hm : o.quadrantMode = "multi-quadrant")
    (ha : ap.kind = .circle) {s e c : RPt} {d : ℝ} (hs : o.pts .start = some s)
    (he : o.pts .stop = some e) (hc : o.pts .center = some c) (hd : ap.nums .diameter = some d)
    (h0 : 0 ≤ d) (hr : arcRadius s c = arcRadius e c) {b : Box} (hb : o.ownBox (some ap) = some b) :
    b.Tight (swept (circular o.direction s e c) (disc (d / 2))) := by
  refine ⟨fun q hq => C32_arc_circle hk hm ha hs he hc hd h0 hb hq, Touches.least ?_⟩
  have : b = (arcBox o.direction "multi-quadrant" s e c).grow (d / 2, d / 2) := by
    simp [Obj.ownBox, hk, hs, he, hc, arcMargin, ha, Obj.radius?, hd, hm] at hb
    exact hb.symm
  rw [this]
  exact swept_touches (arcBox_touches hr) disc_touches

/-- Three quarters of a circle of radius 2: its box is the whole circle's. -/
example : (arcBox "counterclockwise" "multi-quadrant" (0, 2) (2, 0) (0, 0)).Tight
    (circular "counterclockwise" (0, 2) (2, 0) (0, 0)) :=
  C82_arc_edge (by simp [arcRadius])

/-- **C82 fails** for every arc drawn with a rectangle or obround: the margins are its whole width and
height, where half of them would do. -/
theorem C82_arc_rectangle_violated {o ap : Obj} (hk : o.kind = .arc)
    (hm : o.quadrantMode = "multi-quadrant") {s e c : RPt} {w h : ℝ} {S : Set RPt}
    (ha : (ap.kind = .rectangle ∧ S = slab w h) ∨ (ap.kind = .obround ∧ S = stadium w h))
    (hs : o.pts .start = some s) (he : o.pts .stop = some e) (hc : o.pts .center = some c)
    (hw : ap.nums .width = some w) (hh : ap.nums .height = some h) (hw0 : 0 < w) (hh0 : 0 ≤ h)
    {b : Box} (hb : o.ownBox (some ap) = some b) :
    ¬ b.Tight (swept (circular o.direction s e c) S) := by
  rintro ⟨-, hl⟩
  have hS : S ⊆ slab w h := by
    rcases ha with ⟨-, rfl⟩ | ⟨-, rfl⟩
    · exact fun _ h => h
    · exact stadium_slab hw0.le hh0
  have : b = (arcBox o.direction "multi-quadrant" s e c).grow (w, h) := by
    rcases ha with ⟨ha, -⟩ | ⟨ha, -⟩ <;>
    · simp [Obj.ownBox, hk, hs, he, hc, arcMargin, ha, Obj.radius?, Obj.size?, hw, hh, hm] at hb
      exact hb.symm
  have h2 := (hl _ fun q hq => swept_box (m := (w / 2, h / 2)) (fun _ => C32_arc_path)
    (fun p hp => hS hp) hq).2.1
  rw [this] at h2
  simp only [Box.grow] at h2
  linarith

/-- Such an arc and its box. -/
example : ∃ (o ap : Obj) (b : Box), o.kind = .arc ∧ o.quadrantMode = "multi-quadrant" ∧ ap.kind = .rectangle ∧
    ap.nums .width = some 1 ∧ o.ownBox (some ap) = some b ∧
    ¬ b.Tight (swept (circular o.direction (0, 2) (2, 0) (0, 0)) (slab 1 1)) := by
  refine ⟨⟨.arc, none, 0, fun a => match a with | .start => some (0, 2) | .stop => some (2, 0) | _ => some (0, 0),
    fun _ => none, "counterclockwise", "multi-quadrant", some 1, [], 0, [], none, none, none⟩,
    ⟨.rectangle, none, 0, fun _ => some (0, 0), fun _ => some 1, "clockwise", "multi-quadrant", none, [], 0, [], none,
      none, none⟩, _, rfl, rfl, rfl, rfl, rfl, ?_⟩
  exact C82_arc_rectangle_violated (h := 1) (ap := ⟨.rectangle, none, 0, fun _ => some (0, 0), fun _ => some 1,
    "clockwise", "multi-quadrant", none, [], 0, [], none, none, none⟩) rfl rfl (.inl ⟨rfl, rfl⟩) rfl rfl rfl rfl rfl one_pos zero_le_one rfl

/-! ## Regions, outlines and macro apertures -/

/-- **C82** for things made of parts: the smallest box around the smallest boxes of the parts is the
smallest box around all of them. -/
theorem C82_parts {b : Box} {bs : List Box} {Ss : List (Set RPt)} (hb : SmallestAround b bs)
    (hs : List.Forall₂ Box.Tight bs Ss) : b.Tight {q | ∃ S ∈ Ss, q ∈ S} := by
  have left : ∀ x ∈ bs, ∃ S ∈ Ss, x.Tight S := by
    intro x hx
    clear hb
    induction hs with
    | nil => cases hx
    | cons h _ ih =>
      rcases List.mem_cons.1 hx with rfl | hx
      · exact ⟨_, List.mem_cons_self, h⟩
      · obtain ⟨S, hS, h⟩ := ih hx
        exact ⟨S, List.mem_cons_of_mem _ hS, h⟩
  have right : ∀ S ∈ Ss, ∃ x ∈ bs, x.Tight S := by
    intro S hS
    clear hb left
    induction hs with
    | nil => cases hS
    | cons h _ ih =>
      rcases List.mem_cons.1 hS with rfl | hS
      · exact ⟨_, List.mem_cons_self, h⟩
      · obtain ⟨x, hx, h⟩ := ih hS
        exact ⟨x, List.mem_cons_of_mem _ hx, h⟩
  obtain ⟨h1, ⟨x1, m1, e1⟩, ⟨x2, m2, e2⟩, ⟨x3, m3, e3⟩, ⟨x4, m4, e4⟩⟩ := hb
  refine ⟨?_, ?_⟩
  · rintro q ⟨S, hS, hq⟩
    obtain ⟨x, hx, ht⟩ := right S hS
    exact h1 x hx q (ht.1 q hq)
  · intro b' hb'
    have key : ∀ x ∈ bs, b'.1.1 ≤ x.1.1 ∧ x.1.2 ≤ b'.1.2 ∧ b'.2.1 ≤ x.2.1 ∧ x.2.2 ≤ b'.2.2 := by
      intro x hx
      obtain ⟨S, hS, ht⟩ := left x hx
      exact ht.2 b' fun q hq => hb' q ⟨S, hS, hq⟩
    exact ⟨e1 ▸ (key _ m1).1, e2 ▸ (key _ m2).2.1, e3 ▸ (key _ m3).2.2.1, e4 ▸ (key _ m4).2.2.2⟩

/-- **C82** for regions without a remembered box. -/
theorem C82_region {n : ℕ} {h h' : Heap} {i : ℕ} {b : Box} (hk : (h i).kind = .region)
    (hx : (h i).box = none) (e : readBox (n + 1) h i = (some b, h')) {Ss : List (Set RPt)}
    (hp : ∀ bs, PartBoxes (readBare (readBox n)) h (h i).parts bs → List.Forall₂ Box.Tight bs Ss) :
    b.Tight {q | ∃ S ∈ Ss, q ∈ S} := by
  obtain ⟨bs, h1, h2⟩ := C32_region hk hx e
  exact C82_parts h2 (hp bs h1)

/-- **C82** for macro apertures and outlines without a remembered box. -/
theorem C82_group {n : ℕ} {h h' : Heap} {i : ℕ} {b : Box}
    (hk : (h i).kind = .amGroup ∨ ((h i).kind = .outline ∧ (h i).box = none))
    (e : readBox (n + 1) h i = (some b, h')) {Ss : List (Set RPt)}
    (hp : ∀ bs, PartBoxes (readBox n) h (h i).parts bs → List.Forall₂ Box.Tight bs Ss) :
    b.Tight {q | ∃ S ∈ Ss, q ∈ S} := by
  obtain ⟨bs, h1, h2⟩ := C32_group hk e
  exact C82_parts h2 (hp bs h1)

end Verif.Geom
