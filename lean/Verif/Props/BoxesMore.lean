import Verif.Props.Boxes
import Mathlib.Tactic.IntervalCases
import Mathlib.Analysis.Convex.Hull

/-! # Bounding boxes of butterflies, donuts and composite primitives (C32) -/

namespace Verif.Geom

theorem turn_zero {c : RPt} {S : Set RPt} {q : RPt} (hq : q ∈ placed c 0 S) :
    ∃ p ∈ S, q = (c.1 + p.1, c.2 + p.2) := by
  obtain ⟨p, hp, rfl⟩ := hq
  exact ⟨p, hp, by simp [radians]⟩

/-- A square butterfly or a square with a round hole lies in its box if it is not rotated.  Missing:
rotations, for which it does not (`C32_square_rotated_violated`). -/
theorem C32_square_partial {o : Obj} {c : RPt} {d : ℝ}
    (hk : (o.kind = .squareButterfly ∧ o.nums .side = some d) ∨
      (o.kind = .squareRoundDonut ∧ o.nums .outerDiameter = some d))
    (hc : o.pts .position = some c) (hr : o.rotation = 0) {b : Box} (hb : o.ownBox none = some b)
    {q : RPt} (hq : q ∈ placed c o.rotation (slab d d)) : b.Holds q := by
  have : b = around c (d / 2) (d / 2) := by
    rcases hk with ⟨h, hd⟩ | ⟨h, hd⟩ <;> simp [Obj.ownBox, h, hc, hd] at hb <;> exact hb.symm
  rw [this]
  rw [hr] at hq
  obtain ⟨p, hp, rfl⟩ := turn_zero hq
  exact holds_around hp.1 hp.2

/-- The box ignores the rotation: the corner of a square of side 2 turned by 45 degrees is outside. -/
theorem C32_square_rotated_violated (k : Kind) (hk : k = .squareButterfly ∨ k = .squareRoundDonut) :
    ∃ (o : Obj) (b : Box) (q : RPt), o.kind = k ∧ o.rotation = 45 ∧ o.ownBox none = some b ∧
      q ∈ placed (0, 0) o.rotation (slab 2 2) ∧ ¬ b.Holds q := by
  have h45 : radians 45 = Real.pi / 4 := by unfold radians; ring
  have h2 : (1 : ℝ) < Real.sqrt 2 := by
    rw [show (1 : ℝ) = Real.sqrt 1 by simp]; exact Real.sqrt_lt_sqrt (by norm_num) (by norm_num)
  refine ⟨⟨k, none, 45, fun _ => some (0, 0), fun _ => some 2, "clockwise", "multi-quadrant", none, [],
    0, [], none, none, none⟩, ((-1, 1), (-1, 1)), (0, Real.sqrt 2), rfl, rfl, ?_, ?_, ?_⟩
  · rcases hk with rfl | rfl <;> simp [Obj.ownBox, around]
  · refine ⟨(1, 1), ⟨by norm_num, by norm_num⟩, ?_⟩
    simp only [h45, Real.cos_pi_div_four, Real.sin_pi_div_four]
    ext <;> simp
  · rintro ⟨-, -, -, h⟩
    simp only at h
    linarith

theorem ownBox_donut {o : Obj} (hk : o.kind = .donut) {c : RPt} {w h : ℝ}
    (hc : o.pts .position = some c) (hw : o.nums .width = some w) (hh : o.nums .height = some h) :
    o.ownBox none = some (around c (w / 2) (h / 2)) := by
  simp [Obj.ownBox, hk, hc, hw, hh]

/-- A round donut lies in its box, for every rotation. -/
theorem C32_donut_round {o : Obj} (hk : o.kind = .donut) {c : RPt} {d : ℝ}
    (hc : o.pts .position = some c) (hw : o.nums .width = some d) (hh : o.nums .height = some d)
    (h0 : 0 ≤ d) {b : Box} (hb : o.ownBox none = some b) {q : RPt}
    (hq : q ∈ placed c o.rotation (disc (d / 2))) : b.Holds q := by
  rw [ownBox_donut hk hc hw hh, Option.some.injEq] at hb
  rw [← hb]
  exact holds_disc (by linarith) (fun _ h => h) hq

/-- A square or octagonal donut that is not rotated lies in its box. -/
theorem C32_donut_square_partial {o : Obj} (hk : o.kind = .donut) {c : RPt} {d : ℝ}
    (hc : o.pts .position = some c) (hw : o.nums .width = some d) (hh : o.nums .height = some d)
    (hr : o.rotation = 0) {b : Box} (hb : o.ownBox none = some b) {S : Set RPt} (hS : S ⊆ slab d d)
    {q : RPt} (hq : q ∈ placed c o.rotation S) : b.Holds q := by
  rw [ownBox_donut hk hc hw hh, Option.some.injEq] at hb
  rw [hr] at hq
  obtain ⟨p, hp, rfl⟩ := turn_zero hq
  rw [← hb]
  exact holds_around (hS hp).1 (hS hp).2

/-- The hexagon between two opposite corners at distance `d`, which are its top and its bottom. -/
noncomputable def hexagon (d : ℝ) : Set RPt :=
  convexHull ℝ {p | ∃ i < 6, p = (d / 2 * Real.cos (Real.pi / 2 + Real.pi / 3 * (i : ℕ)),
    d / 2 * Real.sin (Real.pi / 2 + Real.pi / 3 * (i : ℕ)))}

theorem slab_convex (w h : ℝ) : Convex ℝ (slab w h) := by
  intro p hp q hq a b ha hb hab
  obtain ⟨p1, p2⟩ := hp
  obtain ⟨q1, q2⟩ := hq
  rw [abs_le] at p1 p2 q1 q2
  have hb' : b = 1 - a := by linarith
  subst hb'
  constructor
  · show |a * p.1 + (1 - a) * q.1| ≤ _
    rw [abs_le]
    constructor <;> nlinarith
  · show |a * p.2 + (1 - a) * q.2| ≤ _
    rw [abs_le]
    constructor <;> nlinarith

theorem hexagon_slab {d : ℝ} (h0 : 0 ≤ d) : hexagon d ⊆ slab (1 / 2 * Real.sqrt 3 * d) d := by
  refine convexHull_min ?_ (slab_convex _ _)
  rintro p ⟨i, hi, rfl⟩
  have hs : ∀ t : ℝ, |d / 2 * Real.sin t| ≤ d / 2 := by
    intro t
    rw [abs_mul, abs_of_nonneg (by linarith : 0 ≤ d / 2)]
    exact mul_le_of_le_one_right (by linarith) (Real.abs_sin_le_one t)
  refine ⟨?_, hs _⟩
  have key : |Real.cos (Real.pi / 2 + Real.pi / 3 * (i : ℕ))| ≤ Real.sqrt 3 / 2 := by
    have s0 := Real.sqrt_nonneg 3
    have hc : Real.cos (Real.pi / 2 + Real.pi / 3 * (i : ℕ)) = -Real.sin (Real.pi / 3 * (i : ℕ)) := by
      rw [add_comm, Real.cos_add_pi_div_two]
    rw [hc, abs_neg]
    have h3 := Real.sin_pi_div_three
    have e2 : Real.sin (Real.pi / 3 * 2) = Real.sqrt 3 / 2 := by
      rw [show Real.pi / 3 * 2 = Real.pi - Real.pi / 3 by ring, Real.sin_pi_sub, h3]
    have e4 : Real.sin (Real.pi / 3 * 4) = -(Real.sqrt 3 / 2) := by
      rw [show Real.pi / 3 * 4 = Real.pi / 3 + Real.pi by ring, Real.sin_add_pi, h3]
    have e5 : Real.sin (Real.pi / 3 * 5) = -(Real.sqrt 3 / 2) := by
      rw [show Real.pi / 3 * 5 = Real.pi / 3 * 2 + Real.pi by ring, Real.sin_add_pi, e2]
    have a0 : |Real.sqrt 3 / 2| ≤ Real.sqrt 3 / 2 := le_of_eq (abs_of_nonneg (by linarith))
    interval_cases i
    · simp only [Nat.cast_zero, mul_zero, Real.sin_zero, abs_zero]
      linarith
    · simp only [Nat.cast_one, mul_one, h3]
      exact a0
    · push_cast
      rw [e2]; exact a0
    · have : Real.sin (Real.pi / 3 * 3) = 0 := by
        rw [show Real.pi / 3 * 3 = Real.pi by ring, Real.sin_pi]
      push_cast
      rw [this, abs_zero]; linarith
    · push_cast
      rw [e4, abs_neg]; exact a0
    · push_cast
      rw [e5, abs_neg]; exact a0
  show |d / 2 * _| ≤ _
  rw [abs_mul, abs_of_nonneg (by linarith : 0 ≤ d / 2)]
  calc d / 2 * |Real.cos (Real.pi / 2 + Real.pi / 3 * (i : ℕ))| ≤ d / 2 * (Real.sqrt 3 / 2) :=
        mul_le_mul_of_nonneg_left key (by linarith)
    _ = _ := by ring

/-- A hexagonal donut (primitives.py:1537-1540: `0.5 * sqrt(3) * outer_diameter` wide) that is not
rotated lies in its box. -/
theorem C32_donut_hexagon_partial {o : Obj} (hk : o.kind = .donut) {c : RPt} {d : ℝ}
    (hc : o.pts .position = some c) (hw : o.nums .width = some (1 / 2 * Real.sqrt 3 * d))
    (hh : o.nums .height = some d) (h0 : 0 ≤ d) (hr : o.rotation = 0) {b : Box}
    (hb : o.ownBox none = some b) {q : RPt} (hq : q ∈ placed c o.rotation (hexagon d)) : b.Holds q := by
  rw [ownBox_donut hk hc hw hh, Option.some.injEq] at hb
  rw [hr] at hq
  obtain ⟨p, hp, rfl⟩ := turn_zero hq
  rw [← hb]
  exact holds_around (hexagon_slab h0 hp).1 (hexagon_slab h0 hp).2

/-! ## Composite primitives -/

theorem foldl_min_spec (l : List ℝ) (a : ℝ) :
    (l.foldl min a ≤ a ∧ ∀ x ∈ l, l.foldl min a ≤ x) ∧ (l.foldl min a = a ∨ l.foldl min a ∈ l) := by
  induction l generalizing a with
  | nil => simp
  | cons y l ih =>
    obtain ⟨⟨h1, h2⟩, h3⟩ := ih (min a y)
    simp only [List.foldl_cons, List.mem_cons, forall_eq_or_imp]
    refine ⟨⟨h1.trans (min_le_left _ _), h1.trans (min_le_right _ _), h2⟩, ?_⟩
    rcases h3 with h | h
    · rcases min_choice a y with e | e <;> rw [e] at h ⊢ <;> tauto
    · tauto

theorem foldl_max_spec (l : List ℝ) (a : ℝ) :
    (a ≤ l.foldl max a ∧ ∀ x ∈ l, x ≤ l.foldl max a) ∧ (l.foldl max a = a ∨ l.foldl max a ∈ l) := by
  induction l generalizing a with
  | nil => simp
  | cons y l ih =>
    obtain ⟨⟨h1, h2⟩, h3⟩ := ih (max a y)
    simp only [List.foldl_cons, List.mem_cons, forall_eq_or_imp]
    refine ⟨⟨(le_max_left _ _).trans h1, (le_max_right _ _).trans h1, h2⟩, ?_⟩
    rcases h3 with h | h
    · rcases max_choice a y with e | e <;> rw [e] at h ⊢ <;> tauto
    · tauto

/-- `b` is the smallest box around the boxes of a list: it contains them, and each of its sides is a
side of one of them. -/
def SmallestAround (b : Box) (bs : List Box) : Prop :=
  (∀ x ∈ bs, ∀ q, x.Holds q → b.Holds q) ∧ (∃ x ∈ bs, b.1.1 = x.1.1) ∧ (∃ x ∈ bs, b.1.2 = x.1.2) ∧
    (∃ x ∈ bs, b.2.1 = x.2.1) ∧ (∃ x ∈ bs, b.2.2 = x.2.2)

theorem unionBox_spec {bs : List Box} {b : Box} (h : unionBox bs = some b) : SmallestAround b bs := by
  cases bs with
  | nil => cases h
  | cons a l =>
    cases h
    obtain ⟨⟨a1, a2⟩, a3⟩ := foldl_min_spec (l.map (·.1.1)) a.1.1
    obtain ⟨⟨b1, b2⟩, b3⟩ := foldl_max_spec (l.map (·.1.2)) a.1.2
    obtain ⟨⟨c1, c2⟩, c3⟩ := foldl_min_spec (l.map (·.2.1)) a.2.1
    obtain ⟨⟨d1, d2⟩, d3⟩ := foldl_max_spec (l.map (·.2.2)) a.2.2
    refine ⟨?_, ?_, ?_, ?_, ?_⟩
    · intro x hx q hq
      obtain ⟨q1, q2, q3, q4⟩ := hq
      rcases List.mem_cons.1 hx with rfl | hx
      · exact ⟨a1.trans q1, q2.trans b1, c1.trans q3, q4.trans d1⟩
      · exact ⟨(a2 _ (List.mem_map_of_mem (f := (·.1.1)) hx)).trans q1,
          q2.trans (b2 _ (List.mem_map_of_mem (f := (·.1.2)) hx)),
          (c2 _ (List.mem_map_of_mem (f := (·.2.1)) hx)).trans q3,
          q4.trans (d2 _ (List.mem_map_of_mem (f := (·.2.2)) hx))⟩
    all_goals simp only [List.mem_cons, exists_eq_or_imp]
    · rcases a3 with h | h
      · exact .inl h
      · obtain ⟨x, hx, e⟩ := List.mem_map.1 h
        exact .inr ⟨x, hx, e.symm⟩
    · rcases b3 with h | h
      · exact .inl h
      · obtain ⟨x, hx, e⟩ := List.mem_map.1 h
        exact .inr ⟨x, hx, e.symm⟩
    · rcases c3 with h | h
      · exact .inl h
      · obtain ⟨x, hx, e⟩ := List.mem_map.1 h
        exact .inr ⟨x, hx, e.symm⟩
    · rcases d3 with h | h
      · exact .inl h
      · obtain ⟨x, hx, e⟩ := List.mem_map.1 h
        exact .inr ⟨x, hx, e.symm⟩

/-- The boxes of the parts of an object, each read from the heap the previous one left. -/
inductive PartBoxes (read : Heap → ℕ → Option Box × Heap) : Heap → List ℕ → List Box → Prop
  | nil (h : Heap) : PartBoxes read h [] []
  | cons {h h' : Heap} {i : ℕ} {l : List ℕ} {b : Box} {bs : List Box} :
    read h i = (some b, h') → PartBoxes read h' l bs → PartBoxes read h (i :: l) (b :: bs)

theorem readParts_spec {read : Heap → ℕ → Option Box × Heap} {l : List ℕ} {h h' : Heap}
    {bs : List Box} (e : readParts read h l = (some bs, h')) : PartBoxes read h l bs := by
  induction l generalizing h h' bs with
  | nil => cases e; exact .nil h
  | cons i l ih =>
    unfold readParts at e
    split at e
    · cases e
    · rename_i b h1 h2
      split at e
      · cases e
      · rename_i bs' h3 h4
        cases e
        exact .cons h2 (ih h4)

/-- A macro aperture, or an outline without a remembered box: its box is the smallest one around the
boxes of its parts. -/
theorem C32_group {n : ℕ} {h h' : Heap} {i : ℕ} {b : Box}
    (hk : (h i).kind = .amGroup ∨ ((h i).kind = .outline ∧ (h i).box = none))
    (e : readBox (n + 1) h i = (some b, h')) :
    ∃ bs, PartBoxes (readBox n) h (h i).parts bs ∧ SmallestAround b bs := by
  have key : ∀ r, readParts (readBox n) h (h i).parts = r → (r.1.bind unionBox) = some b →
      ∃ bs, PartBoxes (readBox n) h (h i).parts bs ∧ SmallestAround b bs := by
    rintro ⟨o, h2⟩ h1 hb
    cases o with
    | none => cases hb
    | some bs => exact ⟨bs, readParts_spec h1, unionBox_spec hb⟩
  rcases hk with hk | ⟨hk, hx⟩
  · rw [readBox, hk] at e
    refine key _ rfl ?_
    simpa using congrArg Prod.fst e
  · rw [readBox, hk, hx] at e
    simp only [reduceCtorEq, if_false] at e
    refine key _ rfl ?_
    generalize readParts (readBox n) h (h i).parts = r at e
    rcases r with ⟨o, h2⟩
    cases ho : o.bind unionBox with
    | none => simp only [ho] at e; cases e
    | some c => simp only [ho] at e; cases e; rfl

/-- A region without a remembered box: its box is the smallest one around the paths of its edges
(without apertures). -/
theorem C32_region {n : ℕ} {h h' : Heap} {i : ℕ} {b : Box} (hk : (h i).kind = .region)
    (hx : (h i).box = none) (e : readBox (n + 1) h i = (some b, h')) :
    ∃ bs, PartBoxes (readBare (readBox n)) h (h i).parts bs ∧ SmallestAround b bs := by
  rw [readBox, hk, hx] at e
  simp only [if_true] at e
  cases hr : readParts (readBare (readBox n)) h (h i).parts with
  | mk o h2 =>
    rw [hr] at e
    cases o with
    | none => cases e
    | some bs =>
      refine ⟨bs, readParts_spec hr, unionBox_spec ?_⟩
      cases ho : unionBox bs with
      | none => simp only [Option.bind, ho] at e; cases e
      | some c => simp only [Option.bind, ho] at e; cases e; rfl

/-- Two circles of diameter 2 next to each other in a macro. -/
noncomputable def twoCircles : Heap := fun i =>
  if i = 0 then ⟨.amGroup, none, 0, fun _ => none, fun _ => none, "clockwise", "multi-quadrant", none,
    [1, 2], 0, [], none, none, none⟩
  else ⟨.circle, none, 0, fun _ => some (2 * (i : ℝ), 0), fun _ => some 2, "clockwise",
    "multi-quadrant", none, [], 0, [], none, none, none⟩

example : (twoCircles 0).kind = .amGroup ∧ (readBox 2 twoCircles 0).1 = some ((1, 5), (-1, 1)) := by
  refine ⟨rfl, ?_⟩
  simp [twoCircles, readBox, readParts, Obj.ownBox, around, unionBox]
  norm_num

/-- A butterfly and donuts that meet the hypotheses above. -/
example : ∃ o : Obj, o.kind = .donut ∧ o.rotation = 0 ∧ o.nums .width = some (1 / 2 * Real.sqrt 3 * 4) ∧
    o.nums .height = some 4 ∧ o.pts .position = some (1, 2) :=
  ⟨⟨.donut, none, 0, fun _ => some (1, 2), fun a => if a = .width then some (1 / 2 * Real.sqrt 3 * 4)
    else some 4, "clockwise", "multi-quadrant", none, [], 0, [], none, none, none⟩, rfl, rfl, by simp, by simp, rfl⟩

/-- Two lines as a region. -/
noncomputable def twoEdges : Heap := fun i =>
  if i = 0 then ⟨.region, none, 0, fun _ => none, fun _ => none, "clockwise", "multi-quadrant", none,
    [1, 2], 0, [], none, none, none⟩
  else ⟨.line, none, 0, fun a => if a = .start then some (0, 0) else some ((i : ℝ), 3), fun _ => none,
    "clockwise", "multi-quadrant", none, [], 0, [], none, none, none⟩

example : (twoEdges 0).kind = .region ∧ (twoEdges 0).box = none ∧
    (readBox 2 twoEdges 0).1 = some ((0, 2), (0, 3)) := by
  refine ⟨rfl, rfl, ?_⟩
  simp [twoEdges, readBox, readParts, readBare, Obj.bareBox, segBox, unionBox]

end Verif.Geom
