import Verif.Props.CairoClip

/-! # C67: the picture of a layer

Later primitives are painted over earlier ones, dark ones add and clear ones remove; inverted layers show the
complement. -/

namespace Verif.Cairo

open Verif.Py Verif.Geom Verif.Render

/-- The areas `As` are those covered by the shapes `xs` on the picture. -/
def Covers (K : Engine) (f : Frame) (invert mirror : Bool) : List (Bool × Shape) → List (Bool × Set RPt) → Prop :=
  List.Forall₂ fun x a => a.1 = x.1 ∧ K.covered f invert mirror x.1 x.2 = .ok a.2

/-- The last area that contains the point is dark. -/
def LastDark (As : List (Bool × Set RPt)) (p : RPt) : Prop :=
  ∃ before A after, As = before ++ (true, A) :: after ∧ p ∈ A ∧ ∀ a ∈ after, p ∉ a.2

theorem lastDark_concat (As : List (Bool × Set RPt)) (a : Bool × Set RPt) (p : RPt) :
    LastDark (As ++ [a]) p ↔ (p ∈ a.2 ∧ a.1 = true) ∨ (p ∉ a.2 ∧ LastDark As p) := by
  constructor
  · rintro ⟨before, A, after, h, hA, hl⟩
    rcases List.eq_nil_or_concat after with rfl | ⟨l, b, rfl⟩
    · have := List.append_inj' h rfl
      obtain ⟨-, h2⟩ := this
      injection h2 with h2
      subst h2
      exact .inl ⟨hA, rfl⟩
    · rw [List.concat_eq_append] at h hl
      have h' : As ++ [a] = (before ++ (true, A) :: l) ++ [b] := by rw [h]; simp
      obtain ⟨h1, h2⟩ := List.append_inj' h' rfl
      injection h2 with h2
      subst h2
      exact .inr ⟨hl a (by simp), before, A, l, h1, hA, fun x hx => hl x (by simp [hx])⟩
  · rintro (⟨h1, h2⟩ | ⟨h1, before, A, after, rfl, hA, hl⟩)
    · exact ⟨As, a.2, [], by rw [← h2], h1, by simp⟩
    · refine ⟨before, A, after ++ [a], by simp, hA, ?_⟩
      intro x hx
      rcases List.mem_append.mp hx with h | h
      · exact hl x h
      · rw [List.mem_singleton.mp h]; exact h1

theorem draw_split {K : Engine} {f : Frame} {invert mirror : Bool} (xs : List (Bool × Shape)) : ∀ {P Q : Set RPt},
    xs.foldlM (K.draw f invert mirror) P = .ok Q → ∃ As, Covers K f invert mirror xs As ∧
      Q = As.foldl (fun P a => if !invert && a.1 then P ∪ a.2 else P \ a.2) P := by
  induction xs with
  | nil =>
    intro P Q h
    injection h with h
    exact ⟨[], .nil, h.symm⟩
  | cons x xs ih =>
    intro P Q h
    simp only [List.foldlM_cons, Engine.draw, bind, Except.bind] at h
    cases hx : K.covered f invert mirror x.1 x.2 with
    | error e => rw [hx] at h; cases h
    | ok D =>
      rw [hx] at h
      obtain ⟨As, h1, h2⟩ := ih h
      exact ⟨(x.1, D) :: As, .cons ⟨rfl, hx⟩ h1, h2⟩

/-- A point of a layer that is not inverted is painted exactly if the last primitive covering it is dark. -/
theorem C67_painted {K : Engine} {f : Frame} {mirror : Bool} {prims : List Prim} {P : Set RPt}
    (h : K.layer f false mirror prims = .ok P) :
    ∃ As, Covers K f false mirror (prims.flatMap f.shapes) As ∧ ∀ p, p ∈ P ↔ LastDark As p := by
  obtain ⟨As, h1, rfl⟩ := draw_split _ h
  refine ⟨As, h1, fun p => ?_⟩
  clear h h1
  simp only [Bool.not_false, Bool.true_and, Bool.false_eq_true, if_false]
  induction As using List.reverseRecOn with
  | nil =>
    simp only [List.foldl_nil, Set.mem_empty_iff_false, false_iff]
    rintro ⟨b, A, c, h, -⟩
    simp at h
  | append_singleton As a ih =>
    rw [List.foldl_append, lastDark_concat, ← ih]
    simp only [List.foldl_cons, List.foldl_nil]
    obtain ⟨d, A⟩ := a
    cases d
    · simp only [Bool.false_eq_true, if_false, Set.mem_sdiff, and_false, false_or]
      exact and_comm
    · simp only [if_true, Set.mem_union, and_true]
      by_cases hA : p ∈ A <;> simp [hA]

/-- A point of an inverted layer is painted exactly if no primitive at all covers it. -/
theorem C67_inverted {K : Engine} {f : Frame} {mirror : Bool} {prims : List Prim} {P : Set RPt}
    (h : K.layer f true mirror prims = .ok P) :
    ∃ As, Covers K f true mirror (prims.flatMap f.shapes) As ∧ ∀ p, p ∈ P ↔ ∀ a ∈ As, p ∉ a.2 := by
  obtain ⟨As, h1, rfl⟩ := draw_split _ h
  refine ⟨As, h1, fun p => ?_⟩
  clear h h1
  simp only [Bool.not_true, Bool.false_and, Bool.false_eq_true, if_false, if_true]
  induction As using List.reverseRecOn with
  | nil => simp
  | append_singleton As a ih =>
    rw [List.foldl_append]
    simp only [List.foldl_cons, List.foldl_nil, Set.mem_sdiff, ih, List.mem_append, List.mem_singleton]
    constructor
    · rintro ⟨h1, h2⟩ x (hx | rfl)
      · exact h1 x hx
      · exact h2
    · exact fun h => ⟨fun x hx => h x (.inl hx), h a (.inr rfl)⟩

/-- Shapes whose aperture has no hole. -/
def Shape.NoHole : Shape → Prop
  | .circle _ _ _ h | .rectangle _ _ _ _ h | .obround _ _ _ _ h | .polygon _ _ _ _ h =>
    ¬ 0 < h.diameter ∧ ¬ (0 < h.width ∧ 0 < h.height)
  | _ => True

theorem holes_none (K : Engine) (s : ℝ) (pos : RPt) (rot : ℝ) {hole : Hole} (a b : Bool) (A : Set RPt)
    (h : ¬ 0 < hole.diameter ∧ ¬ (0 < hole.width ∧ 0 < hole.height)) : K.holes s pos rot hole a b A = A := by
  simp only [Engine.holes]
  rw [if_neg h.1, if_neg h.2]

theorem mask_noHole (K : Engine) (s : ℝ) (d i d' i' : Bool) {x : Shape} (h : x.NoHole) :
    K.mask s d i x = K.mask s d' i' x := by
  cases x with
  | line a e ap => cases ap <;> rfl
  | region l => cases l <;> rfl
  | circle | rectangle | obround =>
    simp only [Shape.NoHole] at h
    simp only [Engine.mask, holes_none K s _ _ _ _ _ h]
  | polygon =>
    simp only [Shape.NoHole] at h
    simp only [Engine.mask, holes_none K s _ _ _ _ _ h]
  | _ => rfl

/-- The inverted layer is the complement of the layer, if all its primitives are dark and without holes. -/
theorem C67_complement_partial {K : Engine} {f : Frame} {mirror : Bool} {prims : List Prim} {P Q : Set RPt}
    (hP : K.layer f false mirror prims = .ok P) (hQ : K.layer f true mirror prims = .ok Q)
    (hd : ∀ x ∈ prims.flatMap f.shapes, x.1 = true ∧ x.2.NoHole) : Q = Pᶜ := by
  obtain ⟨As, h1, h2⟩ := C67_painted hP
  obtain ⟨Bs, k1, k2⟩ := C67_inverted hQ
  generalize prims.flatMap f.shapes = xs at h1 k1 hd
  have : As = Bs := by
    clear hP hQ h2 k2
    induction h1 generalizing Bs with
    | nil => cases k1; rfl
    | cons ha _ ih =>
      cases k1 with
      | cons hb k1 =>
        rename_i x a xs As b Bs _
        obtain ⟨a1, a2⟩ := ha
        obtain ⟨b1, b2⟩ := hb
        have hx := hd x (by simp)
        have hm : K.covered f false mirror x.1 x.2 = K.covered f true mirror x.1 x.2 := by
          simp only [Engine.covered, mask_noHole K f.scale x.1 false x.1 true hx.2]
        rw [hm, b2] at a2
        injection a2 with a2
        rw [ih _ k1 fun y hy => hd y (by simp [hy])]
        congr 1
        exact Prod.ext (by rw [a1, b1]) a2.symm
  subst this
  ext p
  rw [k2, Set.mem_compl_iff, h2]
  have hdark : ∀ a ∈ As, a.1 = true := by
    clear hP hQ h2 k2 k1
    induction h1 with
    | nil => simp
    | cons ha _ ih =>
      intro a h
      rcases List.mem_cons.mp h with rfl | h
      · rw [ha.1]; exact (hd _ (by simp)).1
      · exact ih (fun y hy => hd y (by simp [hy])) a h
  clear hP hQ h1 h2 k1 k2
  constructor
  · rintro h ⟨b, A, c, rfl, hA, -⟩
    exact h (true, A) (by simp) hA
  · intro h a ha hp
    apply h
    clear h
    induction As using List.reverseRecOn with
    | nil => simp at ha
    | append_singleton As b ih =>
      rw [lastDark_concat]
      by_cases hb : p ∈ b.2
      · exact .inl ⟨hb, hdark b (by simp)⟩
      · refine .inr ⟨hb, ih (fun x hx => hdark x (by simp [hx])) ?_⟩
        rcases List.mem_append.mp ha with h | h
        · exact h
        · rw [List.mem_singleton.mp h] at hp; exact absurd hp hb

/-! ## Examples and violations -/

/-- A frame of 10 by 10 pixels. -/
def tenFrame : Frame := ⟨1, (0, 0), (10, 10)⟩

/-- A circle around the middle of it, with whole limits. -/
noncomputable def middle (n : ℕ) : Shape := .circle (5, 5) (2 * n) 0 {}

theorem covered_middle (K : Engine) (invert dark : Bool) (n : ℕ) :
    ∃ D, K.covered tenFrame invert false dark (middle n) = .ok D ∧
      ∀ x y : ℝ, (x, y) ∈ D ↔ (x - 5) ^ 2 + (y - 5) ^ 2 ≤ (n : ℝ) ^ 2 := by
  refine ⟨_, rfl, fun x y => ?_⟩
  have hm : K.holes (Frame.scale tenFrame) (5, 5) 0 {} true (dark && !invert)
      (discAt (scalePoint (Frame.scale tenFrame) (5, 5)) (2 * n / 2 * Frame.scale tenFrame)) =
      discAt (5, 5) n := by
    rw [holes_none K _ _ _ _ _ _ (by norm_num)]
    norm_num [tenFrame, scalePoint]
  rw [hm]
  have hb : Ordered (around (5, 5) (2 * (n : ℝ) / 2) (2 * n / 2)) := by
    have : (0 : ℝ) ≤ n := Nat.cast_nonneg n
    constructor <;> simp only [around] <;> linarith
  constructor
  · rintro ⟨q, ⟨⟨r, hr, rfl⟩, -⟩, h⟩
    simp only [Frame.matrix, Matrix.apply, Frame.placeMask, Frame.originPx, Frame.sizePx, scalePoint, tenFrame,
      Bool.false_eq_true, if_false, Prod.mk.injEq] at h
    obtain ⟨h1, h2⟩ := h
    simp only [discAt, Set.mem_ofPred_eq] at hr
    have e1 : r.1 = x := by linarith
    have e2 : r.2 = 10 - y := by linarith
    rw [e1, e2] at hr
    nlinarith
  · intro h
    have hr : ((x, 10 - y) : RPt) ∈ discAt (5, 5) (n : ℝ) := by
      simp only [discAt, Set.mem_ofPred_eq]
      nlinarith
    have hn : (0 : ℝ) ≤ n := Nat.cast_nonneg n
    have hx : |x - 5| ≤ n := abs_le_of_sq_le_sq (by nlinarith [sq_nonneg (y - 5)]) hn
    have hy : |y - 5| ≤ n := abs_le_of_sq_le_sq (by nlinarith [sq_nonneg (x - 5)]) hn
    obtain ⟨x1, x2⟩ := abs_le.mp hx
    obtain ⟨y1, y2⟩ := abs_le.mp hy
    have hp : (around (5, 5) (2 * (n : ℝ) / 2) (2 * n / 2)).Holds (x, 10 - y) := by
      refine ⟨?_, ?_, ?_, ?_⟩ <;> simp only [around] <;> linarith
    refine ⟨tenFrame.placeMask (x, 10 - y), ⟨⟨_, hr, rfl⟩, ?_⟩, ?_⟩
    · have := C66_aligned_partial tenFrame (by norm_num [tenFrame]) hb hp (m := 0) (n := 5 + n)
        (by norm_num [tenFrame, Frame.originPx, scalePoint]) (by norm_num [tenFrame, around])
      simpa [scalePoint, tenFrame] using this
    · simp only [Frame.matrix, Matrix.apply, Frame.placeMask, Frame.originPx, Frame.sizePx, scalePoint, tenFrame,
        Bool.false_eq_true, if_false, Prod.mk.injEq]
      constructor <;> ring

/-- What a few circles leave. -/
theorem layer_middle (K : Engine) (invert : Bool) (prims : List Prim) (l : List (Bool × ℕ))
    (h : prims.flatMap tenFrame.shapes = l.map fun x => (x.1, middle x.2)) :
    ∃ P, K.layer tenFrame invert false prims = .ok P ∧
      (((5, 5) : RPt) ∈ P ↔ if invert then l = [] else l.getLast?.map (·.1) = some true) := by
  have key : ∀ (l : List (Bool × ℕ)) (P : Set RPt),
      ∃ Q, (l.map fun x => (x.1, middle x.2)).foldlM (K.draw tenFrame invert false) P = .ok Q ∧
        (((5, 5) : RPt) ∈ Q ↔ if l = [] then ((5, 5) : RPt) ∈ P else
          invert = false ∧ l.getLast?.map (·.1) = some true) := by
    intro l
    induction l with
    | nil => exact fun P => ⟨P, rfl, by simp⟩
    | cons x l ih =>
      intro P
      obtain ⟨D, h1, h2⟩ := covered_middle K invert x.1 x.2
      have hD : ((5, 5) : RPt) ∈ D := by rw [h2]; norm_num
      obtain ⟨Q, q1, q2⟩ := ih (if !invert && x.1 then P ∪ D else P \ D)
      refine ⟨Q, ?_, ?_⟩
      · simp only [List.map_cons, List.foldlM_cons, Engine.draw, h1, bind, Except.bind]
        exact q1
      · rw [q2]
        cases l with
        | nil => cases invert <;> cases hx : x.1 <;> simp [hx, hD]
        | cons y l => simp [List.getLast?_cons_cons]
  obtain ⟨Q, q1, q2⟩ := key l (if invert then Set.univ else ∅)
  refine ⟨Q, by rw [Engine.layer, h]; exact q1, ?_⟩
  rw [q2]
  cases invert <;> cases l <;> simp

/-- The hypotheses of the theorems above are met, e.g. by a dark circle: painted in the middle, not if inverted. -/
example (K : Engine) : ∃ P Q, K.layer tenFrame false false [.shape true (middle 3)] = .ok P ∧
    K.layer tenFrame true false [.shape true (middle 3)] = .ok Q ∧ ((5, 5) : RPt) ∈ P ∧ ((5, 5) : RPt) ∉ Q ∧
    ∀ x ∈ [Prim.shape true (middle 3)].flatMap tenFrame.shapes, x.1 = true ∧ x.2.NoHole := by
  obtain ⟨P, h1, h2⟩ := layer_middle K false [.shape true (middle 3)] [(true, 3)] rfl
  obtain ⟨Q, k1, k2⟩ := layer_middle K true [.shape true (middle 3)] [(true, 3)] rfl
  refine ⟨P, Q, h1, k1, by rw [h2]; simp, by rw [k2]; simp, ?_⟩
  simp [Frame.shapes, middle, Shape.NoHole]

/-- Violation: clear primitives remove from inverted layers, too.  A clear circle on a dark one leaves the middle
unpainted in the layer and in the inverted layer. -/
theorem C67_complement_violated (K : Engine) : ∃ prims P Q, K.layer tenFrame false false prims = .ok P ∧
    K.layer tenFrame true false prims = .ok Q ∧ Q ≠ Pᶜ := by
  obtain ⟨P, h1, h2⟩ := layer_middle K false [.shape true (middle 3), .shape false (middle 1)] [(true, 3), (false, 1)] rfl
  obtain ⟨Q, k1, k2⟩ := layer_middle K true [.shape true (middle 3), .shape false (middle 1)] [(true, 3), (false, 1)] rfl
  refine ⟨_, P, Q, h1, k1, ?_⟩
  rintro rfl
  simp at h2 k2
  exact h2 k2

/-- A group without clear parts adds the areas of its parts. -/
theorem C67_group_partial {K : Engine} {f : Frame} {mirror : Bool} {parts : List (Bool × Shape)} {P Q : Set RPt}
    (hd : ∀ x ∈ parts, x.1 = true)
    (h : (f.shapes (.group parts)).foldlM (K.draw f false mirror) P = .ok Q) :
    ∃ As, Covers K f false mirror parts As ∧ ∀ p, p ∈ Q ↔ p ∈ P ∨ ∃ a ∈ As, p ∈ a.2 := by
  obtain ⟨As, h1, rfl⟩ := draw_split _ h
  refine ⟨As, h1, fun p => ?_⟩
  have hdark : ∀ a ∈ As, a.1 = true := by
    clear h
    change Covers K f false mirror parts As at h1
    induction h1 with
    | nil => simp
    | cons ha _ ih =>
      intro a h
      rcases List.mem_cons.mp h with rfl | h
      · rw [ha.1]; exact hd _ (by simp)
      · exact ih (fun y hy => hd y (by simp [hy])) a h
  clear h h1
  induction As using List.reverseRecOn with
  | nil => simp
  | append_singleton As a ih =>
    have ha := hdark a (by simp)
    have h := ih fun x hx => hdark x (by simp [hx])
    rw [List.foldl_append]
    generalize As.foldl _ P = R at h ⊢
    simp only [List.foldl_cons, List.foldl_nil, ha, Bool.not_false, Bool.true_and, if_true, Set.mem_union, h]
    simp only [List.mem_append, List.mem_singleton, or_and_right, exists_or, exists_eq_left, or_assoc]

example (K : Engine) : (∀ x ∈ [(true, middle 2), (true, middle 1)], x.1 = true) ∧
    ∃ Q, (tenFrame.shapes (.group [(true, middle 2), (true, middle 1)])).foldlM (K.draw tenFrame false false) ∅ =
      .ok Q ∧ ((5, 5) : RPt) ∈ Q := by
  obtain ⟨Q, h1, h2⟩ := layer_middle K false [.group [(true, middle 2), (true, middle 1)]] [(true, 2), (true, 1)] rfl
  exact ⟨by simp, Q, by simpa [Engine.layer] using h1, by rw [h2]; simp⟩

/-- Violation: the clear parts of a macro remove what was painted before the macro was flashed, not only earlier parts
of the macro. -/
theorem C67_group_violated (K : Engine) : ∃ before parts P Q, K.layer tenFrame false false before = .ok P ∧
    K.layer tenFrame false false (before ++ [.group parts]) = .ok Q ∧ ¬ P ⊆ Q := by
  obtain ⟨P, h1, h2⟩ := layer_middle K false [.shape true (middle 3)] [(true, 3)] rfl
  obtain ⟨Q, k1, k2⟩ := layer_middle K false ([.shape true (middle 3)] ++ [.group [(true, middle 2), (false, middle 1)]])
    [(true, 3), (true, 2), (false, 1)] rfl
  refine ⟨_, _, P, Q, h1, k1, fun h => ?_⟩
  simp at h2 k2
  exact k2 (h h2)

end Verif.Cairo
