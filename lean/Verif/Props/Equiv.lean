import Verif.Spec.Equiv
import Verif.Props.AmShape
import Mathlib.Tactic.IntervalCases

/-! # C69: macro groups share a definition only if they look the same -/

namespace Verif.Equiv

open Verif.Py Verif.Geom

theorem roundEven_zero (x : ℝ) : roundEven x = 0 ↔ |x| ≤ 1 / 2 := by
  have h1 := Int.floor_le x
  have h2 := Int.lt_floor_add_one x
  unfold roundEven
  rw [abs_le]
  generalize ⌊x⌋ = n at h1 h2
  have cases : n ≤ -2 ∨ n = -1 ∨ n = 0 ∨ 1 ≤ n := by omega
  rcases cases with hn | rfl | rfl | hn
  · have hn' : (n : ℝ) ≤ -2 := by exact_mod_cast hn
    refine ⟨fun h => ?_, fun h => by linarith⟩
    split_ifs at h <;> omega
  · push_cast at *
    split_ifs with a b
    · exact ⟨fun h => by norm_num at h, fun h => by linarith⟩
    · exact absurd b.2 (by decide)
    · exact ⟨fun _ => ⟨by linarith, by linarith⟩, fun _ => by norm_num⟩
  · push_cast at *
    split_ifs with a b
    · exact ⟨fun _ => ⟨by linarith, by linarith⟩, fun _ => rfl⟩
    · exact ⟨fun _ => ⟨by linarith, by linarith⟩, fun _ => rfl⟩
    · refine ⟨fun h => by omega, fun h => ?_⟩
      exact absurd ⟨by linarith, by decide⟩ b
  · have hn' : (1 : ℝ) ≤ n := by exact_mod_cast hn
    refine ⟨fun h => ?_, fun h => by linarith⟩
    split_ifs at h <;> omega

theorem pyRound_zero (x : ℝ) : pyRound x 6 = 0 ↔ |x| ≤ tol := by
  unfold pyRound tol
  rw [div_eq_zero_iff, Int.cast_eq_zero, roundEven_zero, abs_mul]
  norm_num
  constructor <;> intro h <;> linarith

/-- **C69**: points are nearly equal exactly if they differ by at most half a millionth in each coordinate. -/
theorem C69_nearly (p q : RPt) : nearlyEqual p q = true ↔ Close p q := by
  simp only [nearlyEqual, Bool.and_eq_true, decide_eq_true_eq, pyRound_zero, Close]

example : nearlyEqual (1, 2) (1 + 1 / 2000000, 2) = true := by
  rw [C69_nearly, Close, tol]; norm_num

example : nearlyEqual (1, 2) (1 + 1 / 1000000, 2) = false := by
  rw [Bool.eq_false_iff, Ne, C69_nearly, Close, tol]; norm_num [abs_of_pos]

theorem nearlyEqual_sub {p q p' q' : RPt} (h1 : p.1 - q.1 = p'.1 - q'.1) (h2 : p.2 - q.2 = p'.2 - q'.2) :
    nearlyEqual p q = nearlyEqual p' q' := by simp only [nearlyEqual, h1, h2]

theorem nearlyEqual_self (p : RPt) : nearlyEqual p p = true := by
  rw [C69_nearly]; simp [Close, tol]

/-! ## The place does not matter -/

theorem nearlyEqual_moved (p q d e : RPt) :
    nearlyEqual (shift p d) (shift (shift q e) (d.1 - e.1, d.2 - e.2)) = nearlyEqual p (shift q (0, 0)) :=
  nearlyEqual_sub (by simp [shift]) (by simp [shift])

theorem allEquiv_map {α β : Type} (f : α → α → PyR Bool) (f' : β → β → PyR Bool) (u v : α → β)
    (h : ∀ a b, f' (u a) (v b) = f a b) : ∀ as bs, allEquiv f' (as.map u) (bs.map v) = allEquiv f as bs
  | [], _ => by simp [allEquiv]
  | _ :: _, [] => by simp [allEquiv]
  | a :: as, b :: bs => by simp only [List.map_cons, allEquiv, h, allEquiv_map f f' u v h as bs]

theorem Shape.equivalent_moved (a b : Shape) (d e : RPt) :
    (a.move d).equivalent (b.move e) (d.1 - e.1, d.2 - e.2) = a.equivalent b (0, 0) := by
  cases a <;> cases b <;> simp only [Shape.move, Shape.equivalent, nearlyEqual_moved, lineEquiv, List.length_map]
  congr 1
  exact allEquiv_map _ _ _ _ (fun l m => by simp only [nearlyEqual_moved]) _ _

/-- **C69**: whether groups flashed at any two places are taken for the same depends on the groups only. -/
theorem C69_place (g h : List Drawn) (d e : RPt) :
    equivalent (moveTo d g) (moveTo e h) (d.1 - e.1, d.2 - e.2) = equivalent g h (0, 0) := by
  simp only [equivalent, moveTo, List.length_map]
  congr 1
  exact allEquiv_map _ _ _ _ (fun a b => Shape.equivalent_moved _ _ d e) _ _

theorem placed_moved (p d : RPt) (rot : ℝ) (S : Set RPt) : placed (shift p d) rot S = moved d (placed p rot S) := by
  ext q
  constructor
  · rintro ⟨u, hu, rfl⟩
    exact ⟨_, ⟨u, hu, rfl⟩, by simp only [shift]; ext <;> simp only <;> ring⟩
  · rintro ⟨_, ⟨u, hu, rfl⟩, rfl⟩
    exact ⟨u, hu, by simp only [shift]; ext <;> simp only <;> ring⟩

/-- **C69**: flashing a group at a place moves the areas of its parts there, keeps their polarity, and moves the ends of
the lines of outlines. -/
theorem C69_move (g : List Drawn) (d : RPt) :
    List.Forall₂ (fun a b : Drawn => b.dark = a.dark ∧ b.shape.area = moved d a.shape.area ∧
      ∀ ls, a.shape = .outline ls → ∃ ls', b.shape = .outline ls' ∧
        List.Forall₂ (fun l m => m.1 = (l.1.1 + d.1, l.1.2 + d.2) ∧ m.2 = (l.2.1 + d.1, l.2.2 + d.2)) ls ls')
      g (moveTo d g) := by
  unfold moveTo
  rw [List.forall₂_map_right_iff]
  refine List.forall₂_same.2 fun a _ => ⟨rfl, ?_, ?_⟩
  · have none : (∅ : Set RPt) = moved d ∅ := by ext q; simp [moved]
    cases a.shape with
    | line s e w =>
      ext q
      constructor
      · rintro ⟨c, ⟨t, h0, h1, rfl⟩, p, hp, rfl⟩
        exact ⟨_, ⟨_, ⟨t, h0, h1, rfl⟩, p, hp, rfl⟩, by simp only [shift]; ext <;> simp only <;> ring⟩
      · rintro ⟨_, ⟨_, ⟨t, h0, h1, rfl⟩, p, hp, rfl⟩, rfl⟩
        exact ⟨_, ⟨t, h0, h1, rfl⟩, p, hp, by simp only [shift]; ext <;> simp only <;> ring⟩
    | circle p w h => exact placed_moved _ _ _ _
    | rectangle p w v rot h => exact placed_moved _ _ _ _
    | polygon p n r rot h => exact placed_moved _ _ _ _
    | outline ls => exact none
    | other c b => exact none
  · intro ls hl
    refine ⟨_, by rw [hl]; rfl, ?_⟩
    rw [List.forall₂_map_right_iff]
    exact List.forall₂_same.2 fun l _ => ⟨rfl, rfl⟩

/-- The theorem applies to a turned polygon. -/
example : (moveTo (1, 2) [⟨true, .polygon (0, 0) 5 1 30 {}⟩]).map Drawn.shape = [.polygon (0 + 1, 0 + 2) 5 1 30 {}] := rfl

/-- Objects that have the method `equivalent`. -/
def Shape.Comparable : Shape → Prop
  | .other .. => False
  | _ => True

theorem allEquiv_true {α : Type} {f : α → α → PyR Bool} : ∀ {as bs : List α}, as.length = bs.length →
    (allEquiv f as bs = .ok true ↔ List.Forall₂ (fun a b => f a b = .ok true) as bs)
  | [], [], _ => by simp [allEquiv]
  | a :: as, b :: bs, h => by
    have ih := allEquiv_true (f := f) (as := as) (bs := bs) (by simpa using h)
    rw [List.forall₂_cons, ← ih]
    cases hf : f a b with
    | error x => simp [allEquiv, hf, bind, Except.bind]
    | ok r => cases r <;> simp [allEquiv, hf, bind, Except.bind]

theorem Shape.equivalent_self (a : Shape) (h : a.Comparable) : a.equivalent a (0, 0) = .ok true := by
  have hs : ∀ p : RPt, shift p (0, 0) = p := fun p => by simp [shift]
  cases a with
  | other c b => exact absurd h (by simp [Shape.Comparable])
  | outline ls =>
    simp only [Shape.equivalent, ne_eq, not_true_eq_false, if_false]
    rw [allEquiv_true rfl]
    exact List.forall₂_same.2 fun l _ => by simp [lineEquiv, hs, nearlyEqual_self]
  | _ => simp [Shape.equivalent, lineEquiv, hs, nearlyEqual_self]

/-- **C69**: a group is taken for the same wherever it is flashed, so that its macro is written once. -/
theorem C69_again (g : List Drawn) (hg : ∀ a ∈ g, a.shape.Comparable) (d e : RPt) :
    equivalent (moveTo d g) (moveTo e g) (d.1 - e.1, d.2 - e.2) = .ok true := by
  rw [C69_place]
  simp only [equivalent, ne_eq, not_true_eq_false, if_false]
  rw [allEquiv_true rfl]
  exact List.forall₂_same.2 fun a ha => a.shape.equivalent_self (hg a ha)

theorem ofAm_comparable (a : Verif.Am.Drawn) : (ofAm a).shape.Comparable := by
  cases h : a.shape <;> simp [ofAm, h, Shape.Comparable]

/-- **C69**: groups made of the macros of a file can always be compared. -/
theorem C69_total (g h : List Verif.Am.Drawn) (d : RPt) :
    ∃ r, equivalent (g.map ofAm) (h.map ofAm) d = .ok r := by
  have hl : ∀ (ls ls' : List (RPt × RPt)), ∃ r, allEquiv (fun l m => .ok (lineEquiv l m d)) ls ls' = .ok r := by
    intro ls
    induction ls with
    | nil => exact fun _ => ⟨_, rfl⟩
    | cons l ls ih =>
      rintro (_ | ⟨m, ls'⟩)
      · exact ⟨_, rfl⟩
      · simp only [allEquiv, bind, Except.bind]
        split
        · exact ih ls'
        · exact ⟨_, rfl⟩
  have ht : ∀ a b : Verif.Am.Drawn, ∃ r, (ofAm a).shape.equivalent (ofAm b).shape d = .ok r := by
    intro a b
    cases ha : a.shape <;> cases hb : b.shape <;> simp only [ofAm, ha, hb, Shape.equivalent] <;>
      first
      | exact ⟨_, rfl⟩
      | (split_ifs <;> first | exact ⟨_, rfl⟩ | exact hl _ _)
  have main : ∀ g h : List Verif.Am.Drawn,
      ∃ r, allEquiv (fun a b => a.shape.equivalent b.shape d) (g.map ofAm) (h.map ofAm) = .ok r := by
    intro g
    induction g with
    | nil => exact fun _ => ⟨_, rfl⟩
    | cons a g ih =>
      rintro (_ | ⟨b, h⟩)
      · exact ⟨_, rfl⟩
      · obtain ⟨r, hr⟩ := ht a b
        simp only [List.map_cons, allEquiv, hr, bind, Except.bind]
        split
        · exact ih h
        · exact ⟨_, rfl⟩
  unfold equivalent
  split_ifs
  · exact ⟨_, rfl⟩
  · exact main g h

/-- **C69 violated**: a group with a part of another class, e.g. an obround, cannot be compared with anything of the
same length. -/
theorem C69_class_violated (c : Str) (b : Box) (dark : Bool) (a : Drawn) (d : RPt) :
    equivalent [⟨dark, .other c b⟩] [a] d = .error .attributeError := rfl

/-! ## Groups taken for the same look the same -/

theorem near_of_close {p p' : RPt} {rot : ℝ} {d : RPt} {S : Set RPt} (h : Close p (shift p' d)) :
    Near (placed p rot S) (moved d (placed p' rot S)) := by
  obtain ⟨h1, h2⟩ := h
  simp only [shift] at h1 h2
  constructor
  · rintro q ⟨u, hu, rfl⟩
    refine ⟨_, ⟨_, ⟨u, hu, rfl⟩, rfl⟩, ?_, ?_⟩
    · convert h1 using 2; ring
    · convert h2 using 2; ring
  · rintro q ⟨_, ⟨u, hu, rfl⟩, rfl⟩
    refine ⟨_, ⟨u, hu, rfl⟩, ?_, ?_⟩
    · convert h1 using 2; ring
    · convert h2 using 2; ring

theorem between_close {a b c d t e : ℝ} (h0 : 0 ≤ t) (h1 : t ≤ 1) (ha : |a - c| ≤ e) (hb : |b - d| ≤ e) (x : ℝ) :
    |a + t * (b - a) + x - (c + t * (d - c) + x)| ≤ e := by
  rw [abs_le] at *
  constructor <;> nlinarith

theorem near_line {s e s' e' d : RPt} {S : Set RPt} (hs : Close s (shift s' d)) (he : Close e (shift e' d)) :
    Near (swept (straight s e) S) (moved d (swept (straight s' e') S)) := by
  obtain ⟨hs1, hs2⟩ := hs
  obtain ⟨he1, he2⟩ := he
  simp only [shift] at *
  constructor
  · rintro q ⟨_, ⟨t, h0, h1, rfl⟩, u, hu, rfl⟩
    refine ⟨_, ⟨_, ⟨_, ⟨t, h0, h1, rfl⟩, u, hu, rfl⟩, rfl⟩, ?_, ?_⟩
    · convert between_close h0 h1 hs1 he1 u.1 using 2; simp only; ring
    · convert between_close h0 h1 hs2 he2 u.2 using 2; simp only; ring
  · rintro q ⟨_, ⟨_, ⟨t, h0, h1, rfl⟩, u, hu, rfl⟩, rfl⟩
    refine ⟨_, ⟨_, ⟨t, h0, h1, rfl⟩, u, hu, rfl⟩, ?_, ?_⟩
    · convert between_close h0 h1 hs1 he1 u.1 using 2; simp only; ring
    · convert between_close h0 h1 hs2 he2 u.2 using 2; simp only; ring

theorem Hole.ext' {h h' : Hole} (h1 : h.diameter = h'.diameter) (h2 : h.width = h'.width) (h3 : h.height = h'.height) :
    h = h' := by cases h; cases h'; simp_all

theorem Shape.alike {a b : Drawn} {d : RPt} (h : a.shape.equivalent b.shape d = .ok true) (hab : Agree a b) :
    a.shape.Alike d b.shape := by
  obtain ⟨da, a⟩ := a
  obtain ⟨db, b⟩ := b
  obtain ⟨-, hab⟩ := hab
  simp only at h hab ⊢
  cases a with
  | line s e w =>
    cases b <;> simp only [Shape.equivalent, lineEquiv, Except.ok.injEq, Bool.and_eq_true, C69_nearly,
      Bool.false_eq_true] at h
    obtain rfl := hab
    exact near_line h.1 h.2
  | circle p dia ho =>
    cases b <;> simp only [Shape.equivalent, Except.ok.injEq, Bool.false_eq_true] at h
    split_ifs at h with hc
    · simp at h
    · push Not at hc
      obtain ⟨rfl, h2⟩ := hc
      obtain rfl := Hole.ext' h2 hab.1 hab.2
      exact near_of_close ((C69_nearly _ _).1 (Except.ok.inj h))
  | rectangle p w v rot ho =>
    cases b <;> simp only [Shape.equivalent, Except.ok.injEq, Bool.false_eq_true] at h
    split_ifs at h with hc
    · simp at h
    · push Not at hc
      obtain ⟨rfl, rfl, rfl, h2⟩ := hc
      obtain rfl := Hole.ext' h2 hab.1 hab.2
      exact near_of_close ((C69_nearly _ _).1 (Except.ok.inj h))
  | polygon p n r rot ho =>
    cases b <;> simp only [Shape.equivalent, Except.ok.injEq, Bool.false_eq_true] at h
    split_ifs at h with hc
    · simp at h
    · push Not at hc
      obtain ⟨rfl, rfl⟩ := hc
      obtain ⟨rfl, rfl⟩ := hab
      exact near_of_close ((C69_nearly _ _).1 (Except.ok.inj h))
  | outline ls =>
    cases b with
    | outline ls' =>
      simp only [Shape.equivalent] at h
      split_ifs at h with hc
      · simp at h
      · rw [allEquiv_true (not_not.1 hc)] at h
        refine ⟨ls', rfl, h.imp fun l m hlm => ?_⟩
        simp only [lineEquiv, Except.ok.injEq, Bool.and_eq_true, C69_nearly] at hlm
        exact hlm
    | _ => simp [Shape.equivalent] at h
  | other c bx => simp [Shape.equivalent] at h

/-- **C69 for groups that agree in what is not compared**: if groups are taken for the same, they look the same. -/
theorem C69_alike_partial {g h : List Drawn} {d : RPt} (he : equivalent g h d = .ok true)
    (hag : ∀ p ∈ g.zip h, Agree p.1 p.2) : Alike d g h := by
  unfold equivalent at he
  split_ifs at he with hl
  · simp at he
  · rw [allEquiv_true (not_not.1 hl)] at he
    rw [Alike, List.forall₂_iff_zip] at *
    refine ⟨not_not.1 hl, fun {a b} hab => ?_⟩
    have := hag _ hab
    exact ⟨this.1, Shape.alike (he.2 hab) this⟩

/-! ## The hash -/

theorem foldl_min_add (d : ℝ) : ∀ (l : List ℝ) (x : ℝ), (l.map (· + d)).foldl min (x + d) = l.foldl min x + d
  | [], _ => rfl
  | y :: l, x => by simp only [List.map_cons, List.foldl_cons, min_add_add_right, foldl_min_add d l]

theorem foldl_max_add (d : ℝ) : ∀ (l : List ℝ) (x : ℝ), (l.map (· + d)).foldl max (x + d) = l.foldl max x + d
  | [], _ => rfl
  | y :: l, x => by simp only [List.map_cons, List.foldl_cons, max_add_add_right, foldl_max_add d l]

/-- A box moved by `d`. -/
def moveBox (d : RPt) (b : Box) : Box := ((b.1.1 + d.1, b.1.2 + d.1), (b.2.1 + d.2, b.2.2 + d.2))

theorem lineBox_moved (s e : RPt) (w : ℝ) (d : RPt) : lineBox (shift s d) (shift e d) w = moveBox d (lineBox s e w) := by
  simp only [lineBox, shift, moveBox, min_add_add_right, max_add_add_right]
  refine Prod.ext (Prod.ext ?_ ?_) (Prod.ext ?_ ?_) <;> simp only <;> ring

theorem around_moved (p : RPt) (w h : ℝ) (d : RPt) : around (shift p d) w h = moveBox d (around p w h) := by
  simp only [around, shift, moveBox]
  refine Prod.ext (Prod.ext ?_ ?_) (Prod.ext ?_ ?_) <;> simp only <;> ring

theorem unionBox_moved (d : RPt) : ∀ l : List Box, unionBox (l.map (moveBox d)) = (unionBox l).map (moveBox d)
  | [] => rfl
  | b :: l => by
    have h1 : ∀ f : Box → ℝ, ∀ x : ℝ, (∀ c, f (moveBox d c) = f c + x) →
        (l.map (moveBox d)).map f = (l.map f).map (· + x) := by
      intro f x hf
      simp only [List.map_map]
      exact List.map_congr_left fun c _ => hf c
    simp only [List.map_cons, unionBox, Option.map_some, h1 (·.1.1) d.1 (fun _ => rfl), h1 (·.1.2) d.1 (fun _ => rfl),
      h1 (·.2.1) d.2 (fun _ => rfl), h1 (·.2.2) d.2 (fun _ => rfl), moveBox, foldl_min_add, foldl_max_add]

theorem Shape.box_moved (a : Shape) (d : RPt) : (a.move d).box = a.box.map (moveBox d) := by
  cases a with
  | outline ls =>
    have : (ls.map fun l => (shift l.1 d, shift l.2 d)).map (fun l => lineBox l.1 l.2 0) =
        (ls.map fun l => lineBox l.1 l.2 0).map (moveBox d) := by
      simp only [List.map_map]
      exact List.map_congr_left fun l _ => lineBox_moved _ _ _ _
    simp only [Shape.move, Shape.box, this, unionBox_moved]
    cases unionBox (ls.map fun l => lineBox l.1 l.2 0) <;> rfl
  | line s e w => simp only [Shape.move, Shape.box, lineBox_moved]; rfl
  | circle p r h => simp only [Shape.move, Shape.box, around_moved]; rfl
  | rectangle p w v rot h => simp only [Shape.move, Shape.box, around_moved]; rfl
  | polygon p n r rot h => simp only [Shape.move, Shape.box, around_moved]; rfl
  | other c b => rfl

theorem partHash_moved (two : ℝ → Str) (a : Shape) (d : RPt) : partHash two (a.move d) = partHash two a := by
  unfold partHash
  rw [Shape.box_moved]
  cases hb : a.box with
  | error x => rfl
  | ok b =>
    simp only [Except.map, bind, Except.bind, moveBox, add_sub_add_right_eq_sub]
    cases a <;> simp [Shape.move, Shape.letter]

/-- **C69**: the hash of a group, and so the name of its macro, does not depend on where it is flashed. -/
theorem C69_hash_place (two : ℝ → Str) (g : List Drawn) (d : RPt) : hashOf two (moveTo d g) = hashOf two g := by
  have key : ∀ (g : List Drawn) (hash : Str), hashFrom two hash (moveTo d g) = hashFrom two hash g := by
    intro g
    induction g with
    | nil => exact fun _ => rfl
    | cons a g ih =>
      intro hash
      have : moveTo d (a :: g) = { a with shape := a.shape.move d } :: moveTo d g := rfl
      rw [this]
      simp only [hashFrom, partHash_moved, ih]
  exact key g _

theorem hashFrom_prefix (two : ℝ → Str) : ∀ (g : List Drawn) (hash r : Str), hashFrom two hash g = .ok r → hash <+: r
  | [], hash, r, h => by
    obtain rfl := Except.ok.inj h
    exact List.prefix_refl _
  | a :: g, hash, r, h => by
    simp only [hashFrom, bind, Except.bind] at h
    cases hp : partHash two a.shape with
    | error x => simp [hp] at h
    | ok p =>
      simp only [hp] at h
      split_ifs at h
      · obtain rfl := Except.ok.inj h
        exact List.prefix_append _ _
      · exact (List.prefix_append _ _).trans (hashFrom_prefix two g _ r h)

/-- **C69**: names of macros begin with the letter X, so that none is the name of a standard aperture. -/
theorem C69_name (two : ℝ → Str) (g : List Drawn) (r : Str) (h : hashOf two g = .ok r) : r.head? = some 'X' := by
  obtain ⟨t, rfl⟩ := hashFrom_prefix two g _ r h
  rfl

/-- Outlines with at least one line, as the constructor demands. -/
def Shape.Formed : Shape → Prop
  | .outline ls => ls ≠ []
  | _ => True

/-- **C69**: every group has a hash. -/
theorem C69_hash_total (two : ℝ → Str) (g : List Drawn) (hg : ∀ a ∈ g, a.shape.Formed) :
    ∃ r, hashOf two g = .ok r := by
  have key : ∀ (g : List Drawn) (hash : Str), (∀ a ∈ g, a.shape.Formed) → ∃ r, hashFrom two hash g = .ok r := by
    intro g
    induction g with
    | nil => exact fun _ _ => ⟨_, rfl⟩
    | cons a g ih =>
      intro hash h
      have hb : ∃ b, a.shape.box = .ok b := by
        have := h a (by simp)
        cases hs : a.shape with
        | outline ls =>
          rw [hs] at this
          cases ls with
          | nil => exact absurd rfl this
          | cons l ls => exact ⟨_, rfl⟩
        | _ => exact ⟨_, rfl⟩
      obtain ⟨b, hb⟩ := hb
      simp only [hashFrom, partHash, hb, bind, Except.bind]
      split_ifs
      · exact ⟨_, rfl⟩
      · exact ih _ fun a ha => h a (by simp [ha])
  exact key g _ hg

/-! ## Violations -/

/-- Two groups that get one macro: the same hash, and taken for the same. -/
def Merged (two : ℝ → Str) (g h : List Drawn) : Prop :=
  hashOf two g = hashOf two h ∧ equivalent g h (0, 0) = .ok true

/-- **C69 violated**: a part that is drawn and one that is cleared are taken for the same. -/
theorem C69_polarity_violated (two : ℝ → Str) (a : Shape) (ha : a.Comparable) :
    Merged two [⟨true, a⟩] [⟨false, a⟩] ∧ ¬ Alike (0, 0) [⟨true, a⟩] [⟨false, a⟩] := by
  refine ⟨⟨rfl, ?_⟩, ?_⟩
  · have := a.equivalent_self ha
    simp [equivalent, allEquiv, this, bind, Except.bind]
  · intro h
    cases h with
    | cons h _ => exact absurd h.1 (by simp)

/-- **C69 violated**: polygons are taken for the same however they are turned. -/
theorem C69_rotation_violated (two : ℝ → Str) (dark : Bool) (p : RPt) (n : ℤ) (r rot rot' : ℝ) (h : Hole) :
    Merged two [⟨dark, .polygon p n r rot h⟩] [⟨dark, .polygon p n r rot' h⟩] := by
  refine ⟨rfl, ?_⟩
  have hs : shift p (0, 0) = p := by simp [shift]
  simp [equivalent, allEquiv, Shape.equivalent, hs, nearlyEqual_self, bind, Except.bind]

theorem regular_four {u : RPt} (hu : u ∈ regular 4 1) : u.1 - u.2 ≤ 1 := by
  have hc : Convex ℝ {u : RPt | u.1 - u.2 ≤ 1} := by
    intro x hx y hy a b ha hb hab
    simp only [Set.mem_ofPred_eq, Prod.fst_add, Prod.snd_add, Prod.smul_fst, Prod.smul_snd, smul_eq_mul] at *
    nlinarith
  refine convexHull_min ?_ hc hu
  rintro q ⟨i, hi, rfl⟩
  simp only [Set.mem_ofPred_eq, one_mul]
  have h : ∀ x : ℝ, 2 * Real.pi * x / ((4 : ℕ) : ℝ) = x * (Real.pi / 2) := fun x => by push_cast; ring
  rw [h]
  interval_cases i
  · simp
  · simp
  · have : ((2 : ℕ) : ℝ) * (Real.pi / 2) = Real.pi := by push_cast; ring
    rw [this]; simp
  · have : ((3 : ℕ) : ℝ) * (Real.pi / 2) = Real.pi / 2 + Real.pi := by push_cast; ring
    rw [this, Real.cos_add_pi, Real.sin_add_pi]; simp

/-- A square on a corner and a square on a side. -/
theorem C69_squares_violated : ¬ Alike (0, 0) [⟨true, .polygon (0, 0) 4 1 0 {}⟩] [⟨true, .polygon (0, 0) 4 1 45 {}⟩] := by
  intro hal
  cases hal with
  | cons h _ =>
    have hn : Near _ _ := h.2
    have hhole : Hole.area {} = ∅ := by simp [Hole.area]
    have hmem : ((1, 0) : RPt) ∈ Shape.area (.polygon (0, 0) 4 1 0 {}) := by
      refine ⟨(1, 0), ?_, ?_⟩
      · rw [hhole, Set.sdiff_empty]
        exact subset_convexHull ℝ _ ⟨0, by decide, by simp⟩
      · simp [radians]
    obtain ⟨q, ⟨q', ⟨u, hu, rfl⟩, rfl⟩, hc, -⟩ := hn.1 _ hmem
    rw [hhole, Set.sdiff_empty] at hu
    have hu4 := regular_four hu
    have hr : radians 45 = Real.pi / 4 := by unfold radians; ring
    simp only [hr, Real.cos_pi_div_four, Real.sin_pi_div_four, tol, abs_le] at hc
    have h2 : Real.sqrt 2 / 2 < 3 / 4 := by
      have : Real.sqrt 2 < 3 / 2 := by
        rw [Real.sqrt_lt' (by norm_num)]; norm_num
      linarith
    have hpos : 0 ≤ Real.sqrt 2 / 2 := by positivity
    nlinarith [hc.1, hc.2]

/-- **C69 violated**: holes with corners are not compared. -/
theorem C69_hole_violated (two : ℝ → Str) (dark : Bool) (p : RPt) (d : ℝ) (h h' : Hole)
    (hd : h.diameter = h'.diameter) : Merged two [⟨dark, .circle p d h⟩] [⟨dark, .circle p d h'⟩] := by
  refine ⟨rfl, ?_⟩
  have hs : shift p (0, 0) = p := by simp [shift]
  simp [equivalent, allEquiv, Shape.equivalent, hs, nearlyEqual_self, bind, Except.bind, hd]

/-- A disc and a disc with a square hole. -/
theorem C69_square_hole_violated :
    ¬ Alike (0, 0) [⟨true, .circle (0, 0) 2 {}⟩] [⟨true, .circle (0, 0) 2 { width := 1, height := 1 }⟩] := by
  intro hal
  cases hal with
  | cons h _ =>
    have hn : Near _ _ := h.2
    have hmem : ((0, 0) : RPt) ∈ Shape.area (.circle (0, 0) 2 {}) :=
      ⟨(0, 0), ⟨by simp [disc], by simp [Hole.area]⟩, by simp⟩
    obtain ⟨q, ⟨q', ⟨u, ⟨-, hu⟩, rfl⟩, rfl⟩, h1, h2⟩ := hn.1 _ hmem
    apply hu
    simp only [Hole.area, lt_irrefl, if_false, zero_lt_one, and_self, if_true, slab, Set.mem_ofPred_eq]
    simp only [radians, zero_div, zero_mul, Real.cos_zero, Real.sin_zero, tol, abs_le] at *
    exact ⟨⟨by linarith [h1.2], by linarith [h1.1]⟩, ⟨by linarith [h2.2], by linarith [h2.1]⟩⟩

/-- **C69 violated**: being taken for the same does not carry over: of three circles the first is taken for the second
and the second for the third, but not the first for the third. -/
theorem C69_chain_violated : ∃ a b c : List Drawn, equivalent a b (0, 0) = .ok true ∧
    equivalent b c (0, 0) = .ok true ∧ equivalent a c (0, 0) = .ok false := by
  refine ⟨[⟨true, .circle (0, 0) 1 {}⟩], [⟨true, .circle (tol, 0) 1 {}⟩], [⟨true, .circle (2 * tol, 0) 1 {}⟩], ?_, ?_, ?_⟩
  · have : nearlyEqual (0, 0) (shift (tol, 0) (0, 0)) = true := by
      rw [C69_nearly, Close]; norm_num [shift, tol]
    simp [equivalent, allEquiv, Shape.equivalent, this, bind, Except.bind]
  · have : nearlyEqual (tol, 0) (shift (2 * tol, 0) (0, 0)) = true := by
      rw [C69_nearly, Close]; norm_num [shift, tol, abs_le]
    simp [equivalent, allEquiv, Shape.equivalent, this, bind, Except.bind]
  · have : nearlyEqual (0, 0) (shift (2 * tol, 0) (0, 0)) = false := by
      rw [Bool.eq_false_iff, Ne, C69_nearly, Close]; norm_num [shift, tol]
    simp [equivalent, allEquiv, Shape.equivalent, this, bind, Except.bind]

/-- **C69 violated**: macros that are not taken for the same can have one name: here circles at different places in
their groups. -/
theorem C69_names_violated (two : ℝ → Str) : ∃ g h : List Drawn, hashOf two g = hashOf two h ∧
    equivalent g h (0, 0) = .ok false := by
  refine ⟨[⟨true, .circle (0, 0) 1 {}⟩], [⟨true, .circle (1, 0) 1 {}⟩], ?_, ?_⟩
  · have := C69_hash_place two [⟨true, .circle (0, 0) 1 {}⟩] (1, 0)
    simpa [moveTo, Shape.move, shift] using this.symm
  · have : nearlyEqual (0, 0) (shift (1, 0) (0, 0)) = false := by
      rw [Bool.eq_false_iff, Ne, C69_nearly, Close]; norm_num [shift, tol]
    simp [equivalent, allEquiv, Shape.equivalent, this, bind, Except.bind]

/-! ## Examples -/

/-- A ring of a circle and a square, and the same a little displaced. -/
example : Alike (3, 0) [⟨true, .circle (3, 1) 2 { diameter := 1 }⟩, ⟨false, .rectangle (3, 0) 1 1 0 {}⟩]
    [⟨true, .circle (tol, 1) 2 { diameter := 1 }⟩, ⟨false, .rectangle (0, 0) 1 1 0 {}⟩] := by
  refine C69_alike_partial ?_ ?_
  · have h1 : nearlyEqual (3, 1) (shift (tol, 1) (3, 0)) = true := by
      rw [C69_nearly, Close]; norm_num [shift, tol]
    have h2 : nearlyEqual (3, 0) (shift (0, 0) (3, 0)) = true := by
      rw [C69_nearly, Close]; norm_num [shift, tol]
    simp [equivalent, allEquiv, Shape.equivalent, h1, h2, bind, Except.bind]
  · simp [Agree]

example : equivalent (moveTo (5, 1) [⟨true, .outline [((0, 0), (1, 0)), ((1, 0), (0, 0))]⟩])
    (moveTo (-1, 2) [⟨true, .outline [((0, 0), (1, 0)), ((1, 0), (0, 0))]⟩]) (5 - -1, 1 - 2) = .ok true :=
  C69_again _ (by intro a ha; rw [List.mem_singleton] at ha; subst ha; trivial) _ _

example (two : ℝ → Str) : ∃ r, hashOf two [⟨true, .outline [((0, 0), (1, 0)), ((1, 0), (0, 0))]⟩,
    ⟨false, .rectangle (0, 0) 1 1 0 {}⟩] = .ok r :=
  C69_hash_total two _ (by
    intro a ha
    simp only [List.mem_cons, List.not_mem_nil, or_false] at ha
    rcases ha with rfl | rfl <;> simp [Shape.Formed])

end Verif.Equiv
