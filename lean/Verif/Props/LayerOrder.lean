import Verif.Model.LayerOrder
import Verif.Props.Layers
import Verif.Lemmas.Excellon

/-! # Comparing and sorting layers (C80) -/

namespace Verif.Layers

open Verif.Py

/-! ## Comparisons -/

/-- **C80.** Of two layers with an order, exactly one is below the other or they are equal; the other comparisons
follow from these. -/
theorem C80_compare {a b : Layer} (ha : a.order.isSome) (hb : b.order.isSome) (same : Bool) :
    ((a.lt b = .ok true ∧ a.eq same b = .ok false ∧ a.gt b = .ok false) ∨
      (a.lt b = .ok false ∧ a.eq same b = .ok true ∧ a.gt b = .ok false) ∨
      (a.lt b = .ok false ∧ a.eq same b = .ok false ∧ a.gt b = .ok true)) ∧
    (a.atMost b = .ok true ↔ a.lt b = .ok true ∨ a.eq same b = .ok true) ∧
    (a.ge b = .ok true ↔ a.gt b = .ok true ∨ a.eq same b = .ok true) ∧
    (a.ne same b = .ok true ↔ a.eq same b = .ok false) ∧
    a.gt b = b.lt a ∧ a.ge b = b.atMost a ∧ a.eq same b = b.eq same a := by
  obtain ⟨x, hx⟩ := Option.isSome_iff_exists.mp ha
  obtain ⟨y, hy⟩ := Option.isSome_iff_exists.mp hb
  simp only [Layer.lt, Layer.eq, Layer.gt, Layer.ge, Layer.atMost, Layer.ne, Layer.compare, hx, hy, reduceCtorEq, false_and,
    if_false, Except.ok.injEq, decide_eq_true_eq, decide_eq_false_iff_not]
  refine ⟨by omega, by omega, by omega, by simp, trivial, trivial, ?_⟩
  simp only [eq_comm]

/-- **C80.** The comparison is transitive. -/
theorem C80_transitive {a b c : Layer} (h1 : a.lt b = .ok true) (h2 : b.lt c = .ok true) : a.lt c = .ok true := by
  unfold Layer.lt at *
  cases ha : a.order <;> cases hb : b.order <;> cases hc : c.order <;> simp_all
  omega

/-- **C80.** Equal layers compare alike. -/
theorem C80_congruent {a b c : Layer} {same : Bool} (hb : b.order.isSome) (h1 : a.eq same b = .ok true) :
    a.lt c = b.lt c ∧ c.lt a = c.lt b := by
  unfold Layer.lt Layer.eq Layer.compare at *
  cases ha : a.order <;> cases hb : b.order <;> cases hc : c.order <;> simp_all

/-- **C80.** A layer with an order can not be compared with one without, not even for equality; layers without order
are equal if they are the same object, and can not be compared otherwise. -/
theorem C80_type_error {a b : Layer} (h : a.order = none ∨ b.order = none) (same : Bool) :
    a.lt b = .error .typeError ∧ a.gt b = .error .typeError ∧ a.atMost b = .error .typeError ∧ a.ge b = .error .typeError ∧
    ((a.order.isSome ∨ b.order.isSome) → a.eq same b = .error .typeError ∧ a.ne same b = .error .typeError) ∧
    (a.order = none → b.order = none → a.eq same b = .ok same ∧ a.ne same b = .ok !same) := by
  unfold Layer.lt Layer.gt Layer.atMost Layer.ge Layer.eq Layer.ne Layer.compare
  cases ha : a.order <;> cases hb : b.order <;> simp_all

example : (Layer.internal "a".toList 1).lt (.internal "b".toList 2) = .ok true ∧
    (Layer.internal "b".toList 2).lt (.internal "c".toList 5) = .ok true ∧
    (Layer.internal "b".toList 2).eq false (.internal "d".toList 2) = .ok true ∧
    (Layer.internal "b".toList 2).lt (.plain "d".toList "top") = .error .typeError := by decide

/-! ## Python's sort -/

section Sorting

variable {α κ : Type} [LinearOrder κ] {lt : α → α → PyR Bool} {key : α → κ}

/-- Bisection finds the place after all that are not above `x`. -/
theorem search_spec {x : α} {l : List α} (hlt : ∀ y ∈ l, lt x y = .ok (decide (key x < key y)))
    (hs : l.Pairwise fun a b => key a ≤ key b) : ∀ (m lo hi : ℕ), hi - lo = m → lo ≤ hi → hi ≤ l.length →
      (∀ i (h : i < l.length), i < lo → key l[i] ≤ key x) → (∀ i (h : i < l.length), hi ≤ i → key x < key l[i]) →
      ∃ k, search lt x l lo hi = .ok k ∧ k ≤ l.length ∧ (∀ i (h : i < l.length), i < k → key l[i] ≤ key x) ∧
        ∀ i (h : i < l.length), k ≤ i → key x < key l[i] := by
  intro m
  induction m using Nat.strong_induction_on with
  | _ m ih =>
    intro lo hi hm hle hlen h1 h2
    rw [List.pairwise_iff_getElem] at hs
    unfold search
    by_cases hlh : lo < hi
    · rw [if_pos hlh]
      have hp : lo + (hi - lo) / 2 < l.length := by omega
      rw [List.getElem?_eq_getElem hp]
      simp only [hlt _ (List.getElem_mem hp), bind, Except.bind, decide_eq_true_eq]
      split
      · rename_i hxy
        refine ih _ ?_ lo _ rfl (by omega) (by omega) h1 fun i hi' hpi => ?_
        · omega
        · rcases eq_or_lt_of_le hpi with rfl | hpi
          · exact hxy
          · exact lt_of_lt_of_le hxy (hs _ i hp hi' hpi)
      · rename_i hxy
        refine ih _ ?_ _ hi rfl (by omega) hlen (fun i hi' hpi => ?_) h2
        · omega
        · rcases eq_or_lt_of_le (Nat.lt_succ_iff.mp hpi) with rfl | hpi
          · exact not_lt.mp hxy
          · exact le_trans (hs i _ hi' hp hpi) (not_lt.mp hxy)
    · rw [if_neg hlh]
      obtain rfl : lo = hi := by omega
      exact ⟨lo, rfl, hlen, h1, h2⟩

/-- The list is sorted and, for every key, the elements are those of `l`, in order. -/
def Sorts (key : α → κ) (r l : List α) : Prop :=
  r.Pairwise (fun a b => key a ≤ key b) ∧ ∀ k, r.filter (fun x => key x = k) = l.filter (fun x => key x = k)

theorem Sorts.mem {r l : List α} (h : Sorts key r l) {x : α} (hx : x ∈ r) : x ∈ l := by
  have : x ∈ r.filter (fun y => key y = key x) := List.mem_filter.2 ⟨hx, by simp⟩
  rw [h.2] at this
  exact (List.mem_filter.1 this).1

theorem Sorts.insert {r l : List α} (h : Sorts key r l) {x : α} {k : ℕ}
    (h1 : ∀ i (h : i < r.length), i < k → key r[i] ≤ key x) (h2 : ∀ i (h : i < r.length), k ≤ i → key x < key r[i])
    (hk : k ≤ r.length) : Sorts key (r.insertIdx k x) (l ++ [x]) := by
  have e : r.insertIdx k x = r.take k ++ x :: r.drop k := by
    clear h h1 h2
    induction r generalizing k with
    | nil => obtain rfl := Nat.le_zero.mp hk; rfl
    | cons a r ih =>
      cases k with
      | zero => rfl
      | succ k => simp [List.insertIdx_succ_cons, ih (by simpa using hk)]
  have t : ∀ a ∈ r.take k, key a ≤ key x := by
    intro a ha
    obtain ⟨i, hi, rfl⟩ := List.getElem_of_mem ha
    rw [List.length_take] at hi
    rw [List.getElem_take]
    exact h1 i (by omega) (by omega)
  have d : ∀ a ∈ r.drop k, key x < key a := by
    intro a ha
    obtain ⟨i, hi, rfl⟩ := List.getElem_of_mem ha
    rw [List.length_drop] at hi
    rw [List.getElem_drop]
    exact h2 _ (by omega) (by omega)
  rw [e]
  constructor
  · rw [List.pairwise_append, List.pairwise_cons]
    refine ⟨h.1.sublist (List.take_sublist _ _), ⟨fun a ha => (d a ha).le, h.1.sublist (List.drop_sublist _ _)⟩, ?_⟩
    intro a ha b hb
    rcases List.mem_cons.mp hb with rfl | hb
    · exact t a ha
    · exact (t a ha).trans (d b hb).le
  · intro q
    have hq := h.2 q
    rw [← List.take_append_drop k r, List.filter_append] at hq
    rw [List.filter_append, List.filter_append, ← hq, List.filter_cons]
    by_cases hx : key x = q
    · have : (r.drop k).filter (fun y => key y = q) = [] := by
        rw [List.filter_eq_nil_iff]
        intro a ha
        have := d a ha
        rw [hx] at this
        simpa using this.ne'
      simp [this, hx]
    · simp [hx]

theorem insertAll_spec : ∀ {rest done l : List α},
    (∀ x ∈ l ++ rest, ∀ y ∈ l ++ rest, lt x y = .ok (decide (key x < key y))) → Sorts key done l →
    ∃ r, insertAll lt done rest = .ok r ∧ Sorts key r (l ++ rest)
  | [], done, l, _, h => ⟨done, rfl, by simpa using h⟩
  | x :: rest, done, l, hlt, h => by
    obtain ⟨k, k1, k2, k3, k4⟩ := search_spec (x := x) (l := done) (lt := lt)
      (fun y hy => hlt x (by simp) y (List.mem_append_left _ (h.mem hy))) h.1 _ 0 done.length rfl (Nat.zero_le _) le_rfl
      (by omega) (fun i hi hi' => by omega)
    have hi := h.insert k3 k4 k2
    have e : l ++ x :: rest = (l ++ [x]) ++ rest := by simp
    rw [e] at hlt
    obtain ⟨r, r1, r2⟩ := insertAll_spec hlt hi
    refine ⟨r, ?_, e ▸ r2⟩
    simp only [insertAll, k1, bind, Except.bind, r1]

/-- The run at the beginning: ascending, or strictly descending. -/
theorem runFrom_spec {down : Bool} : ∀ {l : List α} {last : α},
    (∀ x ∈ last :: l, ∀ y ∈ last :: l, lt x y = .ok (decide (key x < key y))) →
    ∃ r t, runFrom lt down last l = .ok (r, t) ∧ l = r ++ t ∧
      (last :: r).IsChain (fun a b => decide (key b < key a) = down)
  | [], _, _ => ⟨[], [], rfl, rfl, .singleton _⟩
  | x :: l, last, hlt => by
    obtain ⟨r, t, h1, h2, h3⟩ := runFrom_spec (down := down) (l := l) (last := x)
      (fun a ha b hb => hlt a (List.mem_cons_of_mem _ ha) b (List.mem_cons_of_mem _ hb))
    have hx := hlt x (by simp) last (by simp)
    by_cases hd : decide (key x < key last) = down
    · refine ⟨x :: r, t, ?_, by rw [h2]; rfl, .cons_cons hd h3⟩
      simp only [runFrom, hx, bind, Except.bind, hd, if_true, h1]
    · refine ⟨[], x :: l, ?_, rfl, .singleton _⟩
      simp only [runFrom, hx, bind, Except.bind, hd, if_false]

/-- Python's sort sorts, and elements with the same key keep their order. -/
theorem pySort_spec {l : List α} (hlt : ∀ x ∈ l, ∀ y ∈ l, lt x y = .ok (decide (key x < key y))) :
    ∃ r, pySort lt l = .ok r ∧ Sorts key r l := by
  match l with
  | [] => exact ⟨[], rfl, .nil, fun _ => rfl⟩
  | [x] => exact ⟨[x], rfl, List.pairwise_singleton _ _, fun _ => rfl⟩
  | x :: y :: rest =>
    have hyx := hlt y (by simp) x (by simp)
    obtain ⟨r, t, h1, h2, h3⟩ := runFrom_spec (lt := lt) (key := key) (down := decide (key y < key x)) (l := rest) (last := y)
      (fun a ha b hb => hlt a (List.mem_cons_of_mem _ ha) b (List.mem_cons_of_mem _ hb))
    have hc : (x :: y :: r).IsChain (fun a b => decide (key b < key a) = decide (key y < key x)) := .cons_cons rfl h3
    have hrun : Sorts key (if decide (key y < key x) then (x :: y :: r).reverse else x :: y :: r) (x :: y :: r) := by
      by_cases hd : key y < key x
      · rw [decide_eq_true hd, if_pos rfl]
        simp only [hd, decide_true, decide_eq_true_eq] at hc
        have hp : (x :: y :: r).Pairwise (fun a b => key b < key a) := by
          have : IsTrans α (fun a b => key b < key a) := ⟨fun _ _ _ h1 h2 => lt_trans h2 h1⟩
          exact List.isChain_iff_pairwise.mp hc
        refine ⟨List.pairwise_reverse.mpr (hp.imp le_of_lt), fun q => ?_⟩
        rw [List.filter_reverse]
        have : ((x :: y :: r).filter (fun z => key z = q)).Pairwise (fun a b => key b < key a) :=
          hp.sublist List.filter_sublist
        have hq : ∀ z ∈ (x :: y :: r).filter (fun z => key z = q), key z = q := fun z hz => by
          simpa using (List.mem_filter.mp hz).2
        generalize (x :: y :: r).filter (fun z => key z = q) = m at this hq
        match m with
        | [] => rfl
        | [_] => rfl
        | a :: b :: m =>
          have h1 := (List.pairwise_cons.mp this).1 b (by simp)
          rw [hq a (by simp), hq b (by simp)] at h1
          exact absurd h1 (lt_irrefl _)
      · rw [decide_eq_false hd]
        simp only [hd, decide_false, decide_eq_false_iff_not, not_lt] at hc
        have : IsTrans α (fun a b => key a ≤ key b) := ⟨fun _ _ _ h1 h2 => le_trans h1 h2⟩
        exact ⟨List.isChain_iff_pairwise.mp hc, fun _ => rfl⟩
    have e : x :: y :: rest = (x :: y :: r) ++ t := by rw [h2]; rfl
    rw [e] at hlt
    obtain ⟨r', k1, k2⟩ := insertAll_spec hlt hrun
    refine ⟨r', ?_, e ▸ k2⟩
    simp only [pySort, hyx, bind, Except.bind, h1, k1]

end Sorting

/-! ## Sorting of internal layers -/

theorem sorts_unique {r r' l : List Layer} {key : Layer → ℤ} (h : Sorts key r l) (h' : Sorts key r' l) : r = r' :=
  eq_of_sorted key r r' h.1 h'.1 fun k => by rw [h.2 k, h'.2 k]

theorem lt_key {a b : Layer} (ha : a.order.isSome) (hb : b.order.isSome) :
    a.lt b = .ok (decide (a.order.getD 0 < b.order.getD 0)) := by
  obtain ⟨x, hx⟩ := Option.isSome_iff_exists.mp ha
  obtain ⟨y, hy⟩ := Option.isSome_iff_exists.mp hb
  simp [Layer.lt, hx, hy]

theorem lt_error {a b : Layer} (h : a.order = none ∨ b.order = none) : a.lt b = .error .typeError :=
  (C80_type_error h true).1

theorem search_error {x : Layer} (hx : x.order = none) {l : List Layer} (hl : l ≠ []) :
    search Layer.lt x l 0 l.length = .error .typeError := by
  have : 0 < l.length := List.length_pos_of_ne_nil hl
  unfold search
  rw [if_pos this, List.getElem?_eq_getElem (by omega)]
  simp only [lt_error (.inl hx), bind, Except.bind]

theorem search_ok {x : Layer} (hx : x.order.isSome) {l : List Layer} (hl : ∀ y ∈ l, y.order.isSome) :
    ∀ (m lo hi : ℕ), hi - lo = m → hi ≤ l.length → ∃ k, search Layer.lt x l lo hi = .ok k := by
  intro m
  induction m using Nat.strong_induction_on with
  | _ m ih =>
    intro lo hi hm hlen
    unfold search
    by_cases hlh : lo < hi
    · have hp : lo + (hi - lo) / 2 < l.length := by omega
      rw [if_pos hlh, List.getElem?_eq_getElem hp]
      simp only [lt_key hx (hl _ (List.getElem_mem hp)), bind, Except.bind]
      split
      · exact ih _ (by omega) _ _ rfl (by omega)
      · exact ih _ (by omega) _ _ rfl hlen
    · rw [if_neg hlh]
      exact ⟨lo, rfl⟩

theorem insertAll_error : ∀ {rest done : List Layer}, done ≠ [] → (∀ y ∈ done, y.order.isSome) →
    (∃ x ∈ rest, x.order = none) → insertAll Layer.lt done rest = .error .typeError
  | [], _, _, _, ⟨x, hx, _⟩ => by cases hx
  | x :: rest, done, h1, h2, ⟨z, hz, hn⟩ => by
    cases hx : x.order with
    | none => simp only [insertAll, search_error hx h1, bind, Except.bind]
    | some o =>
      obtain ⟨k, hk⟩ := search_ok (x := x) (by simp [hx]) h2 _ 0 done.length rfl le_rfl
      simp only [insertAll, hk, bind, Except.bind]
      have hz' : z ∈ rest := by
        rcases List.mem_cons.mp hz with rfl | hz
        · rw [hx] at hn; cases hn
        · exact hz
      refine insertAll_error ?_ (fun y hy => ?_) ⟨z, hz', hn⟩
      · intro he
        have hle := congrArg List.length he
        have hpos := List.length_pos_of_ne_nil h1
        rw [List.length_insertIdx, List.length_nil] at hle
        split at hle <;> omega
      · rcases List.eq_or_mem_of_mem_insertIdx hy with rfl | hy
        · simp [hx]
        · exact h2 y hy

theorem runFrom_error {down : Bool} : ∀ {l : List Layer} {last : Layer}, last.order.isSome →
    runFrom Layer.lt down last l = .error .typeError ∨
      ∃ r t, runFrom Layer.lt down last l = .ok (r, t) ∧ l = r ++ t ∧ ∀ y ∈ r, y.order.isSome
  | [], _, _ => .inr ⟨[], [], rfl, rfl, by simp⟩
  | x :: l, last, hl => by
    cases hx : x.order with
    | none => exact .inl (by simp only [runFrom, lt_error (.inl hx), bind, Except.bind])
    | some o =>
      have hx' : x.order.isSome := by simp [hx]
      simp only [runFrom, lt_key hx' hl, bind, Except.bind]
      split
      · rcases runFrom_error (down := down) (l := l) hx' with h | ⟨r, t, h1, h2, h3⟩
        · exact .inl (by rw [h])
        · refine .inr ⟨x :: r, t, by rw [h1], by rw [h2]; rfl, ?_⟩
          intro y hy
          rcases List.mem_cons.mp hy with rfl | hy
          · exact hx'
          · exact h3 y hy
      · exact .inr ⟨[], x :: l, rfl, rfl, by simp⟩

theorem pySort_error {l : List Layer} (h2 : 2 ≤ l.length) (hn : ∃ x ∈ l, x.order = none) :
    pySort Layer.lt l = .error .typeError := by
  match l, h2 with
  | x :: y :: rest, _ =>
    by_cases hxy : x.order = none ∨ y.order = none
    · simp only [pySort, lt_error hxy.symm, bind, Except.bind]
    · push Not at hxy
      have hx : x.order.isSome := Option.isSome_iff_ne_none.mpr hxy.1
      have hy : y.order.isSome := Option.isSome_iff_ne_none.mpr hxy.2
      simp only [pySort, lt_key hy hx, bind, Except.bind]
      rcases runFrom_error (down := decide (y.order.getD 0 < x.order.getD 0)) (l := rest) hy with h | ⟨r, t, h1, h2, h3⟩
      · rw [h]
      · rw [h1]
        have hall : ∀ z ∈ x :: y :: r, z.order.isSome := by
          intro z hz
          rcases List.mem_cons.mp hz with rfl | hz
          · exact hx
          rcases List.mem_cons.mp hz with rfl | hz
          · exact hy
          · exact h3 z hz
        refine insertAll_error ?_ (fun z hz => ?_) ?_
        · split <;> simp
        · split at hz
          · exact hall z (List.mem_reverse.mp hz)
          · exact hall z hz
        · obtain ⟨z, hz, hn⟩ := hn
          refine ⟨z, ?_, hn⟩
          rw [h2] at hz
          have : z ∈ (x :: y :: r) ++ t := hz
          rcases List.mem_append.mp this with hz | hz
          · have := hall z hz
            rw [hn] at this
            cases this
          · exact hz

/-- **C80.** Python's sort of internal layers with `<` is the one that `sort_layers` is modelled with, exceptions
included. -/
theorem C80_sort (l : List Layer) : pySort Layer.lt l = sortInternal l := by
  unfold sortInternal
  split
  · rename_i h
    match l, h with
    | [], _ => rfl
    | [_], _ => rfl
  · rename_i h
    split
    · rename_i ha
      have ha : ∀ x ∈ l, x.order.isSome := List.all_eq_true.mp ha
      obtain ⟨r, h1, h2⟩ := pySort_spec (lt := Layer.lt) (key := fun x : Layer => x.order.getD 0)
        (fun x hx y hy => lt_key (ha x hx) (ha y hy))
      rw [h1, sorts_unique h2 ⟨List.pairwise_insertionSort Layer.le l, fun k => insertionSort_filter k l⟩]
    · rename_i ha
      refine pySort_error (by omega) ?_
      by_contra hc
      push Not at hc
      exact ha (List.all_eq_true.mpr fun x hx => Option.isSome_iff_ne_none.mpr (hc x hx))

/-- **C80.** The result of sorting: the same layers, none after one that is above it, those of the same order in the
order they had. -/
theorem C80_sorted {l r : List Layer} (h : pySort Layer.lt l = .ok r) : r.Perm l ∧
    r.Pairwise (fun a b => b.lt a ≠ .ok true) ∧
    ∀ a ∈ l, r.filter (fun x => a.eq true x = .ok true) = l.filter (fun x => a.eq true x = .ok true) := by
  rw [C80_sort] at h
  refine ⟨sortInternal_perm h, ?_⟩
  unfold sortInternal at h
  split at h
  · cases h
    rename_i h
    refine ⟨?_, fun _ _ => rfl⟩
    match l, h with
    | [], _ => exact .nil
    | [_], _ => exact List.pairwise_singleton _ _
  split at h
  · rename_i ha
    have ha : ∀ x ∈ l, x.order.isSome := List.all_eq_true.mp ha
    cases h
    have hr : ∀ x ∈ l.insertionSort Layer.le, x.order.isSome := fun x hx =>
      ha x ((List.perm_insertionSort Layer.le l).mem_iff.mp hx)
    constructor
    · refine (List.Pairwise.and_mem.mp (List.pairwise_insertionSort Layer.le l)).imp ?_
      rintro a b ⟨h1, h2, h3⟩
      rw [lt_key (hr b h2) (hr a h1)]
      have h3 : a.order.getD 0 ≤ b.order.getD 0 := h3
      simpa using h3
    · intro a hal
      obtain ⟨o, ho⟩ := Option.isSome_iff_exists.mp (ha a hal)
      have e : ∀ m : List Layer, (∀ x ∈ m, x.order.isSome) → m.filter (fun x => a.eq true x = .ok true) =
          m.filter (fun x => x.order.getD 0 = o) := by
        intro m hm
        apply List.filter_congr
        intro x hx
        obtain ⟨o', ho'⟩ := Option.isSome_iff_exists.mp (hm x hx)
        simp [Layer.eq, Layer.compare, ho, ho', eq_comm]
      rw [e _ hr, e _ ha, insertionSort_filter]
  · cases h

example : pySort Layer.lt [.internal "c".toList 3, .internal "b".toList 2, .internal "a".toList 2, .internal "d".toList 1] =
    .ok [.internal "d".toList 1, .internal "b".toList 2, .internal "a".toList 2, .internal "c".toList 3] := by
  rw [C80_sort]
  decide +kernel

/-- **C80.** Sorting fails exactly if there are at least two layers and one has no order. -/
theorem C80_sort_error (l : List Layer) :
    (∃ e, pySort Layer.lt l = .error e) ↔ 2 ≤ l.length ∧ ∃ x ∈ l, x.order = none := by
  constructor
  · rintro ⟨e, he⟩
    rw [C80_sort] at he
    unfold sortInternal at he
    split at he
    · cases he
    split at he
    · cases he
    · rename_i ha
      refine ⟨by omega, ?_⟩
      by_contra hc
      push Not at hc
      exact ha (List.all_eq_true.mpr fun x hx => Option.isSome_iff_ne_none.mpr (hc x hx))
  · rintro ⟨h1, h2⟩
    exact ⟨_, pySort_error h1 h2⟩

end Verif.Layers
