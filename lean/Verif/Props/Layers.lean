import Verif.Model.Layers
import Mathlib.Data.Prod.Lex

/-!
# C37, C38: sorting the layers of a board, and the views of a board
-/

namespace Verif.Layers

open Verif.Py

/-! ## Specification -/

/-- The board classes from the top of the stack to the bottom. -/
def stack : List String :=
  ["outline", "toppaste", "topsilk", "topmask", "top", "internal",
   "bottom", "bottommask", "bottomsilk", "bottompaste"]

/-- Depth of a layer in the stack. -/
def Layer.depth (l : Layer) : ℕ := stack.idxOf l.cls

/-- `board` is the stack of the board layers among `layers`, from the top. -/
structure IsStack (layers board : List Layer) : Prop where
  /-- every layer of a board class exactly once, and no others -/
  once : board.Perm (layers.filter (·.cls ∈ stack))
  /-- in the order of the classes -/
  byClass : board.Pairwise fun a b => a.depth ≤ b.depth
  /-- internal layers in ascending order -/
  ascending : board.Pairwise fun a b =>
    a.cls = "internal" → b.cls = "internal" → a.order.getD 0 ≤ b.order.getD 0
  /-- the layers of one class keep their relative order -/
  sameOrder : ∀ c ∈ stack, c ≠ "internal" →
    board.filter (·.cls = c) = layers.filter (·.cls = c)
  /-- internal layers of the same order number keep their relative order -/
  sameOrderInternal : ∀ k : ℤ,
    board.filter (fun l => l.cls = "internal" ∧ l.order.getD 0 = k) =
      layers.filter (fun l => l.cls = "internal" ∧ l.order.getD 0 = k)

/-- Layers of class `internal` are `InternalLayer` objects (or there is only one). -/
def Comparable (layers : List Layer) : Prop :=
  (layers.filter (·.cls = "internal")).length ≤ 1 ∨
    ∀ l ∈ layers, l.cls = "internal" → l.order.isSome

/-! ## Lists -/

theorem filter_or_perm {α : Type} (p q : α → Bool) (h : ∀ x, p x → q x → False) (l : List α) :
    (l.filter p ++ l.filter q).Perm (l.filter fun x => p x || q x) := by
  induction l with
  | nil => simp
  | cons a l ih =>
    by_cases hp : p a = true
    · have hq : q a = false := by
        cases hq : q a with
        | false => rfl
        | true => exact (h a hp hq).elim
      simp [hp, hq, ih]
    · have hp : p a = false := by simpa using hp
      by_cases hq : q a = true
      · simp only [List.filter_cons, hp, hq, Bool.false_eq_true, if_false, if_true, Bool.or_true]
        exact List.perm_middle.trans (ih.cons a)
      · have hq : q a = false := by simpa using hq
        simp [hp, hq, ih]

theorem pairwise_of_forall {α : Type} {R : α → α → Prop} {l : List α}
    (h : ∀ a ∈ l, ∀ b ∈ l, R a b) : l.Pairwise R := by
  induction l with
  | nil => exact List.Pairwise.nil
  | cons a l ih =>
    exact List.Pairwise.cons (fun b hb => h a (by simp) b (by simp [hb]))
      (ih fun x hx y hy => h x (by simp [hx]) y (by simp [hy]))

theorem flatMap_filter_perm (layers : List Layer) (cs : List String) (hcs : cs.Nodup) :
    (cs.flatMap fun c => layers.filter (·.cls = c)).Perm (layers.filter (·.cls ∈ cs)) := by
  induction cs with
  | nil => simp
  | cons c cs ih =>
    rw [List.nodup_cons] at hcs
    rw [List.flatMap_cons]
    have := filter_or_perm (fun x : Layer => decide (x.cls = c)) (fun x => decide (x.cls ∈ cs))
      (by
        intro x h1 h2
        have h1 : x.cls = c := by simpa using h1
        have h2 : x.cls ∈ cs := by simpa using h2
        exact hcs.1 (h1 ▸ h2)) layers
    refine ((ih hcs.2).append_left _).trans (this.trans (List.Perm.of_eq ?_))
    apply List.filter_congr
    intro x _
    by_cases h : x.cls = c <;> simp [h]

theorem flatMap_perm {f g : String → List Layer} (cs : List String)
    (h : ∀ c ∈ cs, (f c).Perm (g c)) : (cs.flatMap f).Perm (cs.flatMap g) := by
  induction cs with
  | nil => simp
  | cons c cs ih =>
    rw [List.flatMap_cons, List.flatMap_cons]
    exact (h c (by simp)).append (ih fun d hd => h d (by simp [hd]))

theorem filter_flatMap {f : String → List Layer} (cs : List String) (hcs : cs.Nodup)
    (hf : ∀ c ∈ cs, ∀ x ∈ f c, x.cls = c) (p : Layer → Bool) (c : String) (hc : c ∈ cs)
    (hp : ∀ x, p x → x.cls = c) : (cs.flatMap f).filter p = (f c).filter p := by
  have none : ∀ ds : List String, c ∉ ds → (∀ d ∈ ds, ∀ x ∈ f d, x.cls = d) →
      (ds.flatMap f).filter p = [] := by
    intro ds hd hfd
    rw [List.filter_eq_nil_iff]
    intro x hx hpx
    obtain ⟨d, hd1, hd2⟩ := List.mem_flatMap.1 hx
    have := hfd d hd1 x hd2
    rw [hp x hpx] at this
    exact hd (this ▸ hd1)
  induction cs with
  | nil => cases hc
  | cons d cs ih =>
    rw [List.nodup_cons] at hcs
    rw [List.flatMap_cons, List.filter_append]
    by_cases h : d = c
    · subst h
      rw [none cs hcs.1 fun e he => hf e (by simp [he]), List.append_nil]
    · have hc' : c ∈ cs := by
        rcases List.mem_cons.1 hc with h1 | h1
        · exact (h h1.symm).elim
        · exact h1
      rw [ih hcs.2 (fun e he => hf e (by simp [he])) hc']
      have : (f d).filter p = [] := by
        rw [List.filter_eq_nil_iff]
        intro x hx hpx
        have := hf d (by simp) x hx
        rw [hp x hpx] at this
        exact h this.symm
      rw [this, List.nil_append]

/-! ## Sorting is stable -/

instance : Std.Total Layer.le := ⟨fun a b => le_total (a.order.getD 0) (b.order.getD 0)⟩
instance : IsTrans Layer Layer.le := ⟨fun _ _ _ h1 h2 => le_trans (α := ℤ) h1 h2⟩

theorem orderedInsert_filter (k : ℤ) (a : Layer) (l : List Layer)
    (hl : l.Pairwise Layer.le) :
    (l.orderedInsert Layer.le a).filter (fun x => x.order.getD 0 = k) =
      (a :: l).filter (fun x => x.order.getD 0 = k) := by
  induction l with
  | nil => rfl
  | cons b l ih =>
    rw [List.pairwise_cons] at hl
    rw [List.orderedInsert]
    split
    · rfl
    · rename_i h
      have hlt : b.order.getD 0 < a.order.getD 0 := not_le.1 h
      rw [List.filter_cons, ih hl.2]
      by_cases hb : b.order.getD 0 = k
      · have ha : a.order.getD 0 ≠ k := by omega
        simp [hb, ha]
      · by_cases ha : a.order.getD 0 = k <;> simp [hb, ha]

theorem insertionSort_filter (k : ℤ) (l : List Layer) :
    (l.insertionSort Layer.le).filter (fun x => x.order.getD 0 = k) =
      l.filter (fun x => x.order.getD 0 = k) := by
  induction l with
  | nil => rfl
  | cons a l ih =>
    rw [List.insertionSort, List.foldr_cons]
    have hs : (List.insertionSort Layer.le l).Pairwise Layer.le :=
      List.pairwise_insertionSort _ _
    have := orderedInsert_filter k a _ hs
    rw [List.insertionSort] at this ih
    rw [this, List.filter_cons, List.filter_cons, ih]

theorem sortInternal_spec (layers : List Layer) (h : Comparable layers) :
    ∃ r, sortInternal (layers.filter (·.cls = "internal")) = .ok r ∧
      r.Perm (layers.filter (·.cls = "internal")) ∧ r.Pairwise Layer.le ∧
      ∀ k : ℤ, r.filter (fun x => x.order.getD 0 = k) =
        (layers.filter (·.cls = "internal")).filter (fun x => x.order.getD 0 = k) := by
  unfold sortInternal
  by_cases h1 : (layers.filter (·.cls = "internal")).length ≤ 1
  · rw [if_pos h1]
    refine ⟨_, rfl, List.Perm.refl _, ?_, fun _ => rfl⟩
    generalize layers.filter (·.cls = "internal") = q at h1
    match q with
    | [] => exact List.Pairwise.nil
    | [a] => exact List.pairwise_singleton _ _
    | a :: b :: t => simp at h1
  · rw [if_neg h1]
    have h2 : (layers.filter (·.cls = "internal")).all (·.order.isSome) = true := by
      rcases h with h | h
      · exact (h1 h).elim
      · rw [List.all_eq_true]
        intro x hx
        have hx := List.mem_filter.1 hx
        exact h x hx.1 (by simpa using hx.2)
    rw [if_pos h2]
    exact ⟨_, rfl, List.perm_insertionSort _ _, List.pairwise_insertionSort _ _,
      fun k => insertionSort_filter k _⟩

/-! ## C37 -/

theorem stack_nodup : stack.Nodup := by decide

theorem idxOf_pairwise (cs : List String) (hcs : cs.Nodup) :
    cs.Pairwise fun a b => cs.idxOf a ≤ cs.idxOf b := by
  rw [List.pairwise_iff_getElem]
  intro i j hi hj hij
  rw [hcs.idxOf_getElem, hcs.idxOf_getElem]
  exact hij.le

/-- **C37** `sort_layers` returns the stack of the board layers (or its reverse) followed by the
drill layers and the drawings in their given order. -/
theorem C37_sort_layers_partial (layers : List Layer) (h : Comparable layers) (fromTop : Bool) :
    ∃ board, IsStack layers board ∧
      sortLayers layers fromTop = .ok ((if fromTop then board else board.reverse) ++
        layers.filter (·.cls = "drill") ++ layers.filter (·.cls = "drawing")) := by
  obtain ⟨r, hr, hperm, hsort, hstable⟩ := sortInternal_spec layers h
  have hcls : ∀ c ∈ stack, ∀ x ∈ classLayers layers r c, x.cls = c := by
    intro c hc x hx
    unfold classLayers at hx
    split at hx
    · rename_i h1
      have := List.mem_filter.1 (hperm.mem_iff.1 hx)
      rw [h1]; simpa using this.2
    · split at hx
      · rename_i h1
        rw [h1]; simpa using (List.mem_filter.1 hx).2
      · simpa using (List.mem_filter.1 hx).2
  refine ⟨stack.flatMap (classLayers layers r), ⟨?_, ?_, ?_, ?_, ?_⟩, ?_⟩
  · refine (flatMap_perm stack (g := fun c => layers.filter (·.cls = c)) ?_).trans
      (flatMap_filter_perm layers stack stack_nodup)
    intro c _
    unfold classLayers
    split
    · rename_i h1; subst h1; exact hperm
    · split
      · rename_i h1; rw [h1]
      · exact List.Perm.refl _
  · rw [List.pairwise_flatMap]
    constructor
    · intro c hc
      refine pairwise_of_forall ?_
      intro a ha b hb
      unfold Layer.depth
      rw [hcls c hc a ha, hcls c hc b hb]
    · refine (idxOf_pairwise stack stack_nodup).imp_of_mem ?_
      intro c d hc hd hcd x hx y hy
      unfold Layer.depth
      rw [hcls c hc x hx, hcls d hd y hy]
      exact hcd
  · rw [List.pairwise_flatMap]
    constructor
    · intro c hc
      by_cases h1 : c = "internal"
      · unfold classLayers
        rw [if_pos h1]
        exact hsort.imp fun h _ _ => h
      · refine pairwise_of_forall ?_
        intro a ha b hb h2
        exact (h1 ((hcls c hc a ha).symm.trans h2)).elim
    · refine stack_nodup.imp_of_mem ?_
      intro c d hc hd hcd x hx y hy h1 h2
      exact (hcd ((hcls c hc x hx).symm.trans (h1.trans (h2.symm.trans (hcls d hd y hy))))).elim
  · intro c hc h1
    rw [filter_flatMap stack stack_nodup hcls _ c hc (fun x hx => by simpa using hx)]
    unfold classLayers
    rw [if_neg h1]
    split
    · rename_i h2; rw [h2, List.filter_filter]; simp
    · rw [List.filter_filter]; simp
  · intro k
    rw [filter_flatMap stack stack_nodup hcls _ "internal" (by decide)
      (fun x hx => by simp at hx; exact hx.1)]
    unfold classLayers
    rw [if_pos rfl]
    have e1 : r.filter (fun l => l.cls = "internal" ∧ l.order.getD 0 = k) =
        r.filter (fun x => x.order.getD 0 = k) := by
      apply List.filter_congr
      intro x hx
      have := (List.mem_filter.1 (hperm.mem_iff.1 hx)).2
      have : x.cls = "internal" := by simpa using this
      simp [this]
    rw [e1, hstable k, List.filter_filter]
    apply List.filter_congr
    intro x _
    by_cases hx : x.cls = "internal" <;> simp [hx]
  · unfold sortLayers
    simp only [hr, bind, Except.bind]
    have : appendAfter.flatMap (fun c => layers.filter (·.cls = c)) =
        layers.filter (·.cls = "drill") ++ layers.filter (·.cls = "drawing") := by
      simp [appendAfter]
    rw [this, ← List.append_assoc]
    rfl

/-- Two lists sorted by a key that agree on the elements of each key are equal. -/
theorem eq_of_sorted {α κ : Type} [LinearOrder κ] (key : α → κ) :
    ∀ l1 l2 : List α, l1.Pairwise (fun a b => key a ≤ key b) →
      l2.Pairwise (fun a b => key a ≤ key b) →
      (∀ k, l1.filter (fun x => key x = k) = l2.filter (fun x => key x = k)) → l1 = l2 := by
  have mem : ∀ l1 l2 : List α,
      (∀ k, l1.filter (fun x => key x = k) = l2.filter (fun x => key x = k)) →
      ∀ x ∈ l1, x ∈ l2 := by
    intro l1 l2 h x hx
    have : x ∈ l1.filter (fun y => key y = key x) := List.mem_filter.2 ⟨hx, by simp⟩
    rw [h] at this
    exact (List.mem_filter.1 this).1
  intro l1
  induction l1 with
  | nil =>
    intro l2 _ _ h
    cases l2 with
    | nil => rfl
    | cons b l2 =>
      have := mem (b :: l2) [] (fun k => (h k).symm) b (by simp)
      cases this
  | cons a l1 ih =>
    intro l2 h1 h2 h
    cases l2 with
    | nil =>
      have := mem (a :: l1) [] h a (by simp)
      cases this
    | cons b l2 =>
      rw [List.pairwise_cons] at h1 h2
      have hb : key b ≤ key a := by
        rcases List.mem_cons.1 (mem _ _ h a (by simp)) with h3 | h3
        · rw [h3]
        · exact h2.1 a h3
      have ha : key a ≤ key b := by
        rcases List.mem_cons.1 (mem _ _ (fun k => (h k).symm) b (by simp)) with h3 | h3
        · rw [h3]
        · exact h1.1 b h3
      have hab : key a = key b := le_antisymm ha hb
      have := h (key a)
      rw [List.filter_cons_of_pos (by simp), List.filter_cons_of_pos (by simp [hab])] at this
      have e : a = b := (List.cons.inj this).1
      subst e
      rw [ih l2 h1.2 h2.2 ?_]
      intro k
      have := h k
      rw [List.filter_cons, List.filter_cons] at this
      split at this
      · exact (List.cons.inj this).2
      · exact this

/-- Key of a layer: depth, then order number for internal layers. -/
def Layer.key (l : Layer) : ℕ ×ₗ ℤ :=
  toLex (l.depth, if l.cls = "internal" then l.order.getD 0 else 0)

theorem depth_inj {a b : Layer} (ha : a.cls ∈ stack) (h : a.depth = b.depth) : a.cls = b.cls :=
  (List.idxOf_inj ha).1 h

/-- The specification leaves no choice: there is only one stack of the given layers. -/
theorem C37_stack_unique (layers b1 b2 : List Layer) (h1 : IsStack layers b1)
    (h2 : IsStack layers b2) : b1 = b2 := by
  have inStack : ∀ {b : List Layer}, IsStack layers b → ∀ x ∈ b, x.cls ∈ stack := by
    intro b hb x hx
    simpa using (List.mem_filter.1 (hb.once.mem_iff.1 hx)).2
  have sorted : ∀ {b : List Layer}, IsStack layers b →
      b.Pairwise (fun a b => a.key ≤ b.key) := by
    intro b hb
    refine ((hb.byClass.and hb.ascending).imp_of_mem ?_)
    intro x y hx hy hxy
    rw [Prod.Lex.le_iff]
    rcases lt_or_eq_of_le hxy.1 with h | h
    · exact Or.inl h
    · right
      refine ⟨h, ?_⟩
      have hc := depth_inj (inStack hb x hx) h
      by_cases hi : x.cls = "internal"
      · have hi' : y.cls = "internal" := hc ▸ hi
        simpa [Layer.key, hi, hi'] using hxy.2 hi hi'
      · have hi' : y.cls ≠ "internal" := hc ▸ hi
        simp [Layer.key, hi, hi']
  have keyed : ∀ {b : List Layer}, IsStack layers b → ∀ a : Layer, a.cls ∈ stack →
      b.filter (fun x => x.key = a.key) =
        if a.cls = "internal" then
          layers.filter (fun l => l.cls = "internal" ∧ l.order.getD 0 = a.order.getD 0)
        else layers.filter (·.cls = a.cls) := by
    intro b hb a ha
    by_cases hi : a.cls = "internal"
    · rw [if_pos hi, ← hb.sameOrderInternal]
      apply List.filter_congr
      intro x hx
      have : x.key = a.key ↔ (x.cls = "internal" ∧ x.order.getD 0 = a.order.getD 0) := by
        constructor
        · intro h
          have h' := toLex.injective h
          rw [Prod.mk.injEq] at h'
          have hc := depth_inj (inStack hb x hx) h'.1
          rw [hi] at hc
          refine ⟨hc, ?_⟩
          simpa [hi, hc] using h'.2
        · rintro ⟨hc, ho⟩
          simp [Layer.key, Layer.depth, hi, hc, ho]
      simp [this]
    · rw [if_neg hi, ← hb.sameOrder a.cls ha hi]
      apply List.filter_congr
      intro x hx
      have : x.key = a.key ↔ x.cls = a.cls := by
        constructor
        · intro h
          have h' := toLex.injective h
          rw [Prod.mk.injEq] at h'
          exact depth_inj (inStack hb x hx) h'.1
        · intro hc
          simp [Layer.key, Layer.depth, hi, hc]
      simp [this]
  apply eq_of_sorted Layer.key b1 b2 (sorted h1) (sorted h2)
  intro k
  have none : ∀ {b : List Layer}, IsStack layers b → (¬ ∃ a : Layer, a.cls ∈ stack ∧ a.key = k) →
      b.filter (fun x => x.key = k) = [] := by
    intro b hb hn
    rw [List.filter_eq_nil_iff]
    intro x hx hk
    exact hn ⟨x, inStack hb x hx, by simpa using hk⟩
  by_cases hk : ∃ a : Layer, a.cls ∈ stack ∧ a.key = k
  · obtain ⟨a, ha, rfl⟩ := hk
    rw [keyed h1 a ha, keyed h2 a ha]
  · rw [none h1 hk, none h2 hk]

/-- `C37_sort_layers_partial` at work: a drill, two internal layers in the wrong order, two layers
of the same class and an unknown layer. -/
def mixed : List Layer :=
  [.drill "a.drl".toList, .internal "in2.g2".toList 2, .plain "b.gbl".toList "bottom",
   .plain "n.txt".toList "unknown", .internal "in1.g1".toList 1, .plain "t1.gtl".toList "top",
   .plain "o.gko".toList "outline", .plain "t2.gtl".toList "top", .internal "x1.g1".toList 1]

example : Comparable mixed := by
  right
  decide +kernel

example : (sortLayers mixed).map (·.map fun l => String.ofList l.filename) =
    .ok ["o.gko", "t1.gtl", "t2.gtl", "in1.g1", "x1.g1", "in2.g2", "b.gbl", "a.drl"] := by
  decide +kernel

example : (sortLayers mixed false).map (·.map fun l => String.ofList l.filename) =
    .ok ["b.gbl", "in2.g2", "x1.g1", "in1.g1", "t2.gtl", "t1.gtl", "o.gko", "a.drl"] := by
  decide +kernel

/-- The claim fails for two layers of class `internal` that were not made as `InternalLayer`:
`sorted` raises `TypeError`. -/
theorem C37_plain_internal_violated :
    ¬ ∀ layers : List Layer, ∃ board, IsStack layers board ∧
      sortLayers layers = .ok (board ++
        layers.filter (·.cls = "drill") ++ layers.filter (·.cls = "drawing")) := by
  intro h
  obtain ⟨b, _, hb⟩ := h [.plain "a.g1".toList "internal", .plain "b.g2".toList "internal"]
  have : sortLayers [.plain "a.g1".toList "internal", .plain "b.g2".toList "internal"] =
      .error .typeError := by decide +kernel
  rw [this] at hb
  cases hb

/-! ## C38: views of a board -/

theorem sortInternal_perm {l r : List Layer} (h : sortInternal l = .ok r) : r.Perm l := by
  unfold sortInternal at h
  split at h
  · cases h; exact List.Perm.refl _
  · split at h
    · cases h; exact List.perm_insertionSort _ _
    · cases h

/-- A board is made of the layers of each class in turn. -/
theorem pcb_eq {layers board : List Layer} (h : pcb layers = .ok board) :
    ∃ r, r.Perm (layers.filter (·.cls = "internal")) ∧ board =
      (layers.filter (·.cls = "outline") ++ layers.filter (·.cls = "toppaste") ++
       layers.filter (·.cls = "topsilk") ++ layers.filter (·.cls = "topmask") ++
       layers.filter (·.cls = "top")) ++ r ++
      (layers.filter (·.cls = "bottom") ++ layers.filter (·.cls = "bottommask") ++
       layers.filter (·.cls = "bottomsilk") ++ layers.filter (·.cls = "bottompaste") ++
       layers.filter (·.cls = "drill") ++ layers.filter (·.cls = "drawing")) := by
  unfold pcb sortLayers at h
  match hr : sortInternal (layers.filter (·.cls = "internal")) with
  | .error e => simp only [hr, bind, Except.bind] at h; cases h
  | .ok r =>
    simp only [hr, bind, Except.bind] at h
    refine ⟨r, sortInternal_perm hr, ?_⟩
    have h := Except.ok.inj h
    rw [← h]
    simp [layerOrder, appendAfter, classLayers]

theorem filter_class (S : List String) (c : String) (l : List Layer) :
    (l.filter (·.cls = c)).filter (·.cls ∈ S) = if c ∈ S then l.filter (·.cls = c) else [] := by
  rw [List.filter_filter]
  split
  · rename_i h
    apply List.filter_congr
    intro x _
    by_cases hx : x.cls = c
    · simp [hx, h]
    · simp [hx]
  · rename_i h
    rw [List.filter_eq_nil_iff]
    intro x _ hx
    simp only [Bool.and_eq_true, decide_eq_true_eq] at hx
    exact h (hx.2 ▸ hx.1)

theorem filter_internal {r l : List Layer} (S : List String)
    (h : r.Perm (l.filter (·.cls = "internal"))) :
    r.filter (·.cls ∈ S) = if "internal" ∈ S then r else [] := by
  have hr : ∀ x ∈ r, x.cls = "internal" := by
    intro x hx
    simpa using (List.mem_filter.1 (h.mem_iff.1 hx)).2
  split
  · rename_i hS
    rw [List.filter_eq_self]
    intro x hx
    simp [hr x hx, hS]
  · rename_i hS
    rw [List.filter_eq_nil_iff]
    intro x hx
    simp [hr x hx, hS]

/-- The layers of a board of the given classes. -/
theorem filter_board {layers board r : List Layer} (S : List String)
    (h : r.Perm (layers.filter (·.cls = "internal")))
    (hb : board =
      (layers.filter (·.cls = "outline") ++ layers.filter (·.cls = "toppaste") ++
       layers.filter (·.cls = "topsilk") ++ layers.filter (·.cls = "topmask") ++
       layers.filter (·.cls = "top")) ++ r ++
      (layers.filter (·.cls = "bottom") ++ layers.filter (·.cls = "bottommask") ++
       layers.filter (·.cls = "bottomsilk") ++ layers.filter (·.cls = "bottompaste") ++
       layers.filter (·.cls = "drill") ++ layers.filter (·.cls = "drawing"))) :
    board.filter (·.cls ∈ S) =
      ((if "outline" ∈ S then layers.filter (·.cls = "outline") else []) ++
       (if "toppaste" ∈ S then layers.filter (·.cls = "toppaste") else []) ++
       (if "topsilk" ∈ S then layers.filter (·.cls = "topsilk") else []) ++
       (if "topmask" ∈ S then layers.filter (·.cls = "topmask") else []) ++
       (if "top" ∈ S then layers.filter (·.cls = "top") else [])) ++
      (if "internal" ∈ S then r else []) ++
      ((if "bottom" ∈ S then layers.filter (·.cls = "bottom") else []) ++
       (if "bottommask" ∈ S then layers.filter (·.cls = "bottommask") else []) ++
       (if "bottomsilk" ∈ S then layers.filter (·.cls = "bottomsilk") else []) ++
       (if "bottompaste" ∈ S then layers.filter (·.cls = "bottompaste") else []) ++
       (if "drill" ∈ S then layers.filter (·.cls = "drill") else []) ++
       (if "drawing" ∈ S then layers.filter (·.cls = "drawing") else [])) := by
  rw [hb]
  simp only [List.filter_append, filter_class, filter_internal S h]

/-- Copper layers: top, internal, bottom. -/
def isCopper (l : Layer) : Bool := l.cls == "top" || l.cls == "internal" || l.cls == "bottom"

/-- **C38** (copper) The copper layers are exactly the top, internal and bottom layers the board was
made of, from the bottom to the top, and `layer_count` is their number. -/
theorem C38_copper (layers board : List Layer) (h : pcb layers = .ok board) :
    (copperLayers board).Perm (layers.filter isCopper) ∧
      (∃ internal, internal.Perm (layers.filter (·.cls = "internal")) ∧
        (copperLayers board).reverse =
          layers.filter (·.cls = "top") ++ internal ++ layers.filter (·.cls = "bottom")) ∧
      layerCount board = (layers.filter isCopper).length := by
  obtain ⟨r, hr, hb⟩ := pcb_eq h
  have e : board.filter (·.cls ∈ ["top", "bottom", "internal"]) =
      layers.filter (·.cls = "top") ++ r ++ layers.filter (·.cls = "bottom") := by
    rw [filter_board _ hr hb]
    simp
  have p : (layers.filter (·.cls = "top") ++ r ++ layers.filter (·.cls = "bottom")).Perm
      (layers.filter isCopper) := by
    have := flatMap_filter_perm layers ["top", "internal", "bottom"] (by decide)
    simp only [List.flatMap_cons, List.flatMap_nil, List.append_nil] at this
    refine (((hr.append_left _).append_right _).trans (by simpa using this)).trans
      (List.Perm.of_eq ?_)
    apply List.filter_congr
    intro x _
    rw [Bool.eq_iff_iff]
    simp [isCopper, or_assoc]
  refine ⟨?_, ⟨r, hr, ?_⟩, ?_⟩
  · unfold copperLayers
    rw [e]
    exact (List.reverse_perm _).trans p
  · unfold copperLayers
    rw [e, List.reverse_reverse]
  · unfold layerCount
    rw [e]
    exact p.length_eq

theorem filterSide_eq (side : String) (ls : List Layer) (h : ∀ l ∈ ls, l.sides.isSome) :
    filterSide side ls = .ok (ls.filter fun l => side ∈ l.sides.getD []) := by
  induction ls with
  | nil => rfl
  | cons l ls ih =>
    have hl := h l (by simp)
    match hs : l.sides with
    | none => rw [hs] at hl; cases hl
    | some s =>
      simp only [filterSide, hasSide, hs, ih fun x hx => h x (by simp [hx]), bind, Except.bind]
      rw [List.filter_cons]
      simp [hs]

theorem filterSide_cls (side c : String) (layers : List Layer)
    (h : ∀ l ∈ layers, l.cls = c → l.sides.isSome) :
    filterSide side (layers.filter (·.cls = c)) =
      .ok (layers.filter fun l => l.cls = c ∧ side ∈ l.sides.getD []) := by
  rw [filterSide_eq]
  · rw [List.filter_filter]
    congr 1
    apply List.filter_congr
    intro x _
    rw [Bool.eq_iff_iff]
    simp [and_comm]
  · intro l hl
    have hl := List.mem_filter.1 hl
    exact h l hl.1 (by simpa using hl.2)

theorem drills_eq {layers board : List Layer} (h : pcb layers = .ok board) :
    drillLayers board = layers.filter (·.cls = "drill") := by
  obtain ⟨r, hr, hb⟩ := pcb_eq h
  have := filter_board ["drill"] hr hb
  simpa [drillLayers] using this

/-- **C38** (top view) For a board with a layer on the top side: the copper, mask and silk layers of
the top side in stacking order (from the board outwards), with the drill layers that reach the top
behind the first of them. -/
theorem C38_top_view_partial (layers board : List Layer) (h : pcb layers = .ok board)
    (hd : ∀ l ∈ layers, l.cls = "drill" → l.sides.isSome)
    (ht : ∃ l ∈ layers, l.cls = "top" ∨ l.cls = "topmask" ∨ l.cls = "topsilk") :
    ∃ first rest,
      first :: rest = (layers.filter (·.cls = "top")).reverse ++
        (layers.filter (·.cls = "topmask")).reverse ++
        (layers.filter (·.cls = "topsilk")).reverse ∧
      topLayers board = .ok (first ::
        layers.filter (fun l => l.cls = "drill" ∧ "top" ∈ l.sides.getD []) ++ rest) := by
  obtain ⟨r, hr, hb⟩ := pcb_eq h
  have e : board.reverse.filter (·.cls ∈ ["topsilk", "topmask", "top"]) =
      (layers.filter (·.cls = "top")).reverse ++
        (layers.filter (·.cls = "topmask")).reverse ++
        (layers.filter (·.cls = "topsilk")).reverse := by
    rw [List.filter_reverse, filter_board _ hr hb]
    simp
  unfold topLayers
  rw [e, drills_eq h, filterSide_cls "top" "drill" layers hd]
  match hq : (layers.filter (·.cls = "top")).reverse ++
        (layers.filter (·.cls = "topmask")).reverse ++
        (layers.filter (·.cls = "topsilk")).reverse with
  | [] =>
    obtain ⟨l, hl, hc⟩ := ht
    have : l ∈ (layers.filter (·.cls = "top")).reverse ++
        (layers.filter (·.cls = "topmask")).reverse ++
        (layers.filter (·.cls = "topsilk")).reverse := by
      simp only [List.mem_append, List.mem_reverse, List.mem_filter, decide_eq_true_eq]
      tauto
    rw [hq] at this
    cases this
  | a :: t => exact ⟨a, t, rfl, by simp [insertDrills, bind, Except.bind]⟩

/-- **C38** (bottom view). -/
theorem C38_bottom_view_partial (layers board : List Layer) (h : pcb layers = .ok board)
    (hd : ∀ l ∈ layers, l.cls = "drill" → l.sides.isSome)
    (ht : ∃ l ∈ layers, l.cls = "bottom" ∨ l.cls = "bottommask" ∨ l.cls = "bottomsilk") :
    ∃ first rest,
      first :: rest = layers.filter (·.cls = "bottom") ++
        layers.filter (·.cls = "bottommask") ++ layers.filter (·.cls = "bottomsilk") ∧
      bottomLayers board = .ok (first ::
        layers.filter (fun l => l.cls = "drill" ∧ "bottom" ∈ l.sides.getD []) ++ rest) := by
  obtain ⟨r, hr, hb⟩ := pcb_eq h
  have e : board.filter (·.cls ∈ ["bottomsilk", "bottommask", "bottom"]) =
      layers.filter (·.cls = "bottom") ++
        layers.filter (·.cls = "bottommask") ++ layers.filter (·.cls = "bottomsilk") := by
    rw [filter_board _ hr hb]
    simp
  unfold bottomLayers
  rw [e, drills_eq h, filterSide_cls "bottom" "drill" layers hd]
  match hq : layers.filter (·.cls = "bottom") ++
        layers.filter (·.cls = "bottommask") ++ layers.filter (·.cls = "bottomsilk") with
  | [] =>
    obtain ⟨l, hl, hc⟩ := ht
    have : l ∈ layers.filter (·.cls = "bottom") ++
        layers.filter (·.cls = "bottommask") ++ layers.filter (·.cls = "bottomsilk") := by
      simp only [List.mem_append, List.mem_filter, decide_eq_true_eq]
      tauto
    rw [hq] at this
    cases this
  | a :: t => exact ⟨a, t, rfl, by simp [insertDrills, bind, Except.bind]⟩

example : ((pcb mixed).bind topLayers).map (·.map fun l => String.ofList l.filename) =
    .ok ["t2.gtl", "a.drl", "t1.gtl"] := by decide +kernel
example : ((pcb mixed).bind bottomLayers).map (·.map fun l => String.ofList l.filename) =
    .ok ["b.gbl", "a.drl"] := by decide +kernel
example : (pcb mixed).map (fun b => (copperLayers b).map fun l => String.ofList l.filename) =
    .ok ["b.gbl", "in2.g2", "x1.g1", "in1.g1", "t2.gtl", "t1.gtl"] := by decide +kernel

/-- **C38** (outline) The outline layer is the first one given; the board's bounds are those of the
outline layer if there is one, else of the first top layer. -/
theorem C38_outline (layers board : List Layer) (h : pcb layers = .ok board) :
    outlineLayer board = layers.find? (·.cls = "outline") ∧
      boardBounds board =
        (((layers.find? (·.cls = "outline")).or (layers.find? (·.cls = "top"))).bind
          Layer.bounds) := by
  obtain ⟨r, hr, hb⟩ := pcb_eq h
  have find : ∀ c : String, board.filter (·.cls ∈ [c]) = layers.filter (·.cls = c) →
      board.find? (·.cls = c) = layers.find? (·.cls = c) := by
    intro c hc
    rw [← List.head?_filter, ← List.head?_filter, ← hc]
    simp
  have f1 := find "outline" (by rw [filter_board _ hr hb]; simp)
  have f2 := find "top" (by rw [filter_board _ hr hb]; simp)
  refine ⟨f1, ?_⟩
  unfold boardBounds
  rw [f1, f2]
  cases layers.find? (·.cls = "outline") with
  | some l => rfl
  | none => cases layers.find? (·.cls = "top") <;> rfl

example : (pcb [.plain "t.gtl".toList "top" (some ((0, 2), (0, 3))),
    .plain "o.gko".toList "outline" (some ((0, 1), (0, 1)))]).map boardBounds =
    .ok (some ((0, 1), (0, 1))) := by decide +kernel

/-- Exactly the boards without any layer on a side have no view of that side: `IndexError`. -/
theorem C38_no_view (layers board : List Layer) (h : pcb layers = .ok board)
    (hd : ∀ l ∈ layers, l.cls = "drill" → l.sides.isSome)
    (ht : ∀ l ∈ layers, l.cls ≠ "top" ∧ l.cls ≠ "topmask" ∧ l.cls ≠ "topsilk") :
    topLayers board = .error .indexError := by
  obtain ⟨r, hr, hb⟩ := pcb_eq h
  have e : board.reverse.filter (·.cls ∈ ["topsilk", "topmask", "top"]) = [] := by
    have z : ∀ c, (c = "top" ∨ c = "topmask" ∨ c = "topsilk") →
        layers.filter (·.cls = c) = [] := by
      intro c hc
      rw [List.filter_eq_nil_iff]
      intro x hx hxc
      have hxc : x.cls = c := by simpa using hxc
      obtain ⟨h1, h2, h3⟩ := ht x hx
      rw [hxc] at h1 h2 h3
      tauto
    rw [List.filter_reverse, filter_board _ hr hb]
    simp [z "top" (by simp), z "topmask" (by simp), z "topsilk" (by simp)]
  unfold topLayers
  rw [e, drills_eq h, filterSide_cls "top" "drill" layers hd]
  rfl

/-- The same for the bottom side. -/
theorem C38_no_bottom_view (layers board : List Layer) (h : pcb layers = .ok board)
    (hd : ∀ l ∈ layers, l.cls = "drill" → l.sides.isSome)
    (ht : ∀ l ∈ layers, l.cls ≠ "bottom" ∧ l.cls ≠ "bottommask" ∧ l.cls ≠ "bottomsilk") :
    bottomLayers board = .error .indexError := by
  obtain ⟨r, hr, hb⟩ := pcb_eq h
  have e : board.filter (·.cls ∈ ["bottomsilk", "bottommask", "bottom"]) = [] := by
    have z : ∀ c, (c = "bottom" ∨ c = "bottommask" ∨ c = "bottomsilk") →
        layers.filter (·.cls = c) = [] := by
      intro c hc
      rw [List.filter_eq_nil_iff]
      intro x hx hxc
      have hxc : x.cls = c := by simpa using hxc
      obtain ⟨h1, h2, h3⟩ := ht x hx
      rw [hxc] at h1 h2 h3
      tauto
    rw [filter_board _ hr hb]
    simp [z "bottom" (by simp), z "bottommask" (by simp), z "bottomsilk" (by simp)]
  unfold bottomLayers
  rw [e, drills_eq h, filterSide_cls "bottom" "drill" layers hd]
  rfl

example : (pcb [.plain "t.gtl".toList "top"]).bind bottomLayers = .error .indexError := by decide +kernel

/-- The claim fails for boards without a layer on the top side. -/
theorem C38_top_view_violated :
    ¬ ∀ layers board : List Layer, pcb layers = .ok board → ∃ view, topLayers board = .ok view := by
  intro h
  obtain ⟨v, hv⟩ := h [.plain "b.gbl".toList "bottom"] [.plain "b.gbl".toList "bottom"]
    (by decide +kernel)
  have : topLayers [.plain "b.gbl".toList "bottom"] = .error .indexError := by decide +kernel
  rw [this] at hv
  cases hv

/-- The paste layers are on a side of the board but in neither view. -/
theorem C38_paste_violated :
    ¬ ∀ layers board view : List Layer, pcb layers = .ok board → topLayers board = .ok view →
      ∀ l ∈ layers, l.cls = "toppaste" → l ∈ view := by
  intro h
  have := h [.plain "t.gtl".toList "top", .plain "p.gtp".toList "toppaste"]
    [.plain "p.gtp".toList "toppaste", .plain "t.gtl".toList "top"]
    [.plain "t.gtl".toList "top"] (by decide +kernel) (by decide +kernel)
    (.plain "p.gtp".toList "toppaste") (by simp) rfl
  revert this
  decide +kernel

end Verif.Layers
