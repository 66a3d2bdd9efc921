import Verif.Spec.Operations
import Verif.Props.StoredCorners
import Verif.Lemmas.Excellon

/-! # C78: operations on copies of files -/

namespace Verif.Operations

open Verif.Py Verif.Geom

/-! ## Copying -/

/-- The copy of an object, by the memo. -/
def look (m : List (ℕ × ℕ)) (i : ℕ) : ℕ := (dictGet m i).getD i

theorem get_none {m : List (ℕ × ℕ)} {i : ℕ} : dictGet m i = none ↔ i ∉ m.map Prod.fst := by
  induction m with
  | nil => simp [dictGet]
  | cons x m ih =>
    unfold dictGet
    by_cases h : x.1 = i
    · simp [h]
    · rw [if_neg h, ih, List.map_cons, List.mem_cons]
      exact ⟨fun a b => b.elim (fun c => h c.symm) a, fun a b => a (.inr b)⟩

theorem get_mem {m : List (ℕ × ℕ)} {i j : ℕ} (h : dictGet m i = some j) : (i, j) ∈ m := by
  induction m with
  | nil => simp [dictGet] at h
  | cons x m ih =>
    unfold dictGet at h
    split at h
    · next hx =>
      cases h
      subst hx
      exact List.mem_cons_self
    · exact List.mem_cons_of_mem _ (ih h)

theorem look_mem {m : List (ℕ × ℕ)} {i : ℕ} (h : i ∈ m.map Prod.fst) : (i, look m i) ∈ m := by
  cases hg : dictGet m i with
  | none => exact absurd h (get_none.mp hg)
  | some j =>
    rw [look, hg]
    exact get_mem hg

theorem look_append {m new : List (ℕ × ℕ)} {i : ℕ} (hi : i ∈ m.map Prod.fst) (h : ((new ++ m).map Prod.fst).Nodup) :
    look (new ++ m) i = look m i := by
  induction new with
  | nil => rfl
  | cons x l ih =>
    rw [List.cons_append, List.map_cons, List.nodup_cons] at h
    have hx : x.1 ≠ i := by
      rintro rfl
      apply h.1
      rw [List.map_append]
      exact List.mem_append_right _ hi
    rw [← ih h.2]
    simp only [look, List.cons_append, dictGet, if_neg hx]

theorem look_unique {m : List (ℕ × ℕ)} (h : (m.map Prod.fst).Nodup) {x : ℕ × ℕ} (hx : x ∈ m) : look m x.1 = x.2 := by
  have := look_mem (List.mem_map_of_mem (f := Prod.fst) hx)
  have := List.inj_on_of_nodup_map h this hx rfl
  exact congrArg Prod.snd this

/-- The state is one of copying objects of `w`. -/
structure Inv (w : World) (s : Copying) : Prop where
  old : ∀ i < w.next, s.heap i = w.heap i
  next : w.next ≤ s.next
  range : ∀ x ∈ s.memo, x.1 < w.next ∧ w.next ≤ x.2 ∧ x.2 < s.next
  keys : (s.memo.map Prod.fst).Nodup
  vals : (s.memo.map Prod.snd).Nodup

/-- From state `s`, the objects `l` were copied to `js`. -/
structure Step (w : World) (s t : Copying) (l js : List ℕ) : Prop where
  inv : Inv w t
  le : s.next ≤ t.next
  frame : ∀ j < s.next, t.heap j = s.heap j
  found : ∀ i ∈ l, i ∈ t.memo.map Prod.fst
  result : js = l.map (look t.memo)
  new : ∃ new, t.memo = new ++ s.memo ∧ ∀ x ∈ new, t.heap x.2 = renamed (look t.memo) (w.heap x.1) ∧ s.next ≤ x.2 ∧
    (∀ j, (w.heap x.1).aperture = some j → j ∈ t.memo.map Prod.fst) ∧
      ∀ j ∈ (w.heap x.1).parts, j ∈ t.memo.map Prod.fst

theorem Step.keep {w : World} {s t : Copying} {l js : List ℕ} (h : Step w s t l js) {i : ℕ}
    (hi : i ∈ s.memo.map Prod.fst) : i ∈ t.memo.map Prod.fst ∧ look t.memo i = look s.memo i := by
  obtain ⟨new, e, -⟩ := h.new
  have := h.inv.keys
  rw [e] at this ⊢
  exact ⟨by rw [List.map_append]; exact List.mem_append_right _ hi, look_append hi this⟩

theorem renamed_congr {φ ψ : ℕ → ℕ} {o : Obj} (h1 : ∀ j, o.aperture = some j → φ j = ψ j)
    (h2 : ∀ j ∈ o.parts, φ j = ψ j) : renamed φ o = renamed ψ o := by
  unfold renamed
  congr 1
  · cases ha : o.aperture with
    | none => rfl
    | some j => simp [h1 j ha]
  · exact List.map_congr_left h2

theorem Step.trans {w : World} {s t u : Copying} {l js l' js' : List ℕ} (h : Step w s t l js) (h' : Step w t u l' js') :
    Step w s u (l ++ l') (js ++ js') := by
  obtain ⟨new, e, hn⟩ := h.new
  obtain ⟨new', e', hn'⟩ := h'.new
  refine ⟨h'.inv, h.le.trans h'.le, fun j hj => ?_, ?_, ?_, new' ++ new, by rw [e', e, List.append_assoc], ?_⟩
  · rw [h'.frame j (hj.trans_le h.le), h.frame j hj]
  · intro i hi
    rcases List.mem_append.mp hi with hi | hi
    · exact (h'.keep (h.found i hi)).1
    · exact h'.found i hi
  · rw [List.map_append, h.result, h'.result]
    congr 1
    exact List.map_congr_left fun i hi => (h'.keep (h.found i hi)).2.symm
  · intro x hx
    rcases List.mem_append.mp hx with hx | hx
    · obtain ⟨a, b, c⟩ := hn' x hx
      exact ⟨a, h.le.trans b, c⟩
    · obtain ⟨a, b, c, d⟩ := hn x hx
      have hx2 : x.2 < t.next := (h.inv.range x (by rw [e]; exact List.mem_append_left _ hx)).2.2
      refine ⟨?_, b, fun j hj => (h'.keep (c j hj)).1, fun j hj => (h'.keep (d j hj)).1⟩
      rw [h'.frame _ hx2, a]
      exact renamed_congr (fun j hj => (h'.keep (c j hj)).2.symm) fun j hj => (h'.keep (d j hj)).2.symm

theorem Step.refl {w : World} {s : Copying} (h : Inv w s) : Step w s s [] [] :=
  ⟨h, le_rfl, fun _ _ => rfl, by simp, rfl, [], rfl, by simp⟩

theorem copyList_step {w : World} {copy : Copying → ℕ → PyR (ℕ × Copying)}
    (hc : ∀ {s i j t}, Inv w s → i < w.next → copy s i = .ok (j, t) → Step w s t [i] [j]) {l : List ℕ} :
    ∀ {s js t}, Inv w s → (∀ i ∈ l, i < w.next) → copyList copy s l = .ok (js, t) → Step w s t l js := by
  induction l with
  | nil =>
    intro s js t hs _ h
    cases h
    exact Step.refl hs
  | cons i l ih =>
    intro s js t hs hl h
    unfold copyList at h
    obtain ⟨⟨j, u⟩, h1, h⟩ := Excellon.bindOk h
    obtain ⟨⟨ks, v⟩, h2, h⟩ := Excellon.bindOk h
    cases h
    have a := hc hs (hl i (by simp)) h1
    exact a.trans (ih a.inv (fun x hx => hl x (by simp [hx])) h2)

theorem copyObj_step {w : World} (hw : w.Closed) (n : ℕ) {s : Copying} {i j : ℕ} {t : Copying} (hs : Inv w s)
    (hi : i < w.next) (h : copyObj n s i = .ok (j, t)) : Step w s t [i] [j] := by
  induction n generalizing s i j t with
  | zero => cases h
  | succ n ih =>
    unfold copyObj at h
    split at h
    · next k hk =>
      cases h
      have hm : i ∈ s.memo.map Prod.fst := by
        by_contra hc
        rw [get_none.mpr hc] at hk
        cases hk
      refine ⟨hs, le_rfl, fun _ _ => rfl, by simpa using hm, ?_, [], rfl, by simp⟩
      simp [look, hk]
    · next hk =>
      obtain ⟨⟨ap, u⟩, h1, h⟩ := Excellon.bindOk h
      obtain ⟨⟨ps, v⟩, h2, h⟩ := Excellon.bindOk h
      cases h
      obtain ⟨c1, c2⟩ := hw i hi
      have hold : s.heap i = w.heap i := hs.old i hi
      have h0 : Inv w { s with next := s.next + 1, memo := (i, s.next) :: s.memo } := by
        refine ⟨hs.old, hs.next.trans (Nat.le_succ _), ?_, ?_, ?_⟩
        · intro x hx
          rcases List.mem_cons.mp hx with rfl | hx
          · exact ⟨hi, hs.next, Nat.lt_succ_self _⟩
          · obtain ⟨a, b, c⟩ := hs.range x hx
            exact ⟨a, b, c.trans (Nat.lt_succ_self _)⟩
        · rw [List.map_cons, List.nodup_cons]
          exact ⟨get_none.mp hk, hs.keys⟩
        · rw [List.map_cons, List.nodup_cons]
          refine ⟨fun hm => ?_, hs.vals⟩
          obtain ⟨x, hx, e⟩ := List.mem_map.mp hm
          exact absurd (hs.range x hx).2.2 (by rw [e]; exact lt_irrefl _)
      have s1 := copyList_step ih h0 (by
        intro a ha
        rw [hold, Option.mem_toList] at ha
        exact c1 a ha) h1
      have s2 := copyList_step ih s1.inv (by rw [hold]; exact c2) h2
      have s3 := s1.trans s2
      obtain ⟨new, e, hn⟩ := s3.new
      have hlt : s.next < v.next := s3.le
      have hkeep := s3.keep (i := i) (by simp)
      have hii : look v.memo i = s.next := by
        rw [hkeep.2]
        simp [look, dictGet]
      have hne : ∀ x ∈ new, x.2 ≠ s.next := fun x hx hc => by
        have : s.next + 1 ≤ x.2 := (hn x hx).2.1
        omega
      refine ⟨⟨?_, s3.inv.next, s3.inv.range, s3.inv.keys, s3.inv.vals⟩, (Nat.le_succ _).trans s3.le, ?_, ?_, ?_,
        new ++ [(i, s.next)], by rw [e]; simp, ?_⟩
      · intro k hk'
        have : k ≠ s.next := by have := hs.next; omega
        show Function.update v.heap _ _ k = _
        rw [Function.update_of_ne this]
        exact s3.inv.old k hk'
      · intro k hk'
        show Function.update v.heap _ _ k = _
        rw [Function.update_of_ne (by omega)]
        exact s3.frame k (Nat.lt_succ_of_lt hk')
      · simpa using hkeep.1
      · simp [hii]
      · intro x hx
        rcases List.mem_append.mp hx with hx | hx
        · obtain ⟨a, b, c⟩ := hn x hx
          refine ⟨?_, (Nat.le_succ _).trans b, c⟩
          show Function.update v.heap _ _ x.2 = _
          rw [Function.update_of_ne (hne x hx)]
          exact a
        · rw [List.mem_singleton] at hx
          subst hx
          refine ⟨?_, le_rfl, ?_, ?_⟩
          · show Function.update v.heap s.next _ s.next = _
            rw [Function.update_self, hold]
            have r1 := s1.result
            have r2 := s2.result
            rw [hold] at r1 r2
            unfold renamed
            congr 1
            rw [r1]
            cases ha : (w.heap i).aperture with
            | none => rfl
            | some a =>
              have : a ∈ u.memo.map Prod.fst := s1.found a (by rw [hold, ha]; simp)
              simp [(s2.keep this).2]
          · intro a ha
            exact s3.found a (by rw [hold]; simp [ha])
          · intro a ha
            exact s3.found a (by rw [hold]; simp [ha])

/-- What copying a file gives. -/
theorem copyGerber_spec {w : World} (hw : w.Closed) {f : GFile} (hf : ∀ i ∈ f.roots, i < w.next) {n : ℕ} {g : GFile}
    {w' : World} (h : copyGerber n w f = .ok (g, w')) : ∃ φ : ℕ → ℕ,
      g = ⟨f.program, f.primitives.map φ, .list (f.apertures.refs.map φ)⟩ ∧ (∀ i < w.next, w'.heap i = w.heap i) ∧
      Set.InjOn φ {i | Reach w.heap f.roots i} ∧ ∀ i, Reach w.heap f.roots i →
        i < w.next ∧ w.next ≤ φ i ∧ φ i < w'.next ∧ w'.heap (φ i) = renamed φ (w.heap i) := by
  unfold copyGerber at h
  obtain ⟨⟨ps, s⟩, h1, h⟩ := Excellon.bindOk h
  dsimp only at h
  split at h
  · cases h
  next l hl =>
  obtain ⟨⟨as, t⟩, h2, h⟩ := Excellon.bindOk h
  cases h
  have hroots : f.roots = f.primitives ++ l := by rw [GFile.roots, hl]; rfl
  have h0 : Inv w ⟨w.heap, w.next, []⟩ := ⟨fun _ _ => rfl, le_rfl, by simp, List.nodup_nil, List.nodup_nil⟩
  have s1 := copyList_step (copyObj_step hw n) h0 (fun i hi => hf i (by rw [hroots]; simp [hi])) h1
  have s2 := copyList_step (copyObj_step hw n) s1.inv (fun i hi => hf i (by rw [hroots]; simp [hi])) h2
  have s3 := s1.trans s2
  obtain ⟨new, e, hn⟩ := s3.new
  rw [List.append_nil] at e
  have hreach : ∀ i, Reach w.heap f.roots i → (i, look t.memo i) ∈ t.memo := by
    intro i hi
    induction hi with
    | root h => exact look_mem (s3.found _ (by rw [← hroots]; exact h))
    | aperture _ h ih => exact look_mem ((hn _ (by rw [← e]; exact ih)).2.2.1 _ h)
    | part _ h ih => exact look_mem ((hn _ (by rw [← e]; exact ih)).2.2.2 _ h)
  refine ⟨look t.memo, ?_, s3.inv.old, ?_, ?_⟩
  · congr 1
    · rw [s1.result]
      exact List.map_congr_left fun i hi => (s2.keep (s1.found i hi)).2.symm
    · rw [s2.result, hl]
      rfl
  · intro i hi j hj hij
    have := List.inj_on_of_nodup_map s3.inv.vals (hreach i hi) (hreach j hj) hij
    exact congrArg Prod.fst this
  · intro i hi
    have hm := hreach i hi
    obtain ⟨a, b, c⟩ := s3.inv.range _ hm
    exact ⟨a, b, c, (hn _ (by rw [← e]; exact hm)).1⟩

/-! ## Methods do the same to copies -/

/-- `h'` holds copies of the objects `S` of `h`, which refer to each other only. -/
def Sim (φ : ℕ → ℕ) (S : Set ℕ) (h h' : Heap) : Prop :=
  ∀ i ∈ S, h' (φ i) = renamed φ (h i) ∧ (∀ j, (h i).aperture = some j → j ∈ S) ∧ ∀ j ∈ (h i).parts, j ∈ S

/-- A method that changes only objects of `S`, copies as the originals. -/
def Natural (φ : ℕ → ℕ) (S : Set ℕ) (F : Heap → ℕ → Heap) : Prop :=
  ∀ {h h' i}, Sim φ S h h' → i ∈ S → Sim φ S (F h i) (F h' (φ i)) ∧ ∀ k, k ∉ φ '' S → F h' (φ i) k = h' k

theorem sim_fold {φ : ℕ → ℕ} {S : Set ℕ} {F : Heap → ℕ → Heap} (hF : Natural φ S F) {l : List ℕ} {h h' : Heap}
    (hs : Sim φ S h h') (hl : ∀ i ∈ l, i ∈ S) : Sim φ S (l.foldl F h) ((l.map φ).foldl F h') ∧
      ∀ k, k ∉ φ '' S → (l.map φ).foldl F h' k = h' k := by
  induction l generalizing h h' with
  | nil => exact ⟨hs, fun _ _ => rfl⟩
  | cons i l ih =>
    obtain ⟨a, b⟩ := hF hs (hl i (by simp))
    obtain ⟨c, d⟩ := ih a fun x hx => hl x (by simp [hx])
    exact ⟨c, fun k hk => (d k hk).trans (b k hk)⟩

theorem sim_update {φ : ℕ → ℕ} {S : Set ℕ} (hφ : Set.InjOn φ S) {h h' : Heap} (hs : Sim φ S h h') {i : ℕ} (hi : i ∈ S)
    {o o' : Obj} (ho : o' = renamed φ o) (h1 : o.aperture = (h i).aperture) (h2 : o.parts = (h i).parts) :
    Sim φ S (Function.update h i o) (Function.update h' (φ i) o') ∧
      ∀ k, k ∉ φ '' S → Function.update h' (φ i) o' k = h' k := by
  constructor
  · intro j hj
    by_cases hji : j = i
    · subst hji
      rw [Function.update_self, Function.update_self, h1, h2]
      exact ⟨ho, (hs j hj).2⟩
    · rw [Function.update_of_ne (fun e => hji (hφ hj hi e)), Function.update_of_ne hji]
      exact hs j hj
  · intro k hk
    rw [Function.update_of_ne]
    rintro rfl
    exact hk ⟨i, hi, rfl⟩

theorem setPt_renamed (φ : ℕ → ℕ) (o : Obj) (a : PA) (v : Option RPt) :
    (renamed φ o).setPt a v = renamed φ (o.setPt a v) := by
  unfold Obj.setPt
  show (if ptSetter o.kind a then _ else _) = _
  split <;> rfl

theorem setNum_renamed (φ : ℕ → ℕ) (o : Obj) (a : NA) (v : Option ℝ) :
    (renamed φ o).setNum a v = renamed φ (o.setNum a v) := by
  unfold Obj.setNum
  show (if numSetter o.kind a then _ else _) = _
  split <;> rfl

theorem convertOwn_renamed (φ : ℕ → ℕ) (f : ℝ → ℝ) (u : String) (o : Obj) :
    (renamed φ o).convertOwn f u = renamed φ (o.convertOwn f u) := by
  have h1 : ∀ (l : List PA) (x : Obj), l.foldl (fun x a => x.setPt a ((o.pts a).map fun p => (f p.1, f p.2)))
      (renamed φ x) = renamed φ (l.foldl (fun x a => x.setPt a ((o.pts a).map fun p => (f p.1, f p.2))) x) := by
    intro l
    induction l with
    | nil => exact fun _ => rfl
    | cons a l ih =>
      intro x
      rw [List.foldl_cons, List.foldl_cons, setPt_renamed, ih]
  have h2 : ∀ (l : List NA) (x : Obj), l.foldl (fun x a => x.setNum a ((o.nums a).map f)) (renamed φ x) =
      renamed φ (l.foldl (fun x a => x.setNum a ((o.nums a).map f)) x) := by
    intro l
    induction l with
    | nil => exact fun _ => rfl
    | cons a l ih =>
      intro x
      rw [List.foldl_cons, List.foldl_cons, setNum_renamed, ih]
  unfold Obj.convertOwn
  show (numConvert o.kind).foldl (fun x a => x.setNum a ((o.nums a).map f)) ((ptConvert o.kind).foldl
    (fun x a => x.setPt a ((o.pts a).map fun p => (f p.1, f p.2))) (renamed φ (o.setUnits (some u)))) = _
  rw [h1, h2]

theorem convertOwn_refs (f : ℝ → ℝ) (u : String) (o : Obj) :
    (o.convertOwn f u).aperture = o.aperture ∧ (o.convertOwn f u).parts = o.parts := by
  have h1 : ∀ (l : List PA) (x : Obj), (l.foldl (fun x a => x.setPt a ((o.pts a).map fun p => (f p.1, f p.2))) x).aperture =
      x.aperture ∧ (l.foldl (fun x a => x.setPt a ((o.pts a).map fun p => (f p.1, f p.2))) x).parts = x.parts := by
    intro l
    induction l with
    | nil => exact fun _ => ⟨rfl, rfl⟩
    | cons a l ih =>
      intro x
      rw [List.foldl_cons, (ih _).1, (ih _).2]
      unfold Obj.setPt
      dsimp only
      split <;> exact ⟨rfl, rfl⟩
  have h2 : ∀ (l : List NA) (x : Obj), (l.foldl (fun x a => x.setNum a ((o.nums a).map f)) x).aperture = x.aperture ∧
      (l.foldl (fun x a => x.setNum a ((o.nums a).map f)) x).parts = x.parts := by
    intro l
    induction l with
    | nil => exact fun _ => ⟨rfl, rfl⟩
    | cons a l ih =>
      intro x
      rw [List.foldl_cons, (ih _).1, (ih _).2]
      unfold Obj.setNum
      dsimp only
      split <;> exact ⟨rfl, rfl⟩
  unfold Obj.convertOwn
  dsimp only
  rw [(h2 _ _).1, (h2 _ _).2, (h1 _ _).1, (h1 _ _).2]
  exact ⟨rfl, rfl⟩

theorem children_renamed (φ : ℕ → ℕ) (o : Obj) : (renamed φ o).children = o.children.map φ := by
  have hk : (renamed φ o).kind = o.kind := rfl
  have hp : (renamed φ o).parts = o.parts.map φ := rfl
  have ha : (renamed φ o).aperture = o.aperture.map φ := rfl
  unfold Obj.children
  simp only [hk, hp, ha]
  cases o.kind <;> simp only [List.length_map, List.map_nil]
  · cases o.aperture <;> rfl
  · cases o.aperture <;> rfl
  all_goals split <;> rfl

theorem children_refs {o : Obj} {j : ℕ} (h : j ∈ o.children) : o.aperture = some j ∨ j ∈ o.parts := by
  unfold Obj.children at h
  split at h
  · left; simpa using h
  · left; simpa using h
  all_goals first
    | (split at h
       · exact .inr h
       · cases h)
    | cases h

theorem convert_natural {φ : ℕ → ℕ} {S : Set ℕ} (hφ : Set.InjOn φ S) (f : ℝ → ℝ) (src dst : String) (n : ℕ) :
    Natural φ S (convert f src dst n) := by
  induction n with
  | zero => exact fun hs _ => ⟨hs, fun _ _ => rfl⟩
  | succ n ih =>
    intro h h' i hs hi
    obtain ⟨e, c1, c2⟩ := hs i hi
    unfold convert
    rw [e]
    show Sim φ S _ (if (h i).units = some src then _ else _) ∧ ∀ k, k ∉ φ '' S → (if (h i).units = some src then _ else _ : Heap) k = h' k
    split
    · rw [children_renamed, convertOwn_renamed]
      obtain ⟨r1, r2⟩ := convertOwn_refs f dst (h i)
      obtain ⟨a, b⟩ := sim_update hφ hs hi (o := (h i).convertOwn f dst) rfl r1 r2
      obtain ⟨c, d⟩ := sim_fold ih a (l := (h i).children) fun j hj => (children_refs hj).elim (c1 j) (c2 j)
      exact ⟨c, fun k hk => (d k hk).trans (b k hk)⟩
    · exact ⟨hs, fun _ _ => rfl⟩

theorem changed_renamed (φ : ℕ → ℕ) (o : Obj) : (renamed φ o).changed = renamed φ o.changed := rfl

theorem setPt_refs (o : Obj) (a : PA) (v : Option RPt) :
    (o.setPt a v).aperture = o.aperture ∧ (o.setPt a v).parts = o.parts := by
  unfold Obj.setPt
  dsimp only
  split <;> exact ⟨rfl, rfl⟩

theorem offset_renamed (φ : ℕ → ℕ) (dx dy : ℝ) (o : Obj) : (renamed φ o).offset dx dy = renamed φ (o.offset dx dy) := by
  have hp : ∀ (x : Obj) a, (renamed φ x).pts a = x.pts a := fun _ _ => rfl
  have hk : (renamed φ o).kind = o.kind := rfl
  unfold Obj.offset
  simp only [hk]
  cases o.kind <;> simp only [changed_renamed, setPt_renamed, hp]

theorem offset_refs (dx dy : ℝ) (o : Obj) :
    (o.offset dx dy).aperture = o.aperture ∧ (o.offset dx dy).parts = o.parts := by
  have h1 : o.changed.aperture = o.aperture := rfl
  have h2 : o.changed.parts = o.parts := rfl
  unfold Obj.offset
  cases o.kind <;> simp only [(setPt_refs _ _ _).1, (setPt_refs _ _ _).2, h1, h2, and_self]

theorem offset_natural {φ : ℕ → ℕ} {S : Set ℕ} (hφ : Set.InjOn φ S) (dx dy : ℝ) (n : ℕ) :
    Natural φ S (Geom.offset dx dy n) := by
  induction n with
  | zero => exact fun hs _ => ⟨hs, fun _ _ => rfl⟩
  | succ n ih =>
    intro h h' i hs hi
    obtain ⟨e, c1, c2⟩ := hs i hi
    have hk : (renamed φ (h i)).kind = (h i).kind := rfl
    have hparts : (renamed φ (h i)).parts = (h i).parts.map φ := rfl
    have hpts : (renamed φ (h i)).pts .position = (h i).pts .position := rfl
    have hdef : Sim φ S (Function.update h i ((h i).offset dx dy)) (Function.update h' (φ i) ((renamed φ (h i)).offset dx dy)) ∧
        ∀ k, k ∉ φ '' S → Function.update h' (φ i) ((renamed φ (h i)).offset dx dy) k = h' k := by
      obtain ⟨r1, r2⟩ := offset_refs dx dy (h i)
      exact sim_update hφ hs hi (offset_renamed φ dx dy (h i)) r1 r2
    have hchanged := sim_update hφ hs hi (o := (h i).changed) (o' := (renamed φ (h i)).changed) rfl rfl rfl
    unfold Geom.offset
    simp only [e, hk, hparts]
    cases hkind : (h i).kind <;> simp only [] <;> try exact hdef
    · simp only [hpts]
      cases hp : (h i).pts .position with
      | none => exact ⟨hs, fun _ _ => rfl⟩
      | some p =>
        simp only []
        have hu := sim_update hφ hs hi
          (o := { h i with kind := .amGroup, pts := Function.update (h i).pts .position (some (shift dx dy p)) })
          (o' := { renamed φ (h i) with
            kind := .amGroup, pts := Function.update (renamed φ (h i)).pts .position (some (shift dx dy p)) })
          rfl rfl rfl
        obtain ⟨c, d⟩ := sim_fold ih hu.1 (l := (h i).parts) c2
        exact ⟨c, fun k hk => (d k hk).trans (hu.2 k hk)⟩
    · obtain ⟨c, d⟩ := sim_fold ih hchanged.1 (l := (h i).parts) c2
      exact ⟨c, fun k hk => (d k hk).trans (hchanged.2 k hk)⟩
    · obtain ⟨c, d⟩ := sim_fold ih hchanged.1 (l := (h i).parts) c2
      exact ⟨c, fun k hk => (d k hk).trans (hchanged.2 k hk)⟩

/-! ## References -/

/-- What an object refers to. -/
def refsOf (o : Obj) : Option ℕ × List ℕ := (o.aperture, o.parts)

theorem refs_fold {F : Heap → ℕ → Heap} (hF : ∀ h i k, refsOf (F h i k) = refsOf (h k)) (l : List ℕ) (h : Heap) (k : ℕ) :
    refsOf (l.foldl F h k) = refsOf (h k) := by
  induction l generalizing h with
  | nil => rfl
  | cons i l ih => rw [List.foldl_cons, ih, hF]

theorem refs_update {h : Heap} {i : ℕ} {o : Obj} (ho : refsOf o = refsOf (h i)) (k : ℕ) :
    refsOf (Function.update h i o k) = refsOf (h k) := by
  by_cases hk : k = i
  · subst hk
    rw [Function.update_self, ho]
  · rw [Function.update_of_ne hk]

theorem convert_keeps (f : ℝ → ℝ) (src dst : String) (n : ℕ) (h : Heap) (i k : ℕ) :
    refsOf (convert f src dst n h i k) = refsOf (h k) := by
  induction n generalizing h i k with
  | zero => rfl
  | succ n ih =>
    unfold convert
    split
    · rw [refs_fold ih, refs_update]
      obtain ⟨a, b⟩ := convertOwn_refs f dst (h i)
      exact Prod.ext a b
    · rfl

theorem offset_keeps (dx dy : ℝ) (n : ℕ) (h : Heap) (i k : ℕ) : refsOf (Geom.offset dx dy n h i k) = refsOf (h k) := by
  induction n generalizing h i k with
  | zero => rfl
  | succ n ih =>
    have hdef : refsOf (Function.update h i ((h i).offset dx dy) k) = refsOf (h k) := by
      obtain ⟨a, b⟩ := offset_refs dx dy (h i)
      exact refs_update (Prod.ext a b) k
    unfold Geom.offset
    dsimp only
    cases (h i).kind <;> dsimp only <;> try exact hdef
    · cases (h i).pts .position with
      | none => rfl
      | some p => exact (refs_fold ih _ _ _).trans (refs_update (by rfl) k)
    · exact (refs_fold ih _ _ _).trans (refs_update (by rfl) k)
    · exact (refs_fold ih _ _ _).trans (refs_update (by rfl) k)

theorem reach_congr {h h' : Heap} (hr : ∀ k, refsOf (h' k) = refsOf (h k)) {roots : List ℕ} {i : ℕ}
    (hi : Reach h' roots i) : Reach h roots i := by
  induction hi with
  | root h => exact .root h
  | aperture _ h ih => exact .aperture ih ((congrArg Prod.fst (hr _)).symm.trans h)
  | @part i j _ hj ih =>
    have e : (h' i).parts = (h i).parts := congrArg Prod.snd (hr i)
    exact .part ih (e ▸ hj)

/-! ## Operations -/

/-- A method that treats the primitives one after the other. -/
theorem copiedBy {fuel : ℕ} {method : GFile → Heap → GFile × Heap} {F : Heap → ℕ → Heap}
    {P : Gerber.Program → Gerber.Program} {Q : Gerber.Program → Prop} [DecidablePred Q]
    (hm : ∀ g h, method g h = ({ g with program := P g.program }, if Q g.program then g.primitives.foldl F h else h))
    (hF : ∀ φ S, Set.InjOn φ S → Natural φ S F) (hr : ∀ h i k, refsOf (F h i k) = refsOf (h k))
    {w : World} (hw : w.Closed) {f : GFile} (hf : ∀ i ∈ f.roots, i < w.next) {g : GFile} {w' : World}
    (h : onCopy fuel method w f = .ok (g, w')) : CopiedBy method w f w' g := by
  unfold onCopy at h
  obtain ⟨⟨g0, w0⟩, h1, h⟩ := Excellon.bindOk h
  cases h
  obtain ⟨φ, rfl, hold, hφ, hc⟩ := copyGerber_spec hw hf h1
  set S : Set ℕ := {i | Reach w.heap f.roots i} with hS
  have hsim : Sim φ S w.heap w0.heap := fun i hi => ⟨(hc i hi).2.2.2, fun j hj => .aperture hi hj, fun j hj => .part hi hj⟩
  have hprims : ∀ i ∈ f.primitives, i ∈ S := fun i hi => .root (List.mem_append_left _ hi)
  obtain ⟨a, b⟩ := sim_fold (hF φ S hφ) hsim hprims
  have hm1 := hm f w.heap
  have hm2 := hm ⟨f.program, f.primitives.map φ, .list (f.apertures.refs.map φ)⟩ w0.heap
  dsimp only at hm2
  have hsim' : Sim φ S (method f w.heap).2 (method ⟨f.program, f.primitives.map φ, .list (f.apertures.refs.map φ)⟩
      w0.heap).2 := by
    rw [hm1, hm2]
    dsimp only
    split
    · exact a
    · exact hsim
  have hframe : ∀ k, k ∉ φ '' S → (method ⟨f.program, f.primitives.map φ, .list (f.apertures.refs.map φ)⟩ w0.heap).2 k =
      w0.heap k := by
    intro k hk
    rw [hm2]
    dsimp only
    split
    · exact b k hk
    · rfl
  have hrefs : ∀ k, refsOf ((method f w.heap).2 k) = refsOf (w.heap k) := by
    intro k
    rw [hm1]
    dsimp only
    split
    · exact refs_fold hr _ _ _
    · rfl
  have hreach : ∀ i, Reach (method f w.heap).2 f.roots i → i ∈ S := fun i hi => reach_congr hrefs hi
  refine ⟨?_, ?_, ?_, φ, ?_, ?_, ?_, ?_⟩
  · intro i hi
    refine (hframe i ?_).trans (hold i hi)
    rintro ⟨k, hk, rfl⟩
    exact absurd hi (not_lt.mpr (hc k hk).2.1)
  · intro i hi
    have : ∃ k ∈ S, φ k = i := by
      induction hi with
      | root h =>
        rw [hm2] at h
        dsimp only [GFile.roots, Apertures.refs] at h
        rw [← List.map_append] at h
        obtain ⟨k, hk, rfl⟩ := List.mem_map.mp h
        exact ⟨k, .root hk, rfl⟩
      | aperture _ h ih =>
        obtain ⟨k, hk, rfl⟩ := ih
        obtain ⟨e, c1, -⟩ := hsim' k hk
        dsimp only at h
        rw [e] at h
        obtain ⟨j, hj, rfl⟩ := Option.map_eq_some_iff.mp h
        exact ⟨j, c1 j hj, rfl⟩
      | part _ h ih =>
        obtain ⟨k, hk, rfl⟩ := ih
        obtain ⟨e, -, c2⟩ := hsim' k hk
        dsimp only at h
        rw [e] at h
        obtain ⟨j, hj, rfl⟩ := List.mem_map.mp h
        exact ⟨j, c2 j hj, rfl⟩
    obtain ⟨k, hk, rfl⟩ := this
    exact ⟨(hc k hk).2.1, (hc k hk).2.2.1⟩
  · rw [hm1, hm2]
  · rw [hm2]
  · rw [hm2]
  · exact hφ.mono hreach
  · intro i hi
    exact (hsim' i (hreach i hi)).1

/-- **C78**, Gerber files with a list of apertures: `to_inch` of operations.py makes a copy that is what `to_inch()` would
make of the file, and leaves the file and everything else as it was.  Missing: see `C78_gerber_violated`,
`C78_stubs_violated`. -/
theorem C78_inch_partial {fuel : ℕ} {w : World} (hw : w.Closed) {f : GFile} (hf : ∀ i ∈ f.roots, i < w.next) {g : GFile}
    {w' : World} (h : toInch fuel w f = .ok (g, w')) : CopiedBy (GFile.toInch fuel) w f w' g := by
  refine copiedBy (F := Geom.toInch fuel) (P := Gerber.Program.toInch) (Q := fun p => p.units ≠ "inch") ?_
    (fun φ S hφ => convert_natural hφ _ _ _ fuel) (convert_keeps _ _ _ fuel) hw hf h
  intro g h
  unfold GFile.toInch
  split
  · rfl
  · next hu => rw [Gerber.Program.toInch, if_neg hu]

/-- **C78**, to millimetres. -/
theorem C78_metric_partial {fuel : ℕ} {w : World} (hw : w.Closed) {f : GFile} (hf : ∀ i ∈ f.roots, i < w.next) {g : GFile}
    {w' : World} (h : toMetric fuel w f = .ok (g, w')) : CopiedBy (GFile.toMetric fuel) w f w' g := by
  refine copiedBy (F := Geom.toMetric fuel) (P := Gerber.Program.toMetric) (Q := fun p => p.units ≠ "metric") ?_
    (fun φ S hφ => convert_natural hφ _ _ _ fuel) (convert_keeps _ _ _ fuel) hw hf h
  intro g h
  unfold GFile.toMetric
  split
  · rfl
  · next hu => rw [Gerber.Program.toMetric, if_neg hu]

/-- **C78**, moved. -/
theorem C78_offset_partial {fuel : ℕ} (dx dy : ℚ) {w : World} (hw : w.Closed) {f : GFile} (hf : ∀ i ∈ f.roots, i < w.next)
    {g : GFile} {w' : World} (h : offset fuel dx dy w f = .ok (g, w')) :
    CopiedBy (GFile.offset dx dy fuel) w f w' g :=
  copiedBy (F := Geom.offset dx dy fuel) (P := fun p => p.offset dx dy) (Q := fun _ => True) (fun _ _ => by simp [GFile.offset])
    (fun φ S hφ => offset_natural hφ _ _ fuel) (offset_keeps _ _ fuel) hw hf h

/-! ## When copying ends -/

/-- Chains of references from the object end within `n` steps. -/
inductive Shallow (h : Heap) : ℕ → ℕ → Prop
  | intro {n i : ℕ} : (∀ j, (h i).aperture = some j → Shallow h n j) → (∀ j ∈ (h i).parts, Shallow h n j) →
    Shallow h (n + 1) i

theorem copyList_ok {σ : Type} {I : σ → Prop} {copy : σ → ℕ → PyR (ℕ × σ)} {l : List ℕ}
    (hc : ∀ s i, I s → i ∈ l → ∃ j t, copy s i = .ok (j, t) ∧ I t) : ∀ {s}, I s → ∃ js t, copyList copy s l = .ok (js, t) ∧ I t := by
  induction l with
  | nil => exact fun hs => ⟨_, _, rfl, hs⟩
  | cons i l ih =>
    intro s hs
    obtain ⟨j, t, h1, ht⟩ := hc s i hs (by simp)
    obtain ⟨js, u, h2, hu⟩ := ih (fun s i hs hi => hc s i hs (by simp [hi])) ht
    exact ⟨j :: js, u, by simp only [copyList, h1, h2, bind, Except.bind], hu⟩

theorem copyObj_ok {w : World} (hw : w.Closed) {n i : ℕ} (hn : Shallow w.heap n i) (hi : i < w.next) {s : Copying}
    (hs : Inv w s) : ∃ j t, copyObj n s i = .ok (j, t) ∧ Inv w t := by
  suffices h : ∃ x, copyObj n s i = .ok x by
    obtain ⟨⟨j, t⟩, h⟩ := h
    exact ⟨j, t, h, (copyObj_step hw n hs hi h).inv⟩
  induction hn generalizing s with
  | @intro n i ha hp iha ihp =>
    unfold copyObj
    split
    · exact ⟨_, rfl⟩
    · next hk =>
      obtain ⟨c1, c2⟩ := hw i hi
      have hold : s.heap i = w.heap i := hs.old i hi
      have h0 : Inv w { s with next := s.next + 1, memo := (i, s.next) :: s.memo } := by
        refine ⟨hs.old, hs.next.trans (Nat.le_succ _), ?_, ?_, ?_⟩
        · intro x hx
          rcases List.mem_cons.mp hx with rfl | hx
          · exact ⟨hi, hs.next, Nat.lt_succ_self _⟩
          · obtain ⟨a, b, c⟩ := hs.range x hx
            exact ⟨a, b, c.trans (Nat.lt_succ_self _)⟩
        · rw [List.map_cons, List.nodup_cons]
          exact ⟨get_none.mp hk, hs.keys⟩
        · rw [List.map_cons, List.nodup_cons]
          refine ⟨fun hm => ?_, hs.vals⟩
          obtain ⟨x, hx, e⟩ := List.mem_map.mp hm
          exact absurd (hs.range x hx).2.2 (by rw [e]; exact lt_irrefl _)
      obtain ⟨ap, t, h1, ht⟩ := copyList_ok (I := Inv w) (copy := copyObj n) (l := (s.heap i).aperture.toList) (by
        intro s' j hs' hj
        rw [hold, Option.mem_toList] at hj
        obtain ⟨⟨k, t⟩, h⟩ := iha j hj (c1 j hj) hs'
        exact ⟨k, t, h, (copyObj_step hw n hs' (c1 j hj) h).inv⟩) h0
      obtain ⟨ps, u, h2, -⟩ := copyList_ok (I := Inv w) (copy := copyObj n) (l := (s.heap i).parts) (by
        intro s' j hs' hj
        rw [hold] at hj
        obtain ⟨⟨k, t⟩, h⟩ := ihp j hj (c2 j hj) hs'
        exact ⟨k, t, h, (copyObj_step hw n hs' (c2 j hj) h).inv⟩) ht
      simp only [h1, h2, bind, Except.bind]
      exact ⟨_, rfl⟩

/-- **C78.** Copies are made of all files with a list of apertures whose objects are not nested too deeply, by all methods. -/
theorem C78_total_partial {fuel : ℕ} (method : GFile → Heap → GFile × Heap) {w : World} (hw : w.Closed) {f : GFile}
    {l : List ℕ} (ha : f.apertures = .list l) (hf : ∀ i ∈ f.roots, i < w.next ∧ Shallow w.heap fuel i) :
    ∃ g w', onCopy fuel method w f = .ok (g, w') := by
  have h0 : Inv w ⟨w.heap, w.next, []⟩ := ⟨fun _ _ => rfl, le_rfl, by simp, List.nodup_nil, List.nodup_nil⟩
  have hroots : f.roots = f.primitives ++ l := by rw [GFile.roots, ha]; rfl
  obtain ⟨ps, s, h1, hs⟩ := copyList_ok (I := Inv w) (copy := copyObj fuel) (l := f.primitives) (by
    intro s' j hs' hj
    obtain ⟨a, b⟩ := hf j (by rw [hroots]; simp [hj])
    exact copyObj_ok hw b a hs') h0
  obtain ⟨as, t, h2, -⟩ := copyList_ok (I := Inv w) (copy := copyObj fuel) (l := l) (by
    intro s' j hs' hj
    obtain ⟨a, b⟩ := hf j (by rw [hroots]; simp [hj])
    exact copyObj_ok hw b a hs') hs
  unfold onCopy copyGerber
  simp only [h1, h2, ha, bind, Except.bind]
  exact ⟨_, _, rfl⟩

/-- Two lines with one aperture, which the file lists, too. -/
example : ∃ (w : World) (f : GFile) (l : List ℕ), w.Closed ∧ f.apertures = .list l ∧
    (∀ i ∈ f.roots, i < w.next ∧ Shallow w.heap 3 i) ∧ (w.heap 0).aperture = (w.heap 1).aperture ∧
    f.program.units = "inch" ∧ f.roots = [0, 1, 2] := by
  let o : Obj := ⟨.line, some "inch", 0, fun _ => some (0, 0), fun _ => none, "", "", some 2, [], 0, [], none, none, none⟩
  let c : Obj := ⟨.circle, some "inch", 0, fun _ => some (0, 0), fun _ => some 1, "", "", none, [], 0, [], none, none, none⟩
  let h : Heap := fun i => if i = 2 then c else o
  have hc : ∀ n, Shallow h (n + 1) 2 := fun n => .intro (fun j hj => (by cases hj)) (fun j hj => (by cases hj))
  have ho : ∀ i, i ≠ 2 → Shallow h 3 i := by
    intro i hi
    refine .intro (fun j hj => ?_) (fun j hj => ?_)
    · simp only [h, if_neg hi] at hj
      cases hj
      exact hc 1
    · simp only [h, if_neg hi] at hj
      cases hj
  refine ⟨⟨h, 3⟩, ⟨⟨[], "inch"⟩, [0, 1], .list [2]⟩, [2], ?_, rfl, ?_, rfl, rfl, rfl⟩
  · intro i hi
    constructor
    · intro j hj
      by_cases h2 : i = 2
      · simp only [h, if_pos h2] at hj
        cases hj
      · simp only [h, if_neg h2] at hj
        cases hj
        norm_num
    · intro j hj
      by_cases h2 : i = 2
      · simp only [h, if_pos h2] at hj
        cases hj
      · simp only [h, if_neg h2] at hj
        cases hj
  · intro i hi
    simp only [GFile.roots, Apertures.refs, List.cons_append, List.nil_append, List.mem_cons, List.not_mem_nil,
      or_false] at hi
    rcases hi with rfl | rfl | rfl
    · exact ⟨by norm_num, ho 0 (by norm_num)⟩
    · exact ⟨by norm_num, ho 1 (by norm_num)⟩
    · exact ⟨by norm_num, hc 2⟩

/-- **C78 fails** for every Gerber file that was read: none of the operations gives a result. -/
theorem C78_gerber_violated (fuel : ℕ) (w : World) (p : Gerber.Program) (prims aps : List ℕ) (dx dy : ℚ)
    (r : GFile × World) : toInch fuel w (parsed p prims aps) ≠ .ok r ∧ toMetric fuel w (parsed p prims aps) ≠ .ok r ∧
      offset fuel dx dy w (parsed p prims aps) ≠ .ok r := by
  have : ∀ method, onCopy fuel method w (parsed p prims aps) ≠ .ok r := by
    intro method h
    unfold onCopy at h
    obtain ⟨_, h1, -⟩ := Excellon.bindOk h
    unfold copyGerber at h1
    obtain ⟨_, -, h1⟩ := Excellon.bindOk h1
    cases h1
  exact ⟨this _, this _, this _⟩

/-- **C78 fails** for `scale` and `rotate`, whatever the file. -/
theorem C78_stubs_violated {F : Type} (f : F) (x y : ℚ) : (∀ g, scale x y f ≠ some g) ∧ ∀ g, rotate x f ≠ some g :=
  ⟨fun _ h => (by cases h), fun _ h => (by cases h)⟩

end Verif.Operations
