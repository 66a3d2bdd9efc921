import Verif.Props.Move

/-! # Unit conversion of primitives that share apertures (C09) -/

namespace Verif.Geom

/-- What a conversion does to one object, in one formula. -/
theorem convertOwn_eq (f : ℝ → ℝ) (u : String) (o : Obj) : o.convertOwn f u =
    { o with
      units := some u
      pts := fun a => if a ∈ ptConvert o.kind then (o.pts a).map (fun p => (f p.1, f p.2))
        else o.pts a
      nums := fun a => if a ∈ numConvert o.kind then (o.nums a).map f else o.nums a
      box := none, vertices := none, segs := none } := by
  have hp : ∀ (x : Obj) (a : PA) (v : Option RPt), x.box = none ∧ x.vertices = none ∧ x.segs = none →
      x.setPt a v = { x with pts := Function.update x.pts a v } := by
    intro x a v hx
    unfold Obj.setPt
    simp only
    split
    · simp only [Obj.changed, hx.1, hx.2.1, hx.2.2]
    · rfl
  have hn : ∀ (x : Obj) (a : NA) (v : Option ℝ), x.box = none ∧ x.vertices = none ∧ x.segs = none →
      x.setNum a v = { x with nums := Function.update x.nums a v } := by
    intro x a v hx
    unfold Obj.setNum
    simp only
    split
    · simp only [Obj.changed, hx.1, hx.2.1, hx.2.2]
    · rfl
  have hpf : ∀ (g : PA → Option RPt) (l : List PA) (x : Obj), x.box = none ∧ x.vertices = none ∧ x.segs = none →
      l.foldl (fun x a => x.setPt a (g a)) x =
        { x with pts := fun a => if a ∈ l then g a else x.pts a } := by
    intro g l
    induction l with
    | nil => intro x _; simp
    | cons a l ih =>
      intro x hx
      rw [List.foldl_cons, hp x a _ hx]
      refine (ih _ ?_).trans ?_
      · exact hx
      simp only [Obj.mk.injEq, true_and, and_true]
      funext b
      by_cases hb : b ∈ l
      · simp [hb]
      · by_cases hba : b = a
        · subst hba; simp [hb]
        · simp [hb, hba]
  have hnf : ∀ (g : NA → Option ℝ) (l : List NA) (x : Obj), x.box = none ∧ x.vertices = none ∧ x.segs = none →
      l.foldl (fun x a => x.setNum a (g a)) x =
        { x with nums := fun a => if a ∈ l then g a else x.nums a } := by
    intro g l
    induction l with
    | nil => intro x _; simp
    | cons a l ih =>
      intro x hx
      rw [List.foldl_cons, hn x a _ hx]
      refine (ih _ ?_).trans ?_
      · exact hx
      simp only [Obj.mk.injEq, true_and, and_true]
      funext b
      by_cases hb : b ∈ l
      · simp [hb]
      · by_cases hba : b = a
        · subst hba; simp [hb]
        · simp [hb, hba]
  unfold Obj.convertOwn
  simp only
  rw [hpf _ _ _ ⟨rfl, rfl, rfl⟩, hnf _ _ _ ⟨rfl, rfl, rfl⟩]
  rfl

/-- Converting and converting back restores an object. -/
theorem convertOwn_back {f g : ℝ → ℝ} (hgf : ∀ x, g (f x) = x) {u v : String} {o : Obj}
    (hu : o.units = some v) : ((o.convertOwn f u).convertOwn g v) = o.changed := by
  rw [convertOwn_eq, convertOwn_eq]
  have e1 : (fun a => if a ∈ ptConvert o.kind then
      (if a ∈ ptConvert o.kind then (o.pts a).map (fun p => (f p.1, f p.2)) else o.pts a).map
        (fun p => (g p.1, g p.2))
      else if a ∈ ptConvert o.kind then (o.pts a).map (fun p => (f p.1, f p.2)) else o.pts a) =
      o.pts := by
    funext a
    split
    · cases o.pts a <;> simp [hgf]
    · rfl
  have e2 : (fun a => if a ∈ numConvert o.kind then
      (if a ∈ numConvert o.kind then (o.nums a).map f else o.nums a).map g
      else if a ∈ numConvert o.kind then (o.nums a).map f else o.nums a) = o.nums := by
    funext a
    split
    · cases o.nums a <;> simp [hgf]
    · rfl
  simp only [Obj.changed, ← hu]
  rw [e1, e2]

/-- `k` is reached from `i` by a conversion: through objects in the unit `src`, from lines and arcs to
apertures and from regions, outlines and macro apertures to their parts. -/
inductive Reach (h : Heap) (src : String) : ℕ → ℕ → Prop
  | self {i} : (h i).units = some src → Reach h src i i
  | child {i j k} : (h i).units = some src → j ∈ (h i).children → Reach h src j k →
      Reach h src i k

open Classical in
/-- The heap with the objects of `D` converted. -/
noncomputable def converted (f : ℝ → ℝ) (dst : String) (h : Heap) (D : Set ℕ) : Heap :=
  fun k => if k ∈ D then (h k).convertOwn f dst else h k

theorem convertOwn_congr {f : ℝ → ℝ} {u : String} {o o' : Obj} (h : o'.changed = o.changed) :
    o'.convertOwn f u = o.convertOwn f u := by
  rw [convertOwn_eq, convertOwn_eq]
  cases o
  cases o'
  simp only [Obj.changed, Obj.mk.injEq] at h
  simp_all

theorem reach_units {h : Heap} {src : String} {i k : ℕ} (hr : Reach h src i k) :
    (h i).units = some src ∧ (h k).units = some src := by
  induction hr with
  | self h => exact ⟨h, h⟩
  | child h _ _ ih => exact ⟨h, ih.2⟩

theorem reach_closed {h : Heap} {src : String} {i k j : ℕ} (hr : Reach h src i k)
    (hj : j ∈ (h k).children) (hu : (h j).units = some src) : Reach h src i j := by
  induction hr with
  | self h => exact .child h hj (.self hu)
  | child h hc _ ih => exact .child h hc (ih hj)

open Classical in
/-- One call converts exactly what it reaches and what was converted before. -/
theorem convert_spec {f : ℝ → ℝ} {src dst : String} (hne : src ≠ dst) {h0 : Heap} {rank : ℕ → ℕ}
    (hrank : ∀ k, ∀ j ∈ (h0 k).children, rank j < rank k) (n : ℕ) :
    ∀ (i : ℕ) (H : Heap) (D : Set ℕ), rank i < n → SameAttr (converted f dst h0 D) H →
      (∀ d ∈ D, rank d ≤ rank i → ∀ j ∈ (h0 d).children, (h0 j).units = some src → j ∈ D) →
      (∀ d ∈ D, (h0 d).units = some src) →
      SameAttr (converted f dst h0 (D ∪ {k | Reach h0 src i k})) (convert f src dst n H i) := by
  induction n with
  | zero => intro i H D hn; exact absurd hn (Nat.not_lt_zero _)
  | succ n ih =>
    intro i H D hn hH hcl hD
    have hunits : ∀ k, (H k).units = if k ∈ D then some dst else (h0 k).units := by
      intro k
      have := congrArg Obj.units (hH k)
      have h1 : (H k).units = (converted f dst h0 D k).units := this
      rw [h1, converted]
      split
      · rw [convertOwn_eq]
      · rfl
    have hchild : ∀ k, (H k).children = (h0 k).children := by
      intro k
      have h1 : (H k).children = (converted f dst h0 D k).children := by
        have := congrArg Obj.children (hH k)
        exact this
      rw [h1, converted]
      split
      · rw [convertOwn_eq]
        rfl
      · rfl
    simp only [Geom.convert]
    by_cases hiD : i ∈ D
    · rw [if_neg (by rw [hunits, if_pos hiD]; simpa using Ne.symm hne)]
      have hsub : D ∪ {k | Reach h0 src i k} = D := by
        refine Set.union_eq_left.2 fun k hk => ?_
        have aux : ∀ a b, Reach h0 src a b → rank a ≤ rank i → a ∈ D → b ∈ D := by
          intro a b hab
          induction hab with
          | self _ => exact fun _ ha => ha
          | child hu hc hr ih' =>
            intro hra ha
            have hju := (reach_units hr).1
            exact ih' (le_trans (hrank _ _ hc).le hra) (hcl _ ha hra _ hc hju)
        exact aux i k hk le_rfl hiD
      rw [hsub]
      exact hH
    · by_cases hu : (h0 i).units = some src
      swap
      · rw [if_neg (by rw [hunits, if_neg hiD]; exact hu)]
        have hsub : D ∪ {k | Reach h0 src i k} = D := by
          refine Set.union_eq_left.2 fun k hk => ?_
          exact absurd (reach_units hk).1 hu
        rw [hsub]
        exact hH
      · rw [if_pos (by rw [hunits, if_neg hiD]; exact hu), hchild]
        have hH1 : SameAttr (converted f dst h0 (D ∪ {i}))
            (Function.update H i ((H i).convertOwn f dst)) := by
          intro k
          by_cases hki : k = i
          · subst hki
            rw [Function.update_self, converted, if_pos (by simp)]
            have : (H k).changed = (h0 k).changed := by
              rw [hH k, converted, if_neg hiD]
            rw [convertOwn_congr this]
          · rw [Function.update_of_ne hki, hH k, converted, converted]
            simp [hki]
        -- the children one after the other
        have fold : ∀ (l : List ℕ), (∀ j ∈ l, j ∈ (h0 i).children) → ∀ (H : Heap) (E : Set ℕ),
            i ∈ E → SameAttr (converted f dst h0 E) H →
            (∀ d ∈ E, rank d < rank i → ∀ j ∈ (h0 d).children, (h0 j).units = some src → j ∈ E) →
            (∀ d ∈ E, (h0 d).units = some src) →
            SameAttr (converted f dst h0 (E ∪ {k | ∃ j ∈ l, Reach h0 src j k}))
              (l.foldl (convert f src dst n) H) := by
          intro l
          induction l with
          | nil =>
            intro _ H E _ hH _ _
            simpa using hH
          | cons j l ihl =>
            intro hl H E hiE hH hcl hE
            have hj := hrank i j (hl j (by simp))
            have h1 := ih j H E (by omega) hH (fun d hd hr => hcl d hd (by omega)) hE
            have h2 := ihl (fun j hj => hl j (by simp [hj])) _ _ (.inl hiE) h1 ?_ ?_
            · rw [List.foldl_cons]
              have : E ∪ {k | ∃ j' ∈ j :: l, Reach h0 src j' k} =
                  (E ∪ {k | Reach h0 src j k}) ∪ {k | ∃ j ∈ l, Reach h0 src j k} := by
                ext k
                simp [or_assoc]
              rw [this]
              exact h2
            · rintro d (hd | hd) hr j' hj' hu'
              · exact .inl (hcl d hd hr j' hj' hu')
              · exact .inr (reach_closed hd hj' hu')
            · rintro d (hd | hd)
              · exact hE d hd
              · exact (reach_units hd).2
        have h3 := fold (h0 i).children (fun _ h => h) _ (D ∪ {i}) (by simp) hH1 ?_ ?_
        · have : D ∪ {i} ∪ {k | ∃ j ∈ (h0 i).children, Reach h0 src j k} =
              D ∪ {k | Reach h0 src i k} := by
            ext k
            simp only [Set.mem_union, Set.mem_singleton_iff, Set.mem_ofPred_eq, or_assoc]
            refine or_congr_right ?_
            constructor
            · rintro (rfl | ⟨j, hj, hr⟩)
              · exact .self hu
              · exact .child hu hj hr
            · intro hr
              cases hr with
              | self _ => exact .inl rfl
              | child _ hj hr => exact .inr ⟨_, hj, hr⟩
          rw [← this]
          exact h3
        · rintro d (hd | hd) hr j hj hju
          · exact .inl (hcl d hd hr.le j hj hju)
          · rw [Set.mem_singleton_iff] at hd
            subst hd
            exact absurd hr (lt_irrefl _)
        · rintro d (hd | hd)
          · exact hD d hd
          · rw [Set.mem_singleton_iff] at hd
            subst hd
            exact hu

/-- Converting several primitives: everything reached from any of them is converted exactly once, however
often it is shared; nothing else changes. -/
theorem convertAll_spec {f : ℝ → ℝ} {src dst : String} (hne : src ≠ dst) {h0 : Heap} {rank : ℕ → ℕ}
    (hrank : ∀ k, ∀ j ∈ (h0 k).children, rank j < rank k) (n : ℕ) (l : List ℕ)
    (hn : ∀ i ∈ l, rank i < n) {H : Heap} (hH : SameAttr h0 H) :
    SameAttr (converted f dst h0 {k | ∃ i ∈ l, Reach h0 src i k})
      (l.foldl (convert f src dst n) H) := by
  have gen : ∀ (l : List ℕ), (∀ i ∈ l, rank i < n) → ∀ (H : Heap) (D : Set ℕ),
      SameAttr (converted f dst h0 D) H →
      (∀ d ∈ D, ∀ j ∈ (h0 d).children, (h0 j).units = some src → j ∈ D) →
      (∀ d ∈ D, (h0 d).units = some src) →
      SameAttr (converted f dst h0 (D ∪ {k | ∃ i ∈ l, Reach h0 src i k}))
        (l.foldl (convert f src dst n) H) := by
    intro l
    induction l with
    | nil => intro _ H D hH _ _; simpa using hH
    | cons i l ih =>
      intro hn H D hH hcl hD
      have h1 := convert_spec hne hrank n i H D (hn i (by simp)) hH (fun d hd _ => hcl d hd) hD
      have h2 := ih (fun i hi => hn i (by simp [hi])) _ _ h1 ?_ ?_
      · rw [List.foldl_cons]
        have : D ∪ {k | ∃ i' ∈ i :: l, Reach h0 src i' k} =
            (D ∪ {k | Reach h0 src i k}) ∪ {k | ∃ i ∈ l, Reach h0 src i k} := by
          ext k
          simp [or_assoc]
        rw [this]
        exact h2
      · rintro d (hd | hd) j hj hu
        · exact .inl (hcl d hd j hj hu)
        · exact .inr (reach_closed hd hj hu)
      · rintro d (hd | hd)
        · exact hD d hd
        · exact (reach_units hd).2
  have := gen l hn H ∅ (by
    intro k
    rw [hH k, converted, if_neg (by simp)]) (by simp) (by simp)
  simpa using this

/-! ## Single calls in any order -/

/-- A call of `to_inch` or `to_metric` on one primitive. -/
inductive Call
  | inch (i : ℕ)
  | metric (i : ℕ)

/-- What it does. -/
noncomputable def Call.run (n : ℕ) (h : Heap) : Call → Heap
  | .inch i => toInch n h i
  | .metric i => toMetric n h i

/-- The same object in the other unit. -/
noncomputable def Obj.flip (o : Obj) : Obj :=
  if o.units = some "metric" then o.convertOwn (· / (127 / 5)) "inch"
  else if o.units = some "inch" then o.convertOwn (· * (127 / 5)) "metric"
  else o

theorem flip_flip (o : Obj) : o.flip.flip.changed = o.changed := by
  have hu : ∀ (f : ℝ → ℝ) (u : String) (x : Obj), (x.convertOwn f u).units = some u := by
    intro f u x
    rw [convertOwn_eq]
  have hc : ∀ (f : ℝ → ℝ) (u : String) (x : Obj),
      (x.convertOwn f u).changed = x.convertOwn f u := by
    intro f u x
    rw [convertOwn_eq]
    rfl
  by_cases h1 : o.units = some "metric"
  · rw [Obj.flip.eq_def o, if_pos h1, Obj.flip.eq_def, hu, if_neg (by decide), if_pos rfl, hc,
      convertOwn_back (fun x => by field_simp) h1]
  · by_cases h2 : o.units = some "inch"
    · rw [Obj.flip.eq_def o, if_neg h1, if_pos h2, Obj.flip.eq_def, hu, if_pos rfl, hc,
        convertOwn_back (fun x => by field_simp) h2]
    · rw [Obj.flip.eq_def o, if_neg h1, if_neg h2, Obj.flip.eq_def, if_neg h1, if_neg h2]

theorem flip_congr {o o' : Obj} (h : o'.changed = o.changed) : o'.flip.changed = o.flip.changed := by
  have hu : o'.units = o.units := by
    have := congrArg Obj.units h
    exact this
  rw [Obj.flip.eq_def o', Obj.flip.eq_def o, hu]
  split
  · rw [convertOwn_congr h]
  · split
    · rw [convertOwn_congr h]
    · exact h

/-- Every object of `H` is the object of `h` or that object in the other unit. -/
def Flipped (h H : Heap) : Prop :=
  ∀ k, (H k).changed = (h k).changed ∨ (H k).changed = (h k).flip.changed

theorem flipped_step {h H : Heap} (hf : Flipped h H) {f : ℝ → ℝ} {src dst : String}
    (hflip : ∀ o : Obj, o.units = some src → o.flip = o.convertOwn f dst) (n : ℕ) :
    ∀ i, Flipped h (convert f src dst n H i) := by
  induction n generalizing H with
  | zero => exact fun _ => hf
  | succ n ih =>
    intro i
    simp only [Geom.convert]
    split
    · rename_i hu
      have h1 : Flipped h (Function.update H i ((H i).convertOwn f dst)) := by
        intro k
        by_cases hk : k = i
        · subst hk
          rw [Function.update_self, ← hflip _ hu]
          rcases hf k with h | h
          · exact .inr (flip_congr h)
          · refine .inl ?_
            rw [flip_congr h, flip_flip]
        · rw [Function.update_of_ne hk]
          exact hf k
      generalize (H i).children = l
      revert h1
      generalize Function.update H i ((H i).convertOwn f dst) = H1
      intro h1
      induction l generalizing H1 with
      | nil => exact h1
      | cons j l ihl => exact ihl _ (ih h1 j)
    · exact hf

theorem flipped_run {h : Heap} (n : ℕ) (calls : List Call) {H : Heap} (hf : Flipped h H) :
    Flipped h (calls.foldl (Call.run n) H) := by
  induction calls generalizing H with
  | nil => exact hf
  | cons c calls ih =>
    refine ih ?_
    cases c with
    | inch i => exact flipped_step hf (fun o hu => by rw [Obj.flip, if_pos hu]) n i
    | metric i =>
      exact flipped_step hf (fun o hu => by
        rw [Obj.flip, if_neg (by rw [hu]; decide), if_pos hu]) n i

theorem flip_units {o : Obj} (h : o.flip.units = o.units) : o.flip = o := by
  unfold Obj.flip at h ⊢
  split
  · rename_i hu
    rw [if_pos hu, convertOwn_eq, hu] at h
    simp at h
  · split
    · rename_i h1 hu
      rw [if_neg h1, if_pos hu, convertOwn_eq, hu] at h
      simp at h
    · rfl

/-- **C09.** After any calls of `to_inch` and `to_metric` on any primitives in any order, whatever they
share, every primitive is either as it was or converted exactly once to the other unit; if it is again in
the unit it started in, every dimension is restored. -/
theorem C09_primitives (n : ℕ) (h : Heap) (calls : List Call) (k : ℕ) :
    ((calls.foldl (Call.run n) h k).changed = (h k).changed ∨
      (calls.foldl (Call.run n) h k).changed = (h k).flip.changed) ∧
    ((calls.foldl (Call.run n) h k).units = (h k).units →
      (calls.foldl (Call.run n) h k).changed = (h k).changed) := by
  have hf := flipped_run n calls (h := h) (H := h) (fun _ => .inl rfl) k
  refine ⟨hf, fun hu => ?_⟩
  rcases hf with h1 | h1
  · exact h1
  · rw [h1]
    have : (h k).flip.units = (h k).units := by
      rw [← hu]
      have := congrArg Obj.units h1
      exact this.symm
    rw [flip_units this]

/-! ## Converting whole files -/

/-- Converting all the primitives `l` of a file. -/
noncomputable def convertFile (n : ℕ) (l : List ℕ) (h : Heap) (metric : Bool) : Heap :=
  if metric then l.foldl (toMetric n) h else l.foldl (toInch n) h

/-- `k` belongs to the file: one of its primitives, their apertures and parts. -/
inductive Belongs (h : Heap) (l : List ℕ) : ℕ → Prop
  | root {i} : i ∈ l → Belongs h l i
  | child {i j} : Belongs h l i → j ∈ (h i).children → Belongs h l j

theorem children_converted (f : ℝ → ℝ) (dst : String) (h : Heap) (D : Set ℕ) (k : ℕ) :
    (converted f dst h D k).children = (h k).children := by
  rw [converted]
  split
  · rw [convertOwn_eq]
    rfl
  · rfl

theorem sameAttr_refl (h : Heap) : SameAttr h h := fun _ => rfl

section
variable {f g : ℝ → ℝ} {src dst : String} {h : Heap} {rank : ℕ → ℕ} {n : ℕ} {l : List ℕ}

/-- Objects converted by a call on the whole file. -/
def fileSet (h : Heap) (src : String) (l : List ℕ) : Set ℕ := {k | ∃ i ∈ l, Reach h src i k}

theorem reach_back (hun : ∀ k, Belongs h l k → (h k).units ≠ some dst) {i k : ℕ}
    (hi : Belongs h l i) (hD : (h i).units = some src → i ∈ fileSet h src l) :
    Reach (converted f dst h (fileSet h src l)) dst i k ↔ Reach h src i k := by
  have hu1 : ∀ i, Belongs h l i → ((converted f dst h (fileSet h src l) i).units = some dst ↔
      i ∈ fileSet h src l) := by
    intro i hi
    rw [converted]
    split
    · rename_i hm
      simp only [hm, iff_true]
      rw [convertOwn_eq]
    · rename_i hm
      simp only [hm, iff_false]
      exact hun i hi
  constructor
  · intro hr
    induction hr with
    | self hu =>
      obtain ⟨r, -, hr⟩ := (hu1 _ hi).1 hu
      exact .self (reach_units hr).2
    | child hu hc hr ih =>
      rw [children_converted] at hc
      have hm := (hu1 _ hi).1 hu
      obtain ⟨r, hrl, hr'⟩ := hm
      refine .child (reach_units hr').2 hc (ih (.child hi hc) fun hju => ?_)
      exact ⟨r, hrl, reach_closed hr' hc hju⟩
  · intro hr
    induction hr with
    | self hu => exact .self ((hu1 _ hi).2 (hD hu))
    | child hu hc hr ih =>
      obtain ⟨r, hrl, hr'⟩ := hD hu
      refine .child ((hu1 _ hi).2 (hD hu)) (by rwa [children_converted]) (ih (.child hi hc) ?_)
      exact fun hju => ⟨r, hrl, reach_closed hr' hc hju⟩

theorem root_mem {i : ℕ} (hi : i ∈ l) (hu : (h i).units = some src) : i ∈ fileSet h src l :=
  ⟨i, hi, .self hu⟩

theorem fileSet_back (hun : ∀ k, Belongs h l k → (h k).units ≠ some dst) :
    fileSet (converted f dst h (fileSet h src l)) dst l = fileSet h src l := by
  ext k
  constructor
  · rintro ⟨i, hi, hr⟩
    exact ⟨i, hi, (reach_back hun (.root hi) (root_mem hi)).1 hr⟩
  · rintro ⟨i, hi, hr⟩
    exact ⟨i, hi, (reach_back hun (.root hi) (root_mem hi)).2 hr⟩

/-- Converting an unconverted file. -/
theorem step_convert (hne : src ≠ dst) (hrank : ∀ k, ∀ j ∈ (h k).children, rank j < rank k)
    (hn : ∀ i ∈ l, rank i < n) {H : Heap} (hH : SameAttr h H) :
    SameAttr (converted f dst h (fileSet h src l)) (l.foldl (convert f src dst n) H) :=
  convertAll_spec hne hrank n l hn hH

/-- Converting a file to the unit it has. -/
theorem step_same (hne : src ≠ dst) (hrank : ∀ k, ∀ j ∈ (h k).children, rank j < rank k)
    (hn : ∀ i ∈ l, rank i < n) (hun : ∀ i ∈ l, (h i).units ≠ some dst) {H : Heap}
    (hH : SameAttr h H) : SameAttr h (l.foldl (convert g dst src n) H) := by
  have := step_convert (f := g) (Ne.symm hne) hrank hn hH
  have he : fileSet h dst l = ∅ := by
    ext k
    simp only [Set.mem_empty_iff_false, iff_false]
    rintro ⟨i, hi, hr⟩
    exact hun i hi (reach_units hr).1
  rw [he] at this
  intro k
  rw [this k, converted, if_neg (by simp)]

/-- Converting back. -/
theorem step_back (hne : src ≠ dst) (hgf : ∀ x, g (f x) = x)
    (hrank : ∀ k, ∀ j ∈ (h k).children, rank j < rank k) (hn : ∀ i ∈ l, rank i < n)
    (hun : ∀ k, Belongs h l k → (h k).units ≠ some dst) {H : Heap}
    (hH : SameAttr (converted f dst h (fileSet h src l)) H) :
    SameAttr h (l.foldl (convert g dst src n) H) := by
  have := step_convert (f := g) (rank := rank) (Ne.symm hne)
    (by intro k; rw [children_converted]; exact hrank k) hn hH
  rw [fileSet_back hun] at this
  intro k
  rw [this k, converted, converted]
  split
  · rename_i hm
    obtain ⟨i, -, hr⟩ := hm
    rw [convertOwn_back hgf (reach_units hr).2]
    rfl
  · rfl

/-- Any sequence of conversions of a file in one unit. -/
theorem file_sequence (hne : src ≠ dst) (hgf : ∀ x, g (f x) = x)
    (hrank : ∀ k, ∀ j ∈ (h k).children, rank j < rank k) (hn : ∀ i ∈ l, rank i < n)
    (hun : ∀ k, Belongs h l k → (h k).units ≠ some dst) (calls : List Bool) (last : Bool) :
    SameAttr (if last then converted f dst h (fileSet h src l) else h)
      ((calls ++ [last]).foldl (fun H b => if b then l.foldl (convert f src dst n) H
        else l.foldl (convert g dst src n) H) h) := by
  have hone : ∀ H, SameAttr (converted f dst h (fileSet h src l)) H →
      SameAttr (converted f dst h (fileSet h src l)) (l.foldl (convert f src dst n) H) := by
    intro H hH
    refine step_same (rank := rank) (h := converted f dst h (fileSet h src l)) (Ne.symm hne)
      (by intro k; rw [children_converted]; exact hrank k) hn ?_ hH
    intro i hi
    rw [converted]
    split
    · rw [convertOwn_eq]
      simpa using hne.symm
    · rename_i hm
      exact fun hu => hm (root_mem hi hu)
  have key : ∀ (b : Bool) (H : Heap),
      (SameAttr h H ∨ SameAttr (converted f dst h (fileSet h src l)) H) →
      SameAttr (if b then converted f dst h (fileSet h src l) else h)
        (if b then l.foldl (convert f src dst n) H else l.foldl (convert g dst src n) H) := by
    intro b H hH
    cases b with
    | true =>
      rcases hH with hH | hH
      · exact step_convert hne hrank hn hH
      · exact hone H hH
    | false =>
      rcases hH with hH | hH
      · exact step_same hne hrank hn (fun i hi => hun i (.root hi)) hH
      · exact step_back hne hgf hrank hn hun hH
  have inv : ∀ (calls : List Bool) (H : Heap),
      (SameAttr h H ∨ SameAttr (converted f dst h (fileSet h src l)) H) →
      (SameAttr h (calls.foldl (fun H b => if b then l.foldl (convert f src dst n) H
          else l.foldl (convert g dst src n) H) H) ∨
        SameAttr (converted f dst h (fileSet h src l)) (calls.foldl (fun H b =>
          if b then l.foldl (convert f src dst n) H else l.foldl (convert g dst src n) H) H)) := by
    intro calls
    induction calls with
    | nil => exact fun H hH => hH
    | cons b calls ih =>
      intro H hH
      refine ih _ ?_
      have := key b H hH
      cases b
      · exact .inl this
      · exact .inr this
  rw [List.foldl_append]
  exact key last _ (inv calls h (.inl (sameAttr_refl h)))
end

/-- **C09.** A file whose primitives are nested acyclically and none of whose objects is in inches: after
any sequence of conversions of the whole file, every object is as it was if the last conversion was to
metric, and every metric object was converted exactly once, however many primitives share it, if the last
was to inches. -/
theorem C09_file_metric {h : Heap} {rank : ℕ → ℕ} {n : ℕ} {l : List ℕ}
    (hrank : ∀ k, ∀ j ∈ (h k).children, rank j < rank k) (hn : ∀ i ∈ l, rank i < n)
    (hun : ∀ k, Belongs h l k → (h k).units ≠ some "inch") (calls : List Bool) :
    SameAttr h ((calls ++ [true]).foldl (convertFile n l) h) ∧
    SameAttr (converted (· / (127 / 5)) "inch" h (fileSet h "metric" l))
      ((calls ++ [false]).foldl (convertFile n l) h) := by
  have key := fun last => file_sequence (f := (· / (127 / 5 : ℝ))) (g := (· * (127 / 5 : ℝ)))
    (src := "metric") (dst := "inch") (by decide) (fun x => by field_simp) hrank hn hun
    (calls.map not) last
  have e : ∀ (bs : List Bool) (H : Heap), (bs.map not).foldl (fun H b =>
      if b then l.foldl (convert (· / (127 / 5 : ℝ)) "metric" "inch" n) H
      else l.foldl (convert (· * (127 / 5 : ℝ)) "inch" "metric" n) H) H =
      bs.foldl (convertFile n l) H := by
    intro bs
    induction bs with
    | nil => exact fun _ => rfl
    | cons b bs ih =>
      intro H
      rw [List.map_cons, List.foldl_cons, List.foldl_cons, ih]
      cases b <;> rfl
  constructor
  · have := key false
    rw [show calls.map not ++ [false] = (calls ++ [true]).map not by simp, e] at this
    exact this
  · have := key true
    rw [show calls.map not ++ [true] = (calls ++ [false]).map not by simp, e] at this
    exact this

/-- **C09.** The same for a file without metric objects. -/
theorem C09_file_inch {h : Heap} {rank : ℕ → ℕ} {n : ℕ} {l : List ℕ}
    (hrank : ∀ k, ∀ j ∈ (h k).children, rank j < rank k) (hn : ∀ i ∈ l, rank i < n)
    (hun : ∀ k, Belongs h l k → (h k).units ≠ some "metric") (calls : List Bool) :
    SameAttr h ((calls ++ [false]).foldl (convertFile n l) h) ∧
    SameAttr (converted (· * (127 / 5)) "metric" h (fileSet h "inch" l))
      ((calls ++ [true]).foldl (convertFile n l) h) := by
  have key := fun last => file_sequence (f := (· * (127 / 5 : ℝ))) (g := (· / (127 / 5 : ℝ)))
    (src := "inch") (dst := "metric") (by decide) (fun x => by field_simp) hrank hn hun
    calls last
  have e : (fun H b =>
      if b = true then l.foldl (convert (· * (127 / 5 : ℝ)) "inch" "metric" n) H
      else l.foldl (convert (· / (127 / 5 : ℝ)) "metric" "inch" n) H) = convertFile n l := by
    funext H b
    cases b <;> rfl
  rw [e] at key
  exact ⟨key false, key true⟩

/-! ## Examples and violations -/

/-- A circle of diameter 10. -/
noncomputable def mmCircle : Obj :=
  { blank .circle none [] with
    units := some "metric"
    nums := fun a => if a = .diameter then some 10 else none
    pts := fun a => if a = .position then some (0, 0) else none }

/-- A line drawn with aperture 0. -/
noncomputable def mmLine (x : ℝ) : Obj :=
  { blank .line (some 0) [] with
    units := some "metric"
    pts := fun a => if a = .start then some (x, 0) else if a = .stop then some (x + 1, 1) else none }

/-- Two lines sharing a circle. -/
noncomputable def sharing : Heap := fun k =>
  if k = 0 then mmCircle else if k = 1 then mmLine 0 else if k = 2 then mmLine 5 else blank .region none []

/-- The shared aperture is reached from both lines and yet converted once: 10 mm become 10/25.4 in. -/
example (calls : List Bool) :
    ((calls ++ [false]).foldl (convertFile 2 [1, 2]) sharing 0).nums .diameter =
      some (10 / (127 / 5)) := by
  have hk : ∀ k, (sharing k).children = if k = 1 ∨ k = 2 then [0] else [] := by
    intro k
    unfold sharing
    by_cases h0 : k = 0
    · subst h0; simp [mmCircle, blank, Obj.children]
    · by_cases h1 : k = 1
      · subst h1; simp [mmLine, blank, Obj.children]
      · by_cases h2 : k = 2
        · subst h2; simp [mmLine, blank, Obj.children]
        · simp [h0, h1, h2, blank, Obj.children]
  have := (C09_file_metric (h := sharing) (rank := fun k => if k = 1 ∨ k = 2 then 1 else 0) (n := 2)
    (l := [1, 2]) (by
      intro k j hj
      rw [hk] at hj
      split at hj
      · rename_i h
        simp only [List.mem_singleton] at hj
        subst hj
        simp [h]
      · simp at hj) (by simp) (by
      intro k hb
      have : k = 0 ∨ k = 1 ∨ k = 2 := by
        induction hb with
        | root hi => simp at hi; tauto
        | child _ hc _ => rw [hk] at hc; split at hc <;> simp_all
      rcases this with rfl | rfl | rfl <;> simp [sharing, mmCircle, mmLine]) calls).2 0
  have h2 := congrArg (fun o => o.nums .diameter) this
  refine Eq.trans h2 ?_
  have hm : (0 : ℕ) ∈ fileSet sharing "metric" [1, 2] :=
    ⟨1, by simp, .child (by simp [sharing, mmLine]) (by rw [hk]; simp)
      (.self (by simp [sharing, mmCircle]))⟩
  rw [converted, if_pos hm, convertOwn_eq]
  simp [Obj.changed, sharing, mmCircle, blank, numConvert]

/-! ## The same in terms of what the objects are

`Obj.children`, `ptConvert` and `numConvert` are the code's choice of what to convert.  Here is what ought
to be converted: the aperture of a line or arc, the parts of a region, outline or macro aperture, and every
length that the class has. -/

/-- `j` is a part of the object: the aperture it is drawn with or one of its parts. -/
inductive Owns (o : Obj) (j : ℕ) : Prop
  | lineAperture : o.kind = Kind.line → o.aperture = some j → Owns o j
  | arcAperture : o.kind = Kind.arc → o.aperture = some j → Owns o j
  | groupPart : o.kind = Kind.amGroup → j ∈ o.parts → Owns o j
  | outlinePart : o.kind = Kind.outline → j ∈ o.parts → Owns o j
  | regionPart : o.kind = Kind.region → j ∈ o.parts → Owns o j

/-- `k` is one of the primitives `l` of a file or a part of one, at any depth. -/
inductive InFile (h : Heap) (l : List ℕ) : ℕ → Prop
  | root {i} : i ∈ l → InFile h l i
  | part {i j} : InFile h l i → Owns (h i) j → InFile h l j

/-- The points of a class. -/
def HasPoint (k : Kind) (a : PA) : Prop :=
  match a with
  | .start | .stop => k = .line ∨ k = .arc ∨ k = .slot
  | .center => k = .arc
  | .position => k ≠ .line ∧ k ≠ .arc ∧ k ≠ .slot ∧ k ≠ .outline ∧ k ≠ .region

/-- The lengths of a class. -/
def HasLength (k : Kind) (a : NA) : Prop :=
  match a with
  | .width | .height => k = .ellipse ∨ k = .rectangle ∨ k = .diamond ∨ k = .chamferRectangle ∨
      k = .roundRectangle ∨ k = .obround ∨ k = .donut
  | .diameter => k = .circle ∨ k = .roundButterfly ∨ k = .drill ∨ k = .slot
  | .radius => k = .polygon ∨ k = .roundRectangle
  | .chamfer => k = .chamferRectangle
  | .side => k = .squareButterfly
  | .innerDiameter | .outerDiameter => k = .donut ∨ k = .squareRoundDonut
  | .holeDiameter | .holeWidth | .holeHeight =>
      k = .circle ∨ k = .rectangle ∨ k = .obround ∨ k = .polygon

/-- `o'` is `o` in another unit `u`: points and lengths through `f`, the rest as it was. -/
structure InUnit (f : ℝ → ℝ) (u : String) (o o' : Obj) : Prop where
  units : o'.units = some u
  point : ∀ a p, HasPoint o.kind a → o.pts a = some p → o'.pts a = some (f p.1, f p.2)
  noPoint : ∀ a, o.pts a = none → o'.pts a = none
  length : ∀ a x, HasLength o.kind a → o.nums a = some x → o'.nums a = some (f x)
  noLength : ∀ a, o.nums a = none → o'.nums a = none
  kind : o'.kind = o.kind
  rotation : o'.rotation = o.rotation
  direction : o'.direction = o.direction
  quadrantMode : o'.quadrantMode = o.quadrantMode
  aperture : o'.aperture = o.aperture
  parts : o'.parts = o.parts

/-- `o'` has the unit and all attributes of `o`. -/
structure AsWas (o o' : Obj) : Prop where
  units : o'.units = o.units
  points : o'.pts = o.pts
  lengths : o'.nums = o.nums
  kind : o'.kind = o.kind
  rotation : o'.rotation = o.rotation
  direction : o'.direction = o.direction
  quadrantMode : o'.quadrantMode = o.quadrantMode
  aperture : o'.aperture = o.aperture
  parts : o'.parts = o.parts

theorem asWas_of_changed {o o' : Obj} (h : o'.changed = o.changed) : AsWas o o' := by
  cases o
  cases o'
  simp only [Obj.changed, Obj.mk.injEq] at h
  constructor <;> simp_all

theorem inUnit_of_changed {f : ℝ → ℝ} {u : String} {o o' : Obj}
    (h : o'.changed = (o.convertOwn f u).changed) : InUnit f u o o' := by
  have hw := asWas_of_changed h
  rw [convertOwn_eq] at hw
  obtain ⟨h1, h2, h3, h4, h5, h6, h7, h8, h9⟩ := hw
  refine ⟨h1, ?_, ?_, ?_, ?_, h4, h5, h6, h7, h8, h9⟩
  · intro a p ha hp
    have hm : a ∈ ptConvert o.kind := by
      cases a <;> cases hk : o.kind <;> simp [HasPoint, hk, ptConvert] at ha ⊢
    rw [h2]
    simp [hm, hp]
  · intro a ha
    rw [h2]
    simp [ha]
  · intro a p ha hp
    have hm : a ∈ numConvert o.kind := by
      cases a <;> cases hk : o.kind <;> simp [HasLength, hk, numConvert] at ha ⊢
    rw [h3]
    simp [hm, hp]
  · intro a ha
    rw [h3]
    simp [ha]

theorem owns_of_children {o : Obj} {j : ℕ} (h : j ∈ o.children) : Owns o j := by
  unfold Obj.children at h
  split at h
  · rename_i hk
    exact .lineAperture hk (by simpa using h)
  · rename_i hk
    exact .arcAperture hk (by simpa using h)
  · rename_i hk
    split at h
    · exact .groupPart hk h
    · simp at h
  · rename_i hk
    split at h
    · exact .outlinePart hk h
    · simp at h
  · rename_i hk
    split at h
    · exact .regionPart hk h
    · simp at h
  · simp at h

theorem children_of_owns {o : Obj} {j : ℕ} (h : Owns o j)
    (h1 : o.kind ∈ [Kind.amGroup, .outline, .region] → o.parts.length ≠ 1) : j ∈ o.children := by
  have hlen : ∀ {l : List ℕ}, j ∈ l → l.length ≠ 1 → 1 < l.length := by
    intro l hl hne
    have := List.length_pos_of_mem hl
    omega
  cases h with
  | lineAperture hk ha => simp [Obj.children, hk, ha]
  | arcAperture hk ha => simp [Obj.children, hk, ha]
  | groupPart hk hj =>
    simp only [Obj.children, hk]
    rw [if_pos (hlen hj (h1 (by simp [hk])))]
    exact hj
  | outlinePart hk hj =>
    simp only [Obj.children, hk]
    rw [if_pos (hlen hj (h1 (by simp [hk])))]
    exact hj
  | regionPart hk hj =>
    simp only [Obj.children, hk]
    rw [if_pos (hlen hj (h1 (by simp [hk])))]
    exact hj

theorem inFile_of_belongs {h : Heap} {l : List ℕ} {k : ℕ} (hb : Belongs h l k) : InFile h l k := by
  induction hb with
  | root hi => exact .root hi
  | child _ hc ih => exact .part ih (owns_of_children hc)

theorem mem_fileSet {h : Heap} {src : String} {l : List ℕ}
    (hun : ∀ k, InFile h l k → (h k).units = some src)
    (h1 : ∀ k, InFile h l k → (h k).kind ∈ [Kind.amGroup, .outline, .region] →
      (h k).parts.length ≠ 1) {k : ℕ} (hk : InFile h l k) : k ∈ fileSet h src l := by
  induction hk with
  | root hi => exact root_mem hi (hun _ (.root hi))
  | part hi ho ih =>
    obtain ⟨r, hr, hreach⟩ := ih
    exact ⟨r, hr, reach_closed hreach (children_of_owns ho (h1 _ hi)) (hun _ (.part hi ho))⟩

/-- **C09.** A metric file: after any sequence of conversions of the whole file that ends with one to
inches, every object of the file, at any depth and however often shared, is in inches and each of its points
and lengths is divided by 25.4 exactly once; after one that ends with metric, everything is as it was.
Partial: files in which a region, outline or macro aperture has exactly one part are left out
(`C09_single_violated`), and so are files with objects in different units (`C09_mixed_violated`). -/
theorem C09_file_objects_metric_partial {h : Heap} {rank : ℕ → ℕ} {n : ℕ} {l : List ℕ}
    (hrank : ∀ k j, Owns (h k) j → rank j < rank k) (hn : ∀ i ∈ l, rank i < n)
    (hun : ∀ k, InFile h l k → (h k).units = some "metric")
    (h1 : ∀ k, InFile h l k → (h k).kind ∈ [Kind.amGroup, .outline, .region] →
      (h k).parts.length ≠ 1) (calls : List Bool) (k : ℕ) (hk : InFile h l k) :
    InUnit (fun x => x / 25.4) "inch" (h k) ((calls ++ [false]).foldl (convertFile n l) h k) ∧
    AsWas (h k) ((calls ++ [true]).foldl (convertFile n l) h k) := by
  have key := C09_file_metric (h := h) (fun k j hj => hrank k j (owns_of_children hj)) hn
    (fun k hb => by rw [hun k (inFile_of_belongs hb)]; decide) calls
  refine ⟨?_, asWas_of_changed (key.1 k)⟩
  have := key.2 k
  rw [converted, if_pos (mem_fileSet hun h1 hk)] at this
  have e : (fun x : ℝ => x / 25.4) = (· / (127 / 5 : ℝ)) := by
    funext x
    norm_num
  rw [e]
  exact inUnit_of_changed this

/-- **C09.** The same for a file in inches. -/
theorem C09_file_objects_inch_partial {h : Heap} {rank : ℕ → ℕ} {n : ℕ} {l : List ℕ}
    (hrank : ∀ k j, Owns (h k) j → rank j < rank k) (hn : ∀ i ∈ l, rank i < n)
    (hun : ∀ k, InFile h l k → (h k).units = some "inch")
    (h1 : ∀ k, InFile h l k → (h k).kind ∈ [Kind.amGroup, .outline, .region] →
      (h k).parts.length ≠ 1) (calls : List Bool) (k : ℕ) (hk : InFile h l k) :
    InUnit (fun x => x * 25.4) "metric" (h k) ((calls ++ [true]).foldl (convertFile n l) h k) ∧
    AsWas (h k) ((calls ++ [false]).foldl (convertFile n l) h k) := by
  have key := C09_file_inch (h := h) (fun k j hj => hrank k j (owns_of_children hj)) hn
    (fun k hb => by rw [hun k (inFile_of_belongs hb)]; decide) calls
  refine ⟨?_, asWas_of_changed (key.1 k)⟩
  have := key.2 k
  rw [converted, if_pos (mem_fileSet hun h1 hk)] at this
  have e : (fun x : ℝ => x * 25.4) = (· * (127 / 5 : ℝ)) := by
    funext x
    norm_num
  rw [e]
  exact inUnit_of_changed this

/-- A region of two lines that share a circle, and a flash of the same circle. -/
noncomputable def nested : Heap := fun k =>
  if k = 0 then mmCircle else if k = 1 then mmLine 0 else if k = 2 then mmLine 5
  else { blank .region none [1, 2] with units := some "metric" }

/-- Non-vacuous: converting the region and the circle, the circle of the lines of the region is converted
once. -/
example (calls : List Bool) :
    ((calls ++ [false]).foldl (convertFile 3 [3, 0]) nested 0).nums .diameter = some (10 / 25.4) ∧
    ((calls ++ [false]).foldl (convertFile 3 [3, 0]) nested 2).pts .start =
      some (5 / 25.4, 0 / 25.4) := by
  have ho : ∀ k j, Owns (nested k) j → (k = 1 ∨ k = 2) ∧ j = 0 ∨
      (3 ≤ k ∧ (j = 1 ∨ j = 2)) := by
    intro k j h
    have hk : k = 0 ∨ k = 1 ∨ k = 2 ∨ 3 ≤ k := by omega
    rcases hk with rfl | rfl | rfl | hk
    · cases h <;> simp_all [nested, mmCircle, blank]
    · cases h <;> simp_all [nested, mmLine, blank]
    · cases h <;> simp_all [nested, mmLine, blank]
    · have h0 : k ≠ 0 := by omega
      have h1 : k ≠ 1 := by omega
      have h2 : k ≠ 2 := by omega
      cases h <;> simp_all [nested, blank]
  have hu : ∀ k, (nested k).units = some "metric" := by
    intro k
    unfold nested
    split
    · simp [mmCircle]
    · split
      · simp [mmLine]
      · split
        · simp [mmLine]
        · rfl
  have hm : InFile nested [3, 0] 2 := .part (.root (i := 3) (by simp))
    (.regionPart (by simp [nested, blank]) (by simp [nested, blank]))
  have key := fun k hk => (C09_file_objects_metric_partial (h := nested) (n := 3) (l := [3, 0])
    (rank := fun k => if k = 0 then 0 else if k ≤ 2 then 1 else 2)
    (by
      intro k j h
      rcases ho k j h with ⟨hk | hk, hj⟩ | ⟨hk, hj | hj⟩ <;> subst hj
      · simp [hk]
      · simp [hk]
      · simp [show k ≠ 0 by omega, show ¬ k ≤ 2 by omega]
      · simp [show k ≠ 0 by omega, show ¬ k ≤ 2 by omega])
    (by simp) (fun k _ => hu k)
    (by
      intro k _ hk
      have h' : k = 0 ∨ k = 1 ∨ k = 2 ∨ 3 ≤ k := by omega
      rcases h' with rfl | rfl | rfl | h'
      · simp [nested, mmCircle, blank] at hk
      · simp [nested, mmLine, blank] at hk
      · simp [nested, mmLine, blank] at hk
      · simp [nested, blank, show k ≠ 0 by omega, show k ≠ 1 by omega, show k ≠ 2 by omega])
    calls k hk).1
  refine ⟨(key 0 (.root (by simp))).length .diameter 10 ?_ ?_,
    (key 2 hm).point .start (5, 0) ?_ ?_⟩
  all_goals simp [nested, mmCircle, mmLine, blank, HasLength, HasPoint]

/-- **C09 fails** for a line in millimetres whose aperture is in inches: to inch and back leaves the
aperture in millimetres. -/
theorem C09_mixed_violated : ∃ (h : Heap), (h 1).units = some "metric" ∧
    (toMetric 2 (toInch 2 h 1) 1 0).units ≠ (h 0).units := by
  refine ⟨fun k => if k = 0 then { mmCircle with units := some "inch" } else mmLine 0,
    by simp [mmLine], ?_⟩
  simp [toMetric, toInch, Geom.convert, mmLine, mmCircle, blank, Obj.children, convertOwn_eq]

/-- **C09 fails** for a region with a single part: `to_inch` leaves the part in millimetres. -/
theorem C09_single_violated : ∃ (h : Heap), (h 1).units = some "metric" ∧ (h 1).parts = [2] ∧
    (h 2).units = some "metric" ∧ (toInch 5 h 1 1).units = some "inch" ∧
    (toInch 5 h 1 2).units = some "metric" := by
  refine ⟨fun k => if k = 1 then { blank .region none [2] with
    units := some "metric" } else mmLine 0, by simp, by simp [blank], by simp [mmLine], ?_, ?_⟩
  all_goals simp [toInch, Geom.convert, mmLine, blank, Obj.children, convertOwn_eq]

end Verif.Geom
