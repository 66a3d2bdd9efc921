import Verif.Model.PrimHistory

/-! # Cached bounding boxes (C31), corners and segments (C77) -/

namespace Verif.Geom

open Verif.Py

/-- The classes all of whose attributes that matter for the box have setters. -/
def Simple (k : Kind) : Prop :=
  k = .circle ∨ k = .ellipse ∨ k = .rectangle ∨ k = .diamond ∨ k = .chamferRectangle ∨
    k = .roundRectangle ∨ k = .obround ∨ k = .polygon ∨ k = .drill

/-- The primitive with the same attributes, freshly built: nothing is cached. -/
def rebuilt (h : Heap) (i : ℕ) : Heap := Function.update h i { h i with box := none, vertices := none, segs := none }

theorem foldl_inv {α β : Type} {P : α → Prop} {g : α → β → α} {l : List β} {a : α} (h : P a)
    (hg : ∀ a, ∀ b ∈ l, P a → P (g a b)) : P (l.foldl g a) := by
  induction l generalizing a with
  | nil => exact h
  | cons b l ih =>
    exact ih (hg a b (by simp) h) fun a b hb => hg a b (by simp [hb])

/-- Nothing is cached. -/
def Clean (o : Obj) : Prop := o.box = none ∧ o.vertices = none ∧ o.segs = none

/-- The classes whose corners do not depend on other objects; polygons if `F`. -/
def Cornered (F : Prop) (k : Kind) : Prop := k ≠ .line ∧ (k = .polygon → F)

/-- The stored corners and segments are those of the attributes. -/
structure CornersRight (o : Obj) (ap : Option Obj) : Prop where
  vs : ∀ v, o.vertices = some v → o.ownVertices ap = .ok (some v)
  segs : ∀ l, o.segs = some l → ∃ v, o.ownVertices ap = .ok v ∧ segments v = some l

theorem CornersRight.clean {o : Obj} (h : Clean o) (ap : Option Obj) : CornersRight o ap := by
  constructor
  · intro v hv; rw [h.2.1] at hv; cases hv
  · intro v hv; rw [h.2.2] at hv; cases hv

theorem CornersRight.congr {o o' : Obj} {ap ap' : Option Obj} (h : CornersRight o ap) (hv : o'.vertices = o.vertices)
    (hs : o'.segs = o.segs) (ho : ∀ v, o.ownVertices ap = .ok v → o'.ownVertices ap' = .ok v) : CornersRight o' ap' := by
  constructor
  · intro v h'
    exact ho _ (h.vs v (hv ▸ h'))
  · intro l h'
    obtain ⟨v, h1, h2⟩ := h.segs l (hs ▸ h')
    exact ⟨v, ho _ h1, h2⟩

/-- What is cached is that of the attributes. -/
def Good (F : Prop) (o : Obj) : Prop :=
  (Simple o.kind → ∀ b, o.box = some b → o.ownBox none = some b) ∧ (Cornered F o.kind → CornersRight o none)

theorem good_none {F : Prop} {o : Obj} (h : Clean o) : Good F o := by
  refine ⟨?_, fun _ => .clean h _⟩
  intro _ b hb
  rw [h.1] at hb
  exact absurd hb (by simp)

theorem clean_changed (o : Obj) : Clean o.changed := ⟨rfl, rfl, rfl⟩

theorem good_setPt {F : Prop} {o : Obj} (h : Good F o) (a : PA) (v : Option RPt) : Good F (o.setPt a v) := by
  unfold Obj.setPt
  simp only
  split
  · exact good_none (clean_changed _)
  · next hs =>
    constructor
    · intro hk b hb
      have := h.1 hk b hb
      rcases hk with hk | hk | hk | hk | hk | hk | hk | hk | hk <;> simp only at hk <;>
        cases a <;> simp_all [ptSetter, Obj.ownBox]
    · intro hk
      refine (h.2 hk).congr rfl rfl ?_
      have hk := hk.1
      simp only at hk
      cases hk' : o.kind <;> cases a <;> simp_all [ptSetter, Obj.ownVertices]

theorem good_setNum {F : Prop} {o : Obj} (h : Good F o) (a : NA) (v : Option ℝ) : Good F (o.setNum a v) := by
  unfold Obj.setNum
  simp only
  split
  · exact good_none (clean_changed _)
  · next hs =>
    constructor
    · intro hk b hb
      have := h.1 hk b hb
      rcases hk with hk | hk | hk | hk | hk | hk | hk | hk | hk <;> simp only at hk <;>
        cases a <;> simp_all [numSetter, Obj.ownBox]
    · intro hk
      refine (h.2 hk).congr rfl rfl ?_
      have hk := hk.1
      simp only at hk
      cases hk' : o.kind <;> cases a <;> simp_all [numSetter, Obj.ownVertices]

theorem good_offset {F : Prop} {o : Obj} (h : Good F o) (dx dy : ℝ) : Good F (o.offset dx dy) := by
  unfold Obj.offset
  have hc : Good F o.changed := good_none (clean_changed o)
  cases o.kind <;> simp only <;>
    first
    | exact good_setPt (good_setPt (good_setPt hc _ _) _ _) _ _
    | exact good_setPt (good_setPt hc _ _) _ _
    | exact good_setPt (good_setPt h _ _) _ _
    | exact good_setPt h _ _
    | exact good_setPt hc _ _
    | exact hc

theorem clean_setPt {o : Obj} (h : Clean o) (a : PA) (v : Option RPt) : Clean (o.setPt a v) := by
  unfold Obj.setPt
  simp only
  split
  · exact clean_changed _
  · exact h

theorem clean_setNum {o : Obj} (h : Clean o) (a : NA) (v : Option ℝ) : Clean (o.setNum a v) := by
  unfold Obj.setNum
  simp only
  split
  · exact clean_changed _
  · exact h

theorem convertOwn_clean (f : ℝ → ℝ) (u : String) (o : Obj) : Clean (o.convertOwn f u) := by
  unfold Obj.convertOwn
  simp only
  refine foldl_inv (P := Clean) (foldl_inv (P := Clean) (clean_changed o) ?_) ?_
  · intro x a _ hx
    exact clean_setPt hx _ _
  · intro x a _ hx
    exact clean_setNum hx _ _

theorem convertOwn_box (f : ℝ → ℝ) (u : String) (o : Obj) : (o.convertOwn f u).box = none := (convertOwn_clean f u o).1

def AllGood (F : ℕ → Prop) (h : Heap) : Prop := ∀ i, Good (F i) (h i)

theorem AllGood.update {F : ℕ → Prop} {h : Heap} (hh : AllGood F h) {i : ℕ} {o : Obj} (ho : Good (F i) o) :
    AllGood F (Function.update h i o) := by
  intro j
  by_cases hj : j = i
  · subst hj
    simpa using ho
  · simpa [Function.update_of_ne hj] using hh j

theorem AllGood.convert {F : ℕ → Prop} {f : ℝ → ℝ} {src dst : String} {n : ℕ} {h : Heap} (hh : AllGood F h) (i : ℕ) :
    AllGood F (convert f src dst n h i) := by
  induction n generalizing h i with
  | zero => exact hh
  | succ n ih =>
    simp only [Geom.convert]
    split
    · refine foldl_inv (hh.update (good_none (convertOwn_clean _ _ _))) fun a b _ ha => ih ha b
    · exact hh

theorem AllGood.offset {F : ℕ → Prop} {dx dy : ℝ} {n : ℕ} {h : Heap} (hh : AllGood F h) (i : ℕ) :
    AllGood F (offset dx dy n h i) := by
  induction n generalizing h i with
  | zero => exact hh
  | succ n ih =>
    have hg := good_offset (hh i) dx dy
    simp only [Geom.offset]
    cases hk : (h i).kind <;> simp only
    case amGroup =>
      cases (h i).pts .position with
      | none => exact hh
      | some p =>
        refine foldl_inv (hh.update ?_) fun a b _ ha => ih ha b
        refine ⟨fun hs => by simp [Simple] at hs, fun hs => ((hh i).2 (by rw [hk]; exact hs)).congr rfl rfl ?_⟩
        simp [Obj.ownVertices, hk]
    case outline => exact foldl_inv (hh.update (good_none (clean_changed _))) fun a b _ ha => ih ha b
    case region => exact foldl_inv (hh.update (good_none (clean_changed _))) fun a b _ ha => ih ha b
    all_goals exact hh.update hg

theorem ownBox_simple {o : Obj} (h : Simple o.kind) (ap : Option Obj) :
    o.ownBox ap = o.ownBox none := by
  rcases h with h | h | h | h | h | h | h | h | h <;> simp [Obj.ownBox, h]

theorem readParts_inv {P : Heap → Prop} {read : Heap → ℕ → Option Box × Heap}
    (hr : ∀ h i, P h → P (read h i).2) : ∀ {l : List ℕ} {h : Heap}, P h → P (readParts read h l).2 := by
  intro l
  induction l with
  | nil => exact fun h => h
  | cons i l ih =>
    intro h hh
    simp only [readParts]
    have h1 := hr h i hh
    generalize read h i = x at h1
    obtain ⟨b, h'⟩ := x
    cases b with
    | none => exact h1
    | some b =>
      simp only
      have h2 := ih h1
      generalize readParts read h' l = y at h2
      obtain ⟨bs, h''⟩ := y
      cases bs <;> exact h2

/-- Reading keeps an invariant that storing a computed box keeps. -/
theorem read_inv {P : Heap → Prop}
    (hstore : ∀ h i b, P h → (h i).ownBox ((h i).aperture.map h) = some b →
      P (Function.update h i ((h i).withBox b)))
    (hcont : ∀ h i b, P h → (h i).kind = .outline ∨ (h i).kind = .region →
      P (Function.update h i ((h i).withBox b)))
    {K : ℕ → Kind} (hK : ∀ h, P h → ∀ i, (h i).kind = K i) (n : ℕ) :
    (∀ h i, P h → P (readBox n h i).2) := by
  induction n with
  | zero => exact fun h i hh => by simpa [readBox] using hh
  | succ n ih =>
    have ih1 := ih
    have ih2 : ∀ h i, P h → P (readBare (readBox n) h i).2 := by
      intro h i hh
      simp only [readBare]
      cases (h i).kind <;> simp only <;> first | exact hh | exact ih1 h i hh
    intro h i hh
    · have hleaf : ∀ r : Option Box × Heap, r = (match (h i).box with
          | some b => (some b, h)
          | none => match (h i).ownBox ((h i).aperture.map h) with
            | none => (none, h)
            | some b => (some b, Function.update h i ((h i).withBox b))) → P r.2 := by
        rintro r rfl
        cases (h i).box with
        | some b => exact hh
        | none =>
          simp only
          cases hb : (h i).ownBox ((h i).aperture.map h) with
          | none => exact hh
          | some b => exact hstore h i b hh hb
      simp only [readBox]
      cases hk : (h i).kind <;> simp only
      case amGroup => exact readParts_inv ih1 hh
      case outline =>
        cases (h i).box with
        | some b => exact hh
        | none =>
          simp only [reduceCtorEq, if_false]
          have h1 := readParts_inv (l := (h i).parts) ih1 hh
          generalize readParts (readBox n) h (h i).parts = x at h1 ⊢
          obtain ⟨bs, h'⟩ := x
          simp only
          cases bs.bind unionBox with
          | none => exact h1
          | some b => exact hcont h' i b h1 (.inl (by rw [hK h' h1, ← hK h hh, hk]))
      case region =>
        cases (h i).box with
        | some b => exact hh
        | none =>
          simp only [if_true]
          have h1 := readParts_inv (l := (h i).parts) ih2 hh
          generalize readParts (readBare (readBox n)) h (h i).parts = x at h1 ⊢
          obtain ⟨bs, h'⟩ := x
          simp only
          cases bs.bind unionBox with
          | none => exact h1
          | some b => exact hcont h' i b h1 (.inr (by rw [hK h' h1, ← hK h hh, hk]))
      all_goals exact hleaf _ rfl

theorem kind_setPt (o : Obj) (a : PA) (v : Option RPt) : (o.setPt a v).kind = o.kind := by
  unfold Obj.setPt
  simp only
  split <;> rfl

theorem kind_setNum (o : Obj) (a : NA) (v : Option ℝ) : (o.setNum a v).kind = o.kind := by
  unfold Obj.setNum
  simp only
  split <;> rfl

theorem AllGood.readBox {F : ℕ → Prop} {n : ℕ} {h : Heap} (hh : AllGood F h) (i : ℕ) :
    AllGood F (readBox n h i).2 := by
  have := (read_inv (P := fun h' => AllGood F h' ∧ ∀ j, (h' j).kind = (h j).kind)
    (K := fun j => (h j).kind) ?_ ?_ ?_ n) h i ⟨hh, fun _ => rfl⟩
  · exact this.1
  · rintro h' i b ⟨h1, h2⟩ hb
    refine ⟨h1.update ⟨fun hs b' hb' => ?_, fun hs => ((h1 i).2 hs).congr rfl rfl fun v hv => hv⟩, fun j => ?_⟩
    · simp only [Obj.withBox, Option.some.injEq] at hb'
      subst hb'
      rw [← hb, ← ownBox_simple (o := (h' i).withBox b) hs ((h' i).aperture.map h')]
      rfl
    · by_cases hj : j = i
      · subst hj
        simpa [Obj.withBox] using h2 j
      · simpa [Function.update_of_ne hj] using h2 j
  · rintro h' i b ⟨h1, h2⟩ hk
    refine ⟨h1.update ⟨fun hs b' hb' => ?_, fun hs => ((h1 i).2 hs).congr rfl rfl fun v hv => hv⟩, fun j => ?_⟩
    · rcases hk with hk | hk <;> simp [Simple, Obj.withBox, hk] at hs
    · by_cases hj : j = i
      · subst hj
        simpa [Obj.withBox] using h2 j
      · simpa [Function.update_of_ne hj] using h2 j
  · exact fun h' hP => hP.2

/-- What moving does not change. -/
def Obj.fixed (o : Obj) : Obj := { o with pts := fun _ => none, box := none, vertices := none, segs := none }

theorem fixed_setPt (o : Obj) (a : PA) (v : Option RPt) : (o.setPt a v).fixed = o.fixed := by
  unfold Obj.setPt
  simp only
  split <;> rfl

theorem fixed_ownOffset (o : Obj) (dx dy : ℝ) : (o.offset dx dy).fixed = o.fixed := by
  have hc : o.changed.fixed = o.fixed := rfl
  unfold Obj.offset
  cases o.kind <;> simp only [fixed_setPt, hc]

theorem fixed_update {h : Heap} {i : ℕ} {o : Obj} (ho : o.fixed = (h i).fixed) (j : ℕ) :
    (Function.update h i o j).fixed = (h j).fixed := by
  by_cases hj : j = i
  · subst hj
    simpa using ho
  · rw [Function.update_of_ne hj]

theorem fixed_offset {dx dy : ℝ} {n : ℕ} {h : Heap} (i j : ℕ) :
    (offset dx dy n h i j).fixed = (h j).fixed := by
  induction n generalizing h i with
  | zero => rfl
  | succ n ih =>
    have hf : ∀ (l : List ℕ) (h' : Heap), (l.foldl (Geom.offset dx dy n) h' j).fixed =
        (h' j).fixed := by
      intro l
      induction l with
      | nil => exact fun _ => rfl
      | cons k l ihl => intro h'; rw [List.foldl_cons, ihl, ih]
    simp only [Geom.offset]
    cases hk : (h i).kind <;> simp only
    case amGroup =>
      cases (h i).pts .position with
      | none => rfl
      | some p =>
        rw [hf]
        refine fixed_update ?_ j
        unfold Obj.fixed
        simp only [hk]
    case outline => rw [hf]; exact fixed_update (o := (h i).changed) rfl j
    case region => rw [hf]; exact fixed_update (o := (h i).changed) rfl j
    all_goals exact fixed_update (fixed_ownOffset _ _ _) j

theorem fixed_moveAll {dx dy : ℝ} {n : ℕ} (l : List ℕ) (h : Heap) (j : ℕ) :
    (l.foldl (offset dx dy n) h j).fixed = (h j).fixed := by
  induction l generalizing h with
  | nil => rfl
  | cons k l ih => rw [List.foldl_cons, ih, fixed_offset]

theorem kind_of_fixed {a b : Obj} (h : a.fixed = b.fixed) : a.kind = b.kind := by
  have := congrArg Obj.kind h
  exact this

theorem AllGood.setGroupPosition {F : ℕ → Prop} {v : RPt} {n : ℕ} {h : Heap} (hh : AllGood F h) {i : ℕ}
    (hk : (h i).kind = .amGroup) : AllGood F (setGroupPosition v n h i) := by
  unfold Geom.setGroupPosition
  simp only
  have h1 : AllGood F ((h i).parts.foldl
      (Geom.offset ((h i).groupDelta v).1 ((h i).groupDelta v).2 n) h) :=
    foldl_inv hh fun h' j _ hj => hj.offset j
  have : ((h i).parts.foldl (Geom.offset ((h i).groupDelta v).1 ((h i).groupDelta v).2 n)
      h i).kind = .amGroup := by
    rw [kind_of_fixed (fixed_moveAll _ _ _), hk]
  refine h1.update ⟨fun hs => ?_, fun hs => ((h1 i).2 hs).congr rfl rfl ?_⟩
  · simp only [Obj.withPosition, this] at hs
    simp [Simple] at hs
  · simp [Obj.ownVertices, Obj.withPosition, this]

theorem good_congr {F : Prop} {o o' : Obj} (h : Good F o) (hb : o'.box = o.box) (hv : o'.vertices = o.vertices)
    (hl : o'.segs = o.segs) (hk : o'.kind = o.kind) (hr : o'.rotation = o.rotation) (hp : o'.pts = o.pts)
    (hn : o'.nums = o.nums) (hc : o.kind = .chamferRectangle → o'.corners = o.corners)
    (hd : o.kind = .polygon → F → o'.sides = o.sides) : Good F o' := by
  constructor
  · intro hs b hb'
    rw [hk] at hs
    rw [hb] at hb'
    rw [← h.1 hs b hb']
    rcases hs with h | h | h | h | h | h | h | h | h <;> simp [Obj.ownBox, hk, h, hr, hp, hn]
  · intro hs
    rw [hk] at hs
    refine (h.2 hs).congr hv hl ?_
    obtain ⟨h1, h2⟩ := hs
    cases h : o.kind
    case chamferRectangle => simp [Obj.ownVertices, hk, h, hr, hp, hn, hc h]
    case polygon => simp [Obj.ownVertices, hk, h, hr, hp, hn, hd h (h2 h)]
    case line => exact absurd h h1
    all_goals simp [Obj.ownVertices, hk, h, hr, hp, hn]

theorem ownVertices_cornered {F : Prop} {o : Obj} (h : Cornered F o.kind) (ap : Option Obj) :
    o.ownVertices ap = o.ownVertices none := by
  have h := h.1
  cases hk : o.kind <;> first | exact absurd hk h | simp [Obj.ownVertices, hk]

/-- Reading corners stores nothing or what was computed. -/
theorem readVertices_cases (h : Heap) (i : ℕ) : (readVertices h i).2 = h ∨ ∃ r,
    (h i).ownVertices ((h i).aperture.map h) = .ok r ∧ (readVertices h i).2 = Function.update h i { h i with vertices := r } := by
  have hst : ∀ x : PyR (Option (List RPt)) × Heap, x = (match (h i).vertices with
      | some vs => (.ok (some vs), h)
      | none => match (h i).ownVertices ((h i).aperture.map h) with
        | .error x => (.error x, h)
        | .ok r => (.ok r, Function.update h i { h i with vertices := r })) → x.2 = h ∨ ∃ r,
      (h i).ownVertices ((h i).aperture.map h) = .ok r ∧ x.2 = Function.update h i { h i with vertices := r } := by
    rintro x rfl
    cases (h i).vertices with
    | some v => exact .inl rfl
    | none =>
      simp only
      cases (h i).ownVertices ((h i).aperture.map h) with
      | error e => exact .inl rfl
      | ok r => exact .inr ⟨r, rfl, rfl⟩
  unfold readVertices
  cases (h i).kind <;> first | exact hst _ rfl | exact .inl rfl

theorem AllGood.readVertices {F : ℕ → Prop} {h : Heap} (hh : AllGood F h) (i : ℕ) : AllGood F (readVertices h i).2 := by
  rcases readVertices_cases h i with h1 | ⟨r, h1, h2⟩
  · rw [h1]; exact hh
  · rw [h2]
    refine hh.update ⟨(hh i).1, fun hs => ?_⟩
    have hs' : Cornered (F i) (h i).kind := hs
    rw [ownVertices_cornered hs'] at h1
    constructor
    · intro v hv
      have hv : r = some v := hv
      rw [← hv]
      exact h1
    · exact ((hh i).2 hs').segs

/-- If corners are stored, reading gives these; otherwise what is computed. -/
theorem readVertices_value {h : Heap} {i : ℕ} {ap : Option Obj} (ha : (h i).aperture.map h = ap)
    (hr : CornersRight (h i) ap) : (Geom.readVertices h i).1 = (h i).ownVertices ap := by
  subst ha
  have hst : (match (h i).vertices with
      | some vs => ((.ok (some vs) : PyR (Option (List RPt))), h)
      | none => match (h i).ownVertices ((h i).aperture.map h) with
        | .error x => (.error x, h)
        | .ok r => (.ok r, Function.update h i { h i with vertices := r })).1 =
        (h i).ownVertices ((h i).aperture.map h) := by
    cases hv : (h i).vertices with
    | some v => exact (hr.vs v hv).symm
    | none =>
      simp only
      cases (h i).ownVertices ((h i).aperture.map h) <;> rfl
  unfold Geom.readVertices
  cases h' : (h i).kind <;> first | exact hst | simp [Obj.ownVertices, h']

theorem readSegments_cases (h : Heap) (i : ℕ) : (readSegments h i).2 = h ∨
    (readSegments h i).2 = (Geom.readVertices h i).2 ∨ ∃ v l, (Geom.readVertices h i).1 = .ok v ∧ segments v = some l ∧
      (readSegments h i).2 = Function.update (Geom.readVertices h i).2 i { (Geom.readVertices h i).2 i with segs := some l } := by
  unfold readSegments
  cases (h i).segs with
  | some l => exact .inl rfl
  | none =>
    right
    simp only
    generalize Geom.readVertices h i = x
    obtain ⟨v, h'⟩ := x
    cases v with
    | error e => exact .inl rfl
    | ok v =>
      simp only
      cases hl : segments v with
      | none => exact .inl rfl
      | some l => exact .inr ⟨v, l, rfl, hl, rfl⟩

theorem readVertices_same (h : Heap) (i j : ℕ) : ∃ v, (Geom.readVertices h i).2 j = { h j with vertices := v } := by
  rcases readVertices_cases h i with h1 | ⟨r, -, h2⟩
  · exact ⟨(h j).vertices, by rw [h1]⟩
  · rw [h2]
    by_cases hj : j = i
    · subst hj
      exact ⟨r, by simp⟩
    · exact ⟨(h j).vertices, by rw [Function.update_of_ne hj]⟩

theorem readVertices_aperture (h : Heap) (i : ℕ) (a : Option ℕ) (o : Obj) :
    o.ownVertices (a.map (Geom.readVertices h i).2) = o.ownVertices (a.map h) := by
  cases a with
  | none => rfl
  | some j =>
    obtain ⟨v, hv⟩ := readVertices_same h i j
    simp only [Option.map_some, hv]
    rfl

theorem AllGood.readSegments {F : ℕ → Prop} {h : Heap} (hh : AllGood F h) (i : ℕ) : AllGood F (readSegments h i).2 := by
  have hv := hh.readVertices i
  rcases readSegments_cases h i with h1 | h1 | ⟨v, l, h1, h2, h3⟩
  · rw [h1]; exact hh
  · rw [h1]; exact hv
  · rw [h3]
    obtain ⟨w, hw⟩ := readVertices_same h i i
    refine hv.update ⟨(hv i).1, fun hs => ⟨((hv i).2 hs).vs, ?_⟩⟩
    intro l' hl'
    simp only [Option.some.injEq] at hl'
    subst hl'
    have hs' : Cornered (F i) (h i).kind := by rw [hw] at hs; exact hs
    have hr : (Geom.readVertices h i).1 = (h i).ownVertices ((h i).aperture.map h) := by
      refine readVertices_value rfl (((hh i).2 hs').congr rfl rfl fun v hv => ?_)
      rw [ownVertices_cornered hs']; exact hv
    rw [h1, ownVertices_cornered hs'] at hr
    refine ⟨v, ?_, h2⟩
    rw [hr, hw]
    rfl

theorem AllGood.run {F : ℕ → Prop} {n : ℕ} {h : Heap} (hh : AllGood F h) {a : Act}
    (ha : ∀ i k, a = .setSides i k → ¬ F i) : AllGood F (a.run n h) := by
  cases a with
  | setPt i a v =>
    simp only [Act.run]
    split
    · next hc => exact hh.setGroupPosition hc.1
    · exact hh.update (good_setPt (hh i) _ _)
  | setNum i a v => exact hh.update (good_setNum (hh i) _ _)
  | setRotation i v => exact hh.update (good_none ⟨rfl, rfl, rfl⟩)
  | setUnits i u => exact hh.update (good_none ⟨rfl, rfl, rfl⟩)
  | setDirection i d => exact hh.update (good_congr (hh i) rfl rfl rfl rfl rfl rfl rfl (fun _ => rfl) fun _ _ => rfl)
  | setQuadrantMode i q => exact hh.update (good_none ⟨rfl, rfl, rfl⟩)
  | setAperture i a => exact hh.update (good_congr (hh i) rfl rfl rfl rfl rfl rfl rfl (fun _ => rfl) fun _ _ => rfl)
  | setParts i l => exact hh.update (good_congr (hh i) rfl rfl rfl rfl rfl rfl rfl (fun _ => rfl) fun _ _ => rfl)
  | offset i dx dy => exact hh.offset i
  | toInch i => exact hh.convert i
  | toMetric i => exact hh.convert i
  | setSides i k =>
    exact hh.update (good_congr (hh i) rfl rfl rfl rfl rfl rfl rfl (fun _ => rfl) fun _ hF => absurd hF (ha i k rfl))
  | setCorners i l =>
    refine hh.update ?_
    unfold Obj.setCorners
    split
    · exact good_none ⟨rfl, rfl, rfl⟩
    · next hk =>
      exact good_congr (hh i) rfl rfl rfl rfl rfl rfl rfl (fun hc => absurd (.inl hc) hk) fun _ _ => rfl
  | readBox i => exact hh.readBox i
  | readVertices i => exact hh.readVertices i
  | readSegments i => exact hh.readSegments i

theorem readBox_simple {F : Prop} {n : ℕ} {h : Heap} {i : ℕ} (hs : Simple (h i).kind) (hg : Good F (h i)) :
    (readBox (n + 1) h i).1 = (h i).ownBox none := by
  have hg' := hg.1 hs
  have hgo : (match (h i).box with
          | some b => (some b, h)
          | none => match (h i).ownBox ((h i).aperture.map h) with
            | none => (none, h)
            | some b => (some b, Function.update h i ((h i).withBox b))).1 = (h i).ownBox none := by
    cases hb : (h i).box with
    | some b => exact (hg' b hb).symm
    | none =>
      rw [ownBox_simple hs]
      simp only
      cases (h i).ownBox none <;> rfl
  rw [readBox]
  rcases hs with h' | h' | h' | h' | h' | h' | h' | h' | h' <;> rw [h'] <;> exact hgo

/-- For circles, ellipses, rectangles, diamonds, chamfered and round rectangles, obrounds, polygons and
drills: after any history of any actions on any objects, reading the bounding box gives what a freshly
built primitive with the current attributes gives.  Missing: lines, arcs, regions, outlines
(`C31_line_partial` covers lines and arcs with conditions), butterflies, donuts and slots; for all of
these there are counterexamples below. -/
theorem C31_fresh_partial (n m : ℕ) (h : Heap) (acts : List Act) (i : ℕ)
    (h0 : ∀ j, Clean (h j)) (hs : Simple (runActs n h acts i).kind) :
    (readBox (m + 1) (runActs n h acts) i).1 =
      (readBox (m + 1) (rebuilt (runActs n h acts) i) i).1 := by
  have hg : AllGood (fun _ => False) (runActs n h acts) :=
    foldl_inv (fun j => good_none (h0 j)) fun h' a _ ha => ha.run fun _ _ _ => id
  rw [readBox_simple hs (hg i)]
  have hr : rebuilt (runActs n h acts) i i = (runActs n h acts i).changed := by
    simp [rebuilt, Obj.changed]
  rw [readBox_simple (h := rebuilt (runActs n h acts) i) (by rw [hr]; exact hs)
    (by rw [hr]; exact good_none (F := False) (clean_changed _)), hr]
  rcases hs with h | h | h | h | h | h | h | h | h <;> simp [Obj.ownBox, Obj.changed, h]

/-! ## Lines and arcs -/

/-- What a line or arc has cached is that of the attributes. -/
def LineGood (o ap : Obj) : Prop := (∀ b, o.box = some b → o.ownBox (some ap) = some b) ∧ CornersRight o (some ap)

theorem LineGood.clean {o : Obj} (h : Clean o) (ap : Obj) : LineGood o ap :=
  ⟨fun b hb => absurd hb (by simp [h.1]), .clean h _⟩

/-- `i` is a line or an arc, `j` is its aperture, no other object has that aperture, and the cached box
of `i` is right. -/
structure LineInv (i j : ℕ) (h : Heap) : Prop where
  kind : (h i).kind = .line ∨ (h i).kind = .arc
  ap : (h i).aperture = some j
  simple : Simple (h j).kind
  parent : ∀ k, k ≠ i → (h k).aperture ≠ some j
  parts : ∀ k, j ∉ (h k).parts
  good : LineGood (h i) (h j)

theorem LineInv.ne {i j : ℕ} {h : Heap} (hh : LineInv i j h) : j ≠ i := by
  rintro rfl
  have := hh.simple
  rcases hh.kind with hk | hk <;> simp [Simple, hk] at this

theorem ownBox_congr_ap {o ap ap' : Obj} (hk : ap'.kind = ap.kind) (hn : ap'.nums = ap.nums) :
    o.ownBox (some ap') = o.ownBox (some ap) := by
  have h1 : lineMargin ap' = lineMargin ap := by
    simp [lineMargin, Obj.radius?, Obj.size?, hk, hn]
  have h2 : arcMargin ap' = arcMargin ap := by
    simp [arcMargin, Obj.radius?, Obj.size?, hk, hn]
  unfold Obj.ownBox
  cases o.kind <;> simp [h1, h2]

theorem ownVertices_congr_ap {o ap ap' : Obj} (hk : ap'.kind = ap.kind) (hn : ap'.nums = ap.nums)
    (ho : o.kind = .line ∨ o.kind = .arc) {v : Option (List RPt)} (h : o.ownVertices (some ap) = .ok v) :
    o.ownVertices (some ap') = .ok v := by
  rcases ho with ho | ho
  · simp only [Obj.ownVertices, ho, lineCorners] at h ⊢
    rw [hk]
    generalize ap.kind = K at h ⊢
    cases K
    case rectangle =>
      simp only at h ⊢
      rw [hn]
      exact h
    case polygon =>
      exfalso
      simp only at h
      split at h
      · cases h
      · split at h
        · simp only [lineVertices] at h
          repeat' split at h
          all_goals cases h
        · cases h
    all_goals exact h
  · simp only [Obj.ownVertices, ho] at h ⊢
    exact h

theorem LineGood.congr_ap {o ap ap' : Obj} (h : LineGood o ap) (ho : o.kind = .line ∨ o.kind = .arc)
    (hk : ap'.kind = ap.kind) (hn : ap'.nums = ap.nums) : LineGood o ap' :=
  ⟨fun b hb => by rw [ownBox_congr_ap hk hn]; exact h.1 b hb,
    h.2.congr rfl rfl fun _ hv => ownVertices_congr_ap hk hn ho hv⟩

theorem ownBox_congr_own {o o' : Obj} (ap : Option Obj) (hk : o'.kind = o.kind)
    (hp : o'.pts = o.pts) (hd : o'.direction = o.direction)
    (hq : o'.quadrantMode = o.quadrantMode) (hr : o'.rotation = o.rotation)
    (hn : o'.nums = o.nums) :
    o'.ownBox ap = o.ownBox ap := by
  simp only [Obj.ownBox, hk, hp, hd, hq, hr, hn]

theorem ownVertices_congr_own {o o' : Obj} (ap : Option Obj) (hk : o'.kind = o.kind)
    (hp : o'.pts = o.pts) (ho : o.kind = .line ∨ o.kind = .arc) : o'.ownVertices ap = o.ownVertices ap := by
  rcases ho with ho | ho <;> simp only [Obj.ownVertices, hk, hp, ho]

theorem LineGood.congr_own {o o' ap : Obj} (h : LineGood o ap) (ho : o.kind = .line ∨ o.kind = .arc)
    (hb : o'.box = o.box) (hv : o'.vertices = o.vertices) (hl : o'.segs = o.segs) (hk : o'.kind = o.kind)
    (hp : o'.pts = o.pts) (hd : o'.direction = o.direction) (hq : o'.quadrantMode = o.quadrantMode) : LineGood o' ap := by
  refine ⟨fun b hb' => ?_, h.2.congr hv hl fun v hv => ?_⟩
  · rw [hb] at hb'
    rw [← h.1 b hb']
    rcases ho with ho | ho <;> simp only [Obj.ownBox, hk, hp, hd, hq, ho]
  · rw [ownVertices_congr_own _ hk hp ho]
    exact hv

theorem LineInv.update {i j k : ℕ} {h : Heap} {o : Obj} (hh : LineInv i j h)
    (hk : o.kind = (h k).kind) (ha : o.aperture = (h k).aperture) (hp : o.parts = (h k).parts)
    (hi : k = i → LineGood o (h j))
    (hj : k = j → o.nums = (h j).nums ∨ Clean (h i)) : LineInv i j (Function.update h k o) := by
  have e : ∀ l, (Function.update h k o l).kind = (h l).kind ∧
      (Function.update h k o l).aperture = (h l).aperture ∧
      (Function.update h k o l).parts = (h l).parts := by
    intro l
    by_cases hl : l = k
    · subst hl
      simp [hk, ha, hp]
    · simp [Function.update_of_ne hl]
  refine ⟨by rw [(e i).1]; exact hh.kind, by rw [(e i).2.1]; exact hh.ap,
    by rw [(e j).1]; exact hh.simple, fun l hl => by rw [(e l).2.1]; exact hh.parent l hl,
    fun l => by rw [(e l).2.2]; exact hh.parts l, ?_⟩
  by_cases h1 : k = i
  · subst h1
    rw [Function.update_self, Function.update_of_ne hh.ne]
    exact hi rfl
  · rw [Function.update_of_ne (Ne.symm h1)]
    by_cases h2 : k = j
    · subst h2
      rw [Function.update_self]
      rcases hj rfl with h3 | h3
      · exact hh.good.congr_ap hh.kind hk h3
      · exact .clean h3 _
    · rw [Function.update_of_ne (Ne.symm h2)]
      exact hh.good

theorem setPt_struct (o : Obj) (a : PA) (v : Option RPt) :
    (o.setPt a v).kind = o.kind ∧ (o.setPt a v).aperture = o.aperture ∧
      (o.setPt a v).parts = o.parts ∧ (o.setPt a v).nums = o.nums := by
  unfold Obj.setPt
  simp only
  split <;> exact ⟨rfl, rfl, rfl, rfl⟩

theorem setNum_struct (o : Obj) (a : NA) (v : Option ℝ) :
    (o.setNum a v).kind = o.kind ∧ (o.setNum a v).aperture = o.aperture ∧
      (o.setNum a v).parts = o.parts := by
  unfold Obj.setNum
  simp only
  split <;> exact ⟨rfl, rfl, rfl⟩

theorem convertOwn_struct (f : ℝ → ℝ) (u : String) (o : Obj) :
    (o.convertOwn f u).kind = o.kind ∧ (o.convertOwn f u).aperture = o.aperture ∧
      (o.convertOwn f u).parts = o.parts := by
  unfold Obj.convertOwn
  simp only
  refine foldl_inv (P := fun x : Obj => x.kind = o.kind ∧ x.aperture = o.aperture ∧
    x.parts = o.parts) (foldl_inv (P := fun x : Obj => x.kind = o.kind ∧ x.aperture = o.aperture ∧
    x.parts = o.parts) ⟨rfl, rfl, rfl⟩ ?_) ?_
  · rintro x a - ⟨h1, h2, h3⟩
    obtain ⟨e1, e2, e3, -⟩ := setPt_struct x a ((o.pts a).map fun p => (f p.1, f p.2))
    exact ⟨e1.trans h1, e2.trans h2, e3.trans h3⟩
  · rintro x a - ⟨h1, h2, h3⟩
    obtain ⟨e1, e2, e3⟩ := setNum_struct x a ((o.nums a).map f)
    exact ⟨e1.trans h1, e2.trans h2, e3.trans h3⟩

theorem good_line_setPt {o ap : Obj} (hk : o.kind = .line ∨ o.kind = .arc)
    (h : LineGood o ap) (a : PA) (v : Option RPt) : LineGood (o.setPt a v) ap := by
  unfold Obj.setPt
  simp only
  split
  · exact .clean (clean_changed _) _
  · next hs =>
    refine ⟨fun b hb => ?_, h.2.congr rfl rfl fun w hw => ?_⟩
    · have := h.1 b hb
      rcases hk with hk | hk <;> cases a <;> simp_all [ptSetter, Obj.ownBox]
    · rcases hk with hk | hk <;> cases a <;> simp_all [ptSetter, Obj.ownVertices]

theorem clean_ownOffset_line {o : Obj} (hk : o.kind = .line ∨ o.kind = .arc) (dx dy : ℝ) :
    Clean (o.offset dx dy) := by
  unfold Obj.offset
  have hc : Clean o.changed := clean_changed o
  rcases hk with hk | hk <;> simp only [hk]
  · exact clean_setPt (clean_setPt hc _ _) _ _
  · exact clean_setPt (clean_setPt (clean_setPt hc _ _) _ _) _ _

theorem offset_struct (o : Obj) (dx dy : ℝ) :
    (o.offset dx dy).kind = o.kind ∧ (o.offset dx dy).aperture = o.aperture ∧
      (o.offset dx dy).parts = o.parts ∧ (o.offset dx dy).nums = o.nums := by
  have h := fixed_ownOffset o dx dy
  have h1 := congrArg Obj.kind h
  have h2 := congrArg Obj.aperture h
  have h3 := congrArg Obj.parts h
  have h4 := congrArg Obj.nums h
  exact ⟨h1, h2, h3, h4⟩

theorem LineInv.offset {i j : ℕ} {dx dy : ℝ} {n : ℕ} {h : Heap} (hh : LineInv i j h) (k : ℕ) :
    LineInv i j (offset dx dy n h k) := by
  induction n generalizing h k with
  | zero => exact hh
  | succ n ih =>
    have hleaf : (h k).kind ≠ .amGroup → LineInv i j (Function.update h k ((h k).offset dx dy)) := by
      intro _
      obtain ⟨h1, h2, h3, h4⟩ := offset_struct (h k) dx dy
      refine hh.update h1 h2 h3 ?_ ?_
      · rintro rfl
        exact .clean (clean_ownOffset_line hh.kind _ _) _
      · rintro rfl
        exact .inl h4
    simp only [Geom.offset]
    cases hk : (h k).kind <;> simp only <;> try exact hleaf (by simp [hk])
    case amGroup =>
      cases (h k).pts .position with
      | none => exact hh
      | some p =>
        refine foldl_inv (hh.update hk.symm rfl rfl ?_ ?_) fun a b _ ha => ih ha b
        · rintro rfl
          rcases hh.kind with h' | h' <;> rw [hk] at h' <;> exact absurd h' (by simp)
        · rintro rfl
          exact .inl rfl
    all_goals
      refine foldl_inv (hh.update (o := (h k).changed) rfl rfl rfl ?_ ?_) fun a b _ ha => ih ha b
      · rintro rfl
        exact .clean (clean_changed _) _
      · rintro rfl
        exact .inl rfl

theorem children_simple {o : Obj} (h : Simple o.kind) : o.children = [] := by
  rcases h with h | h | h | h | h | h | h | h | h <;> simp [Obj.children, h]

theorem LineInv.convert {i j : ℕ} {f : ℝ → ℝ} {src dst : String} {n : ℕ} {h : Heap}
    (hh : LineInv i j h) {k : ℕ} (hkj : k ≠ j) : LineInv i j (convert f src dst n h k) := by
  induction n generalizing h k with
  | zero => exact hh
  | succ n ih =>
    simp only [Geom.convert]
    split
    swap
    · exact hh
    obtain ⟨h1, h2, h3⟩ := convertOwn_struct f dst (h k)
    have hu : LineInv i j (Function.update h k ((h k).convertOwn f dst)) := by
      refine hh.update h1 h2 h3 ?_ (fun h' => absurd h' hkj)
      rintro rfl
      exact .clean (convertOwn_clean _ _ _) _
    by_cases hki : k = i
    · subst hki
      have hc : (h k).children = [j] := by
        rcases hh.kind with h' | h' <;> simp [Obj.children, h', hh.ap]
      rw [hc, List.foldl_cons, List.foldl_nil]
      cases n with
      | zero => exact hu
      | succ n =>
        simp only [Geom.convert]
        split
        swap
        · exact hu
        rw [children_simple hu.simple, List.foldl_nil]
        obtain ⟨g1, g2, g3⟩ := convertOwn_struct f dst (Function.update h k ((h k).convertOwn f dst) j)
        refine hu.update g1 g2 g3 (fun h' => absurd h' hh.ne) fun _ => .inr ?_
        rw [Function.update_self]
        exact convertOwn_clean _ _ _
    · refine foldl_inv hu fun a b hb ha => ih ha ?_
      rintro rfl
      have h4 := hh.parent k hki
      have h5 := hh.parts k
      revert hb
      unfold Obj.children
      cases (h k).kind <;> simp only <;> first
        | (split <;> simp_all)
        | simp_all

theorem LineInv.readBox {i j n : ℕ} {h : Heap} (hh : LineInv i j h) (k : ℕ) :
    LineInv i j (readBox n h k).2 := by
  have := (read_inv (P := fun h' => LineInv i j h' ∧ ∀ j, (h' j).kind = (h j).kind)
    (K := fun j => (h j).kind) ?_ ?_ ?_ n) h k ⟨hh, fun _ => rfl⟩
  · exact this.1
  · rintro h' k b ⟨h1, h2⟩ hb
    refine ⟨h1.update (o := (h' k).withBox b) rfl rfl rfl ?_ ?_, fun j => ?_⟩
    · rintro rfl
      refine ⟨fun b' hb' => ?_, h1.good.2.congr rfl rfl fun v hv => ?_⟩
      · simp only [Obj.withBox, Option.some.injEq] at hb'
        subst hb'
        rw [h1.ap, Option.map_some] at hb
        exact hb
      · rw [← hv]
        exact ownVertices_congr_own _ rfl rfl h1.kind
    · rintro rfl
      exact .inl rfl
    · by_cases hj : j = k
      · subst hj
        simpa [Obj.withBox] using h2 j
      · simpa [Function.update_of_ne hj] using h2 j
  · rintro h' k b ⟨h1, h2⟩ hk
    refine ⟨h1.update (o := (h' k).withBox b) rfl rfl rfl ?_ ?_, fun j => ?_⟩
    · rintro rfl
      rcases hk with hk | hk <;> rcases h1.kind with h3 | h3 <;> rw [hk] at h3 <;>
        exact absurd h3 (by simp)
    · rintro rfl
      exact .inl rfl
    · by_cases hj : j = k
      · subst hj
        simpa [Obj.withBox] using h2 j
      · simpa [Function.update_of_ne hj] using h2 j
  · exact fun h' hP => hP.2

theorem LineInv.readVertices {i j : ℕ} {h : Heap} (hh : LineInv i j h) (k : ℕ) : LineInv i j (readVertices h k).2 := by
  rcases readVertices_cases h k with h1 | ⟨r, h1, h2⟩
  · rw [h1]; exact hh
  · rw [h2]
    refine hh.update (o := { h k with vertices := r }) rfl rfl rfl ?_ ?_
    · rintro rfl
      rw [hh.ap, Option.map_some] at h1
      refine ⟨hh.good.1, ?_, hh.good.2.segs⟩
      intro v hv
      have hv : r = some v := hv
      rw [← hv]
      exact h1
    · rintro rfl
      exact .inl rfl

theorem LineInv.readSegments {i j : ℕ} {h : Heap} (hh : LineInv i j h) (k : ℕ) : LineInv i j (readSegments h k).2 := by
  have hv := hh.readVertices k
  rcases readSegments_cases h k with h1 | h1 | ⟨v, l, h1, h2, h3⟩
  · rw [h1]; exact hh
  · rw [h1]; exact hv
  · rw [h3]
    refine hv.update (o := { (Geom.readVertices h k).2 k with segs := some l }) rfl rfl rfl ?_ ?_
    · rintro rfl
      refine ⟨hv.good.1, hv.good.2.vs, ?_⟩
      intro l' hl'
      simp only [Option.some.injEq] at hl'
      subst hl'
      obtain ⟨w, hw⟩ := readVertices_same h k k
      obtain ⟨w', hw'⟩ := readVertices_same h k j
      refine ⟨v, ?_, h2⟩
      have hr := readVertices_value (h := h) (i := k) (ap := some (h j)) (by rw [hh.ap]; rfl) hh.good.2
      rw [h1] at hr
      rw [hr, hw, hw']
      rfl
    · rintro rfl
      exact .inl rfl

/-- The action leaves the aperture `j` of `i` alone: it neither changes sizes of `j` (except by
converting `i` itself) nor gives `j` to another object, and it does not assign the plain attributes
`aperture` and `direction` of `i`. -/
def Act.Spares (i j : ℕ) : Act → Prop
  | .setNum k _ _ => k ≠ j
  | .setDirection k _ => k ≠ i
  | .setAperture k a => k ≠ i ∧ a ≠ some j
  | .setParts _ l => j ∉ l
  | .toInch k => k ≠ j
  | .toMetric k => k ≠ j
  | _ => True

theorem LineInv.run {i j n : ℕ} {h : Heap} (hh : LineInv i j h) {a : Act} (ha : a.Spares i j) :
    LineInv i j (a.run n h) := by
  have good' := hh.good
  cases a with
  | setPt k a v =>
    simp only [Act.run]
    split
    · next hc =>
      unfold Geom.setGroupPosition
      simp only
      have h1 : LineInv i j ((h k).parts.foldl
          (Geom.offset ((h k).groupDelta v).1 ((h k).groupDelta v).2 n) h) :=
        foldl_inv hh fun h' j _ hj => hj.offset j
      refine h1.update (o := Obj.withPosition _ v) rfl rfl rfl ?_ ?_
      · rintro rfl
        rcases hh.kind with h' | h' <;> rw [hc.1] at h' <;> exact absurd h' (by simp)
      · rintro rfl
        exact .inl rfl
    · obtain ⟨h1, h2, h3, h4⟩ := setPt_struct (h k) a (some v)
      refine hh.update h1 h2 h3 ?_ ?_
      · rintro rfl
        exact good_line_setPt hh.kind hh.good _ _
      · rintro rfl
        exact .inl h4
  | setNum k a v =>
    obtain ⟨h1, h2, h3⟩ := setNum_struct (h k) a (some v)
    refine hh.update h1 h2 h3 ?_ (fun h' => absurd h' ha)
    rintro rfl
    unfold Obj.setNum
    simp only
    split
    · exact .clean (clean_changed _) _
    · refine ⟨fun b hb => ?_, hh.good.2.congr rfl rfl fun v hv => ?_⟩
      · rw [← hh.good.1 b hb]
        rcases hh.kind with hk | hk <;> simp [Obj.ownBox, hk]
      · rw [← hv]
        exact ownVertices_congr_own _ rfl rfl hh.kind
  | setRotation k v =>
    refine hh.update (o := (h k).setRotation v) rfl rfl rfl ?_ ?_
    · rintro rfl
      exact .clean ⟨rfl, rfl, rfl⟩ _
    · rintro rfl
      exact .inl rfl
  | setUnits k u =>
    refine hh.update (o := (h k).setUnits u) rfl rfl rfl ?_ ?_
    · rintro rfl
      exact .clean ⟨rfl, rfl, rfl⟩ _
    · rintro rfl
      exact .inl rfl
  | setDirection k d =>
    refine hh.update (o := { h k with direction := d }) rfl rfl rfl (fun h' => absurd h' ha) ?_
    rintro rfl
    exact .inl rfl
  | setQuadrantMode k q =>
    refine hh.update (o := { (h k).changed with quadrantMode := q }) rfl rfl rfl ?_ ?_
    · rintro rfl
      exact .clean ⟨rfl, rfl, rfl⟩ _
    · rintro rfl
      exact .inl rfl
  | setAperture k a =>
    have hne := ha.1
    have e : ∀ l, l ≠ k → Function.update h k { h k with aperture := a } l = h l :=
      fun l hl => Function.update_of_ne hl _ _
    have ek : (Function.update h k { h k with aperture := a } : Heap) k =
      { h k with aperture := a } := Function.update_self ..
    simp only [Act.run]
    have ei := e i (Ne.symm hne)
    have ej : LineGood (h i) (Function.update h k { h k with aperture := a } j) := by
      refine hh.good.congr_ap hh.kind ?_ ?_ <;> by_cases hj : j = k
      · subst hj; rw [ek]
      · rw [e j hj]
      · subst hj; rw [ek]
      · rw [e j hj]
    refine ⟨by rw [ei]; exact hh.kind, by rw [ei]; exact hh.ap, ?_, fun l hl => ?_, fun l => ?_, ?_⟩
    · by_cases hj : j = k
      · subst hj; rw [ek]; exact hh.simple
      · rw [e j hj]; exact hh.simple
    · by_cases hj : l = k
      · subst hj; rw [ek]; exact ha.2
      · rw [e l hj]; exact hh.parent l hl
    · by_cases hj : l = k
      · subst hj; rw [ek]; exact hh.parts l
      · rw [e l hj]; exact hh.parts l
    · rw [ei]
      exact ej
  | setParts k l' =>
    have e : ∀ l, l ≠ k → Function.update h k { h k with parts := l' } l = h l :=
      fun l hl => Function.update_of_ne hl _ _
    have ek : (Function.update h k { h k with parts := l' } : Heap) k =
      { h k with parts := l' } := Function.update_self ..
    simp only [Act.run]
    have ej : LineGood (h i) (Function.update h k { h k with parts := l' } j) := by
      refine hh.good.congr_ap hh.kind ?_ ?_ <;> by_cases hj : j = k
      · subst hj; rw [ek]
      · rw [e j hj]
      · subst hj; rw [ek]
      · rw [e j hj]
    refine ⟨?_, ?_, ?_, fun l hl => ?_, fun l => ?_, ?_⟩
    · by_cases hj : i = k
      · subst hj; rw [ek]; exact hh.kind
      · rw [e i hj]; exact hh.kind
    · by_cases hj : i = k
      · subst hj; rw [ek]; exact hh.ap
      · rw [e i hj]; exact hh.ap
    · by_cases hj : j = k
      · subst hj; rw [ek]; exact hh.simple
      · rw [e j hj]; exact hh.simple
    · by_cases hj : l = k
      · subst hj; rw [ek]; exact hh.parent l hl
      · rw [e l hj]; exact hh.parent l hl
    · by_cases hj : l = k
      · subst hj; rw [ek]; exact ha
      · rw [e l hj]; exact hh.parts l
    · by_cases hj : i = k
      · subst hj
        rw [ek]
        exact ej.congr_own hh.kind rfl rfl rfl rfl rfl rfl rfl
      · rw [e i hj]
        exact ej
  | offset k dx dy => exact hh.offset k
  | toInch k => exact hh.convert ha
  | toMetric k => exact hh.convert ha
  | setSides k m =>
    refine hh.update (o := { h k with sides := m }) rfl rfl rfl ?_ ?_
    · rintro rfl
      exact hh.good.congr_own hh.kind rfl rfl rfl rfl rfl rfl rfl
    · rintro rfl
      exact .inl rfl
  | setCorners k l =>
    have hc : (h k).setCorners l = { (h k).changed with corners := l } ∨ (h k).setCorners l = { h k with corners := l } := by
      unfold Obj.setCorners
      split
      · exact .inl rfl
      · exact .inr rfl
    simp only [Act.run]
    rcases hc with hc | hc <;> rw [hc]
    · refine hh.update (o := { (h k).changed with corners := l }) rfl rfl rfl ?_ ?_
      · rintro rfl
        exact .clean ⟨rfl, rfl, rfl⟩ _
      · rintro rfl
        exact .inl rfl
    · refine hh.update (o := { h k with corners := l }) rfl rfl rfl ?_ ?_
      · rintro rfl
        exact hh.good.congr_own hh.kind rfl rfl rfl rfl rfl rfl rfl
      · rintro rfl
        exact .inl rfl
  | readBox k => exact hh.readBox k
  | readVertices k => exact hh.readVertices k
  | readSegments k => exact hh.readSegments k

theorem readBox_line {n : ℕ} {h : Heap} {i : ℕ} (hk : (h i).kind = .line ∨ (h i).kind = .arc)
    (hg : ∀ b, (h i).box = some b → (h i).ownBox ((h i).aperture.map h) = some b) :
    (readBox (n + 1) h i).1 = (h i).ownBox ((h i).aperture.map h) := by
  have hgo : (match (h i).box with
          | some b => (some b, h)
          | none => match (h i).ownBox ((h i).aperture.map h) with
            | none => (none, h)
            | some b => (some b, Function.update h i ((h i).withBox b))).1 =
      (h i).ownBox ((h i).aperture.map h) := by
    cases hb : (h i).box with
    | some b => exact (hg b hb).symm
    | none =>
      simp only
      cases (h i).ownBox ((h i).aperture.map h) <;> rfl
  rw [readBox]
  rcases hk with h' | h' <;> rw [h'] <;> exact hgo

/-- Lines and arcs with an aperture of their own that nobody else changes: never stale. -/
theorem C31_line_partial (n m : ℕ) (h : Heap) (acts : List Act) (i j : ℕ)
    (h0 : ∀ k, Clean (h k)) (hk : (h i).kind = .line ∨ (h i).kind = .arc)
    (hap : (h i).aperture = some j) (hj : Simple (h j).kind)
    (hown : ∀ k, k ≠ i → (h k).aperture ≠ some j) (hparts : ∀ k, j ∉ (h k).parts)
    (hs : ∀ a ∈ acts, a.Spares i j) :
    (readBox (m + 1) (runActs n h acts) i).1 =
      (readBox (m + 1) (rebuilt (runActs n h acts) i) i).1 := by
  have hi : LineInv i j (runActs n h acts) :=
    foldl_inv ⟨hk, hap, hj, hown, hparts, .clean (h0 i) _⟩
      fun h' a ha hh => hh.run (hs a ha)
  generalize runActs n h acts = H at hi
  have hr : rebuilt H i i = (H i).changed := by simp [rebuilt, Obj.changed]
  rw [readBox_line hi.kind (by rw [hi.ap]; exact hi.good.1),
    readBox_line (h := rebuilt H i) (by rw [hr]; exact hi.kind) (by
      rw [hr]; intro b hb; exact absurd hb (by simp [Obj.changed])), hr]
  have hap' : (H i).changed.aperture = some j := hi.ap
  rw [hi.ap, hap', Option.map_some, Option.map_some,
    ownBox_congr_own (o := H i) (o' := (H i).changed) _ rfl rfl rfl rfl rfl rfl]
  have : rebuilt H i j = H j := Function.update_of_ne hi.ne _ _
  rw [this]

/-! ## Stale boxes -/

/-- An object with all points at the origin and all numbers 1. -/
def blank (k : Kind) (ap : Option ℕ) (parts : List ℕ) : Obj :=
  { kind := k, units := some "inch", rotation := 0, pts := fun _ => some (0, 0), nums := fun _ => some 1,
    direction := "clockwise", quadrantMode := "multi-quadrant", aperture := ap, parts := parts }

/-- A box read after the history is not the fresh one. -/
def Stale (h : Heap) (acts : List Act) (i : ℕ) : Prop :=
  (∀ j, Clean (h j)) ∧
    (readBox 3 (runActs 3 h acts) i).1 ≠ (readBox 3 (rebuilt (runActs 3 h acts) i) i).1

/-- A slot: moved after its box was read. -/
theorem C31_slot_violated :
    Stale (fun _ => blank .slot none []) [.readBox 0, .offset 0 1 0] 0 := by
  refine ⟨fun _ => ⟨rfl, rfl, rfl⟩, ?_⟩
  simp [runActs, Act.run, readBox, offset, Obj.offset, Obj.setPt, ptSetter, blank, rebuilt,
    Obj.ownBox, Obj.withBox, segBox, Box.grow, shift]

/-- Butterflies and donuts: a position or size assigned after the box was read. -/
theorem C31_plain_violated :
    Stale (fun _ => blank .roundButterfly none []) [.readBox 0, .setPt 0 .position (1, 0)] 0 ∧
    Stale (fun _ => blank .squareButterfly none []) [.readBox 0, .setNum 0 .side 2] 0 ∧
    Stale (fun _ => blank .donut none []) [.readBox 0, .setPt 0 .position (1, 0)] 0 ∧
    Stale (fun _ => blank .squareRoundDonut none []) [.readBox 0, .setNum 0 .outerDiameter 2] 0 := by
  refine ⟨⟨fun _ => ⟨rfl, rfl, rfl⟩, ?_⟩, ⟨fun _ => ⟨rfl, rfl, rfl⟩, ?_⟩, ⟨fun _ => ⟨rfl, rfl, rfl⟩, ?_⟩, ⟨fun _ => ⟨rfl, rfl, rfl⟩, ?_⟩⟩ <;>
    simp [runActs, Act.run, readBox, Obj.setPt, Obj.setNum, ptSetter, numSetter, blank, rebuilt,
      Obj.ownBox, Obj.withBox, around]

/-- A line (0 and 1) and apertures (2 and 3). -/
def twoLines : Heap := fun i =>
  if i ≤ 1 then blank .line (some 2) []
  else { blank .circle none [] with nums := fun _ => some (i : ℝ) }

/-- A line whose aperture is assigned after its box was read; and a line sharing its aperture with
another one that is converted. -/
theorem C31_aperture_violated :
    Stale twoLines [.readBox 0, .setAperture 0 (some 3)] 0 ∧
    Stale twoLines [.readBox 0, .toMetric 1] 0 := by
  refine ⟨⟨fun j => by unfold twoLines; split <;> exact ⟨rfl, rfl, rfl⟩, ?_⟩,
    ⟨fun j => by unfold twoLines; split <;> exact ⟨rfl, rfl, rfl⟩, ?_⟩⟩
  · simp [runActs, Act.run, readBox, twoLines, blank, rebuilt, Obj.ownBox, Obj.withBox, segBox,
      Box.grow, lineMargin, Obj.radius?]
    norm_num
  · simp [runActs, Act.run, readBox, twoLines, blank, rebuilt, Obj.ownBox, Obj.withBox, segBox,
      Box.grow, lineMargin, Obj.radius?, toMetric, convert, Obj.children, Obj.convertOwn,
      Obj.setUnits, Obj.changed, ptConvert, numConvert, Obj.setPt, Obj.setNum, ptSetter, numSetter]
    norm_num

/-- A region (0) one of whose lines (1) is moved after the box of the region was read. -/
theorem C31_region_violated :
    Stale (fun i => if i = 0 then blank .region none [1] else blank .line none [])
      [.readBox 0, .offset 1 1 0] 0 := by
  refine ⟨fun j => by dsimp only; split <;> exact ⟨rfl, rfl, rfl⟩, ?_⟩
  simp [runActs, Act.run, readBox, readBare, readParts, unionBox, blank, rebuilt, Obj.bareBox,
    Obj.withBox, segBox, offset, Obj.offset, Obj.setPt, Obj.changed, ptSetter, shift]

/-- The theorem applies to a circle that is read, moved, converted and resized. -/
example : (readBox 2 (runActs 3 (fun _ => blank .circle none [])
      [.readBox 0, .offset 0 1 0, .readBox 0, .toMetric 0, .setNum 0 .diameter 5]) 0).1 =
    (readBox 2 (rebuilt (runActs 3 (fun _ => blank .circle none [])
      [.readBox 0, .offset 0 1 0, .readBox 0, .toMetric 0, .setNum 0 .diameter 5]) 0) 0).1 := by
  refine C31_fresh_partial 3 1 _ _ 0 (fun _ => ⟨rfl, rfl, rfl⟩) (.inl ?_)
  simp [runActs, Act.run, readBox, blank, Obj.ownBox, Obj.withBox, toMetric, convert, Obj.children,
    Obj.convertOwn, Obj.setUnits, Obj.changed, ptConvert, numConvert, Obj.setPt, Obj.setNum,
    ptSetter, numSetter, offset, Obj.offset]

/-- And to a line that is read, moved and converted. -/
example : (readBox 2 (runActs 3 (fun i => if i = 0 then blank .line (some 1) [] else blank .circle none [])
      [.readBox 0, .offset 0 1 0, .readBox 0, .toMetric 0, .setPt 0 .stop (3, 4)]) 0).1 =
    (readBox 2 (rebuilt (runActs 3
      (fun i => if i = 0 then blank .line (some 1) [] else blank .circle none [])
      [.readBox 0, .offset 0 1 0, .readBox 0, .toMetric 0, .setPt 0 .stop (3, 4)]) 0) 0).1 := by
  refine C31_line_partial 3 1 _ _ 0 1 (fun j => by split <;> exact ⟨rfl, rfl, rfl⟩) (.inl rfl) rfl (.inl rfl)
    (fun k hk => by simp [hk, blank]) (fun k => by split <;> simp [blank]) ?_
  simp [Act.Spares]

end Verif.Geom
