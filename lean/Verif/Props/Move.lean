import Verif.Props.Cache

/-! # Moving primitives (C33, C41) -/

namespace Verif.Geom

/-- The classes with parts. -/
def Container (k : Kind) : Prop := k = .amGroup ∨ k = .outline ∨ k = .region

instance (k : Kind) : Decidable (Container k) := by unfold Container; infer_instance

/-- An object and its parts, and their parts, `n` levels deep. -/
def footprint : ℕ → Heap → ℕ → List ℕ
  | 0, _, _ => []
  | n + 1, h, i => i :: (if Container (h i).kind then (h i).parts.flatMap (footprint n h) else [])

/-- What moving does to one object. -/
def Obj.moved (dx dy : ℝ) (o : Obj) : Obj :=
  if o.kind = .amGroup then
    { o with pts := Function.update o.pts .position ((o.pts .position).map (shift dx dy)) }
  else if Container o.kind then o.changed
  else o.offset dx dy

theorem footprint_congr {h h' : Heap} (hk : ∀ k, (h' k).kind = (h k).kind ∧ (h' k).parts = (h k).parts)
    (n i : ℕ) : footprint n h' i = footprint n h i := by
  induction n generalizing i with
  | zero => rfl
  | succ n ih =>
    have : footprint n h' = footprint n h := funext ih
    simp only [footprint, (hk i).1, (hk i).2, this]

theorem same_offset (dx dy : ℝ) (n : ℕ) (h : Heap) (i k : ℕ) :
    (offset dx dy n h i k).kind = (h k).kind ∧ (offset dx dy n h i k).parts = (h k).parts := by
  have := fixed_offset (dx := dx) (dy := dy) (n := n) (h := h) i k
  have h1 := congrArg Obj.kind this
  have h2 := congrArg Obj.parts this
  exact ⟨h1, h2⟩

/-- Moving an object moves exactly the object and its parts, each once. -/
theorem offset_spec (dx dy : ℝ) (n : ℕ) : ∀ (h : Heap) (i : ℕ), (footprint n h i).Nodup →
    (∀ k ∈ footprint n h i, (h k).kind = .amGroup → (h k).pts .position ≠ none) →
    ∀ k, offset dx dy n h i k = if k ∈ footprint n h i then (h k).moved dx dy else h k := by
  induction n with
  | zero => intro h i _ _ k; simp [offset, footprint]
  | succ n ih =>
    have fold : ∀ (l : List ℕ) (h : Heap), (l.flatMap (footprint n h)).Nodup →
        (∀ k ∈ l.flatMap (footprint n h), (h k).kind = .amGroup → (h k).pts .position ≠ none) →
        ∀ k, l.foldl (offset dx dy n) h k =
          if k ∈ l.flatMap (footprint n h) then (h k).moved dx dy else h k := by
      intro l
      induction l with
      | nil => intro h _ _ k; simp
      | cons x l ihl =>
        intro h hnd hpos k
        rw [List.flatMap_cons] at hnd hpos
        rw [List.nodup_append] at hnd
        obtain ⟨hx, hl, hdis⟩ := hnd
        have hsame := same_offset dx dy n h x
        have hfp : footprint n (offset dx dy n h x) = footprint n h :=
          funext fun i => footprint_congr hsame n i
        have hspec := ih h x hx fun k hk => hpos k (List.mem_append_left _ hk)
        have hout : ∀ k ∈ l.flatMap (footprint n h), offset dx dy n h x k = h k := by
          intro k hk
          rw [hspec k, if_neg]
          intro hkx
          exact hdis k hkx k hk rfl
        rw [List.foldl_cons, ihl _ (by rw [hfp]; exact hl) (by
          rw [hfp]
          intro k hk
          rw [hout k hk]
          exact hpos k (List.mem_append_right _ hk)), hfp, List.flatMap_cons]
        by_cases hk : k ∈ l.flatMap (footprint n h)
        · rw [if_pos hk, hout k hk, if_pos (List.mem_append_right _ hk)]
        · rw [if_neg hk, hspec k]
          by_cases hk' : k ∈ footprint n h x
          · rw [if_pos hk', if_pos (List.mem_append_left _ hk')]
          · rw [if_neg hk', if_neg]
            rw [List.mem_append]
            exact fun h => h.elim hk' hk
    intro h i hnd hpos k
    have hcont : ∀ o' : Obj, Container (h i).kind → o' = (h i).moved dx dy →
        o'.kind = (h i).kind → o'.parts = (h i).parts →
        (h i).parts.foldl (offset dx dy n) (Function.update h i o') k =
          if k ∈ footprint (n + 1) h i then (h k).moved dx dy else h k := by
      intro o' hc ho hk hp
      simp only [footprint, if_pos hc] at hnd hpos ⊢
      rw [List.nodup_cons] at hnd
      have hsame : ∀ k, (Function.update h i o' k).kind = (h k).kind ∧
          (Function.update h i o' k).parts = (h k).parts := by
        intro k
        by_cases hki : k = i
        · subst hki; simp [hk, hp]
        · simp [Function.update_of_ne hki]
      have hfp : footprint n (Function.update h i o') = footprint n h :=
        funext fun i => footprint_congr hsame n i
      have hne : ∀ k ∈ (h i).parts.flatMap (footprint n h), Function.update h i o' k = h k := by
        intro k hk
        refine Function.update_of_ne ?_ _ _
        rintro rfl
        exact hnd.1 hk
      rw [fold _ _ (by rw [hfp]; exact hnd.2) (by
        rw [hfp]
        intro k hk
        rw [hne k hk]
        exact hpos k (List.mem_cons_of_mem _ hk)), hfp]
      by_cases hk : k ∈ (h i).parts.flatMap (footprint n h)
      · rw [if_pos hk, hne k hk, if_pos (List.mem_cons_of_mem _ hk)]
      · rw [if_neg hk]
        by_cases hki : k = i
        · subst hki
          rw [Function.update_self, ho, if_pos (by simp)]
        · rw [Function.update_of_ne hki, if_neg]
          rw [List.mem_cons]
          exact fun h => h.elim hki hk
    have hleaf : ¬ Container (h i).kind → Function.update h i ((h i).offset dx dy) k =
        if k ∈ footprint (n + 1) h i then (h k).moved dx dy else h k := by
      intro hc
      simp only [footprint, if_neg hc, List.mem_singleton]
      by_cases hki : k = i
      · subst hki
        rw [Function.update_self, if_pos rfl, Obj.moved, if_neg, if_neg hc]
        intro h'
        exact hc (.inl h')
      · rw [Function.update_of_ne hki, if_neg hki]
    simp only [offset]
    cases hk : (h i).kind <;> simp only
    case amGroup =>
      have hp := hpos i (by simp [footprint]) hk
      cases hpp : (h i).pts .position with
      | none => exact absurd hpp hp
      | some p =>
        simp only
        have h1 : (h i).moved dx dy = { h i with
            pts := Function.update (h i).pts .position (some (shift dx dy p)) } := by
          simp [Obj.moved, hk, hpp]
        refine hcont _ (.inl hk) ?_ hk.symm rfl
        rw [h1]
        simp only [hk]
    case outline =>
      refine hcont _ (.inr (.inl hk)) ?_ rfl rfl
      simp [Obj.moved, hk, Container]
    case region =>
      refine hcont _ (.inr (.inr hk)) ?_ rfl rfl
      simp [Obj.moved, hk, Container]
    all_goals exact hleaf (by simp [Container, hk])

/-! ## Boxes without caches -/

/-- The box of the attributes, nothing cached; `bare`: of lines and arcs without aperture. -/
noncomputable def boxOf : ℕ → Heap → ℕ → Option Box
  | 0, _, _ => none
  | n + 1, h, i =>
    if (h i).kind = .amGroup ∨ (h i).kind = .outline then
      ((h i).parts.mapM (boxOf n h)).bind unionBox
    else if (h i).kind = .region then
      ((h i).parts.mapM fun k => if (h k).kind = .line ∨ (h k).kind = .arc then (h k).bareBox
        else boxOf n h k).bind unionBox
    else (h i).ownBox ((h i).aperture.map h)

/-- A translated box. -/
def Box.translate (dx dy : ℝ) (b : Box) : Box :=
  ((b.1.1 + dx, b.1.2 + dx), (b.2.1 + dy, b.2.2 + dy))

theorem foldl_min_add (l : List ℝ) (a d : ℝ) :
    (l.map (· + d)).foldl min (a + d) = l.foldl min a + d := by
  induction l generalizing a with
  | nil => rfl
  | cons x l ih => simp only [List.map_cons, List.foldl_cons, min_add_add_right, ih]

theorem foldl_max_add (l : List ℝ) (a d : ℝ) :
    (l.map (· + d)).foldl max (a + d) = l.foldl max a + d := by
  induction l generalizing a with
  | nil => rfl
  | cons x l ih => simp only [List.map_cons, List.foldl_cons, max_add_add_right, ih]

theorem unionBox_translate (dx dy : ℝ) (l : List Box) :
    unionBox (l.map (Box.translate dx dy)) = (unionBox l).map (Box.translate dx dy) := by
  cases l with
  | nil => rfl
  | cons b l =>
    simp only [List.map_cons, unionBox, Option.map_some, Option.some.injEq, List.map_map]
    have h1 := foldl_min_add (l.map (·.1.1)) b.1.1 dx
    have h2 := foldl_max_add (l.map (·.1.2)) b.1.2 dx
    have h3 := foldl_min_add (l.map (·.2.1)) b.2.1 dy
    have h4 := foldl_max_add (l.map (·.2.2)) b.2.2 dy
    simp only [List.map_map] at h1 h2 h3 h4
    simp only [Box.translate, Prod.mk.injEq]
    exact ⟨⟨h1, h2⟩, ⟨h3, h4⟩⟩

theorem hullBox_translate (dx dy : ℝ) {l : List RPt} (hl : l ≠ []) :
    hullBox (l.map (shift dx dy)) = (hullBox l).translate dx dy := by
  cases l with
  | nil => exact absurd rfl hl
  | cons b l =>
    simp only [List.map_cons, hullBox, List.map_map]
    have h1 := foldl_min_add (l.map (·.1)) b.1 dx
    have h2 := foldl_max_add (l.map (·.1)) b.1 dx
    have h3 := foldl_min_add (l.map (·.2)) b.2 dy
    have h4 := foldl_max_add (l.map (·.2)) b.2 dy
    simp only [List.map_map] at h1 h2 h3 h4
    simp only [Box.translate, Prod.mk.injEq]
    exact ⟨⟨h1, h2⟩, ⟨h3, h4⟩⟩

theorem theta_shift (dx dy : ℝ) (p c : RPt) : theta (shift dx dy p) (shift dx dy c) = theta p c := by
  simp only [theta, shift, add_sub_add_right_eq_sub]

theorem arcRadius_shift (dx dy : ℝ) (p c : RPt) :
    arcRadius (shift dx dy p) (shift dx dy c) = arcRadius p c := by
  simp only [arcRadius, shift, add_sub_add_right_eq_sub]

theorem arcExtra_shift (dx dy : ℝ) (c : RPt) (r a b : ℝ) :
    arcExtra (shift dx dy c) r a b = (arcExtra c r a b).map (shift dx dy) := by
  have e1 : ((shift dx dy c).1 + r, (shift dx dy c).2) = shift dx dy (c.1 + r, c.2) := by
    refine Prod.ext ?_ ?_ <;> (simp only [shift]; try ring)
  have e2 : ((shift dx dy c).1 - r, (shift dx dy c).2) = shift dx dy (c.1 - r, c.2) := by
    refine Prod.ext ?_ ?_ <;> (simp only [shift]; try ring)
  have e3 : ((shift dx dy c).1, (shift dx dy c).2 + r) = shift dx dy (c.1, c.2 + r) := by
    refine Prod.ext ?_ ?_ <;> (simp only [shift]; try ring)
  have e4 : ((shift dx dy c).1, (shift dx dy c).2 - r) = shift dx dy (c.1, c.2 - r) := by
    refine Prod.ext ?_ ?_ <;> (simp only [shift]; try ring)
  have hif : ∀ (P : Prop) [Decidable P] (x : RPt),
      (if P then [shift dx dy x] else []) = (if P then [x] else []).map (shift dx dy) := by
    intro P _ x; split <;> rfl
  unfold arcExtra
  rw [e1, e2, e3, e4]
  simp only [hif, List.map_append]

theorem arcPoints_shift (dx dy : ℝ) (d q : String) (s e c : RPt) :
    arcPoints d q (shift dx dy s) (shift dx dy e) (shift dx dy c) =
      (arcPoints d q s e c).map (shift dx dy) := by
  unfold arcPoints
  rw [theta_shift, theta_shift, arcRadius_shift, arcExtra_shift, arcExtra_shift]
  split
  · split <;> simp
  · simp

theorem segBox_shift (dx dy : ℝ) (s e : RPt) :
    segBox (shift dx dy s) (shift dx dy e) = (segBox s e).translate dx dy := by
  simp only [segBox, shift, Box.translate, min_add_add_right, max_add_add_right]

theorem arcBox_shift (dx dy : ℝ) (d q : String) (s e c : RPt) :
    arcBox d q (shift dx dy s) (shift dx dy e) (shift dx dy c) =
      (arcBox d q s e c).translate dx dy := by
  unfold arcBox
  rw [arcPoints_shift, hullBox_translate]
  simp [arcPoints]

theorem grow_translate (dx dy : ℝ) (b : Box) (m : ℝ × ℝ) :
    (b.translate dx dy).grow m = (b.grow m).translate dx dy := by
  simp only [Box.grow, Box.translate, Prod.mk.injEq]
  exact ⟨⟨by ring, by ring⟩, ⟨by ring, by ring⟩⟩

theorem around_shift (dx dy : ℝ) (p : RPt) (w h : ℝ) :
    around (shift dx dy p) w h = (around p w h).translate dx dy := by
  simp only [around, shift, Box.translate, Prod.mk.injEq]
  exact ⟨⟨by ring, by ring⟩, ⟨by ring, by ring⟩⟩

theorem setPt_pts (o : Obj) (a b : PA) (v : Option RPt) :
    (o.setPt a v).pts b = if b = a then v else o.pts b := by
  unfold Obj.setPt
  simp only
  split <;> simp [Obj.changed, Function.update_apply]

/-- The aperture attributes a line or arc depends on. -/
def apEq (ap ap' : Option Obj) : Prop :=
  ap'.map Obj.kind = ap.map Obj.kind ∧ ap'.map Obj.nums = ap.map Obj.nums

theorem apEq_margin {ap ap' : Option Obj} (h : apEq ap ap') :
    (ap'.bind lineMargin) = ap.bind lineMargin ∧ (ap'.bind arcMargin) = ap.bind arcMargin := by
  obtain ⟨hk, hn⟩ := h
  cases ap <;> cases ap' <;> simp at hk hn ⊢
  simp [lineMargin, arcMargin, Obj.radius?, Obj.size?, hk, hn]

theorem offset_pts (dx dy : ℝ) (x : Obj) (a : PA) (ha : a ∈ ptConvert x.kind)
    (hc : ¬ Container x.kind) : (x.offset dx dy).pts a = (x.pts a).map (shift dx dy) := by
  unfold Obj.offset
  revert ha hc
  cases x.kind <;> cases a <;> simp [ptConvert, setPt_pts, Obj.changed, Container]

/-- Moving an object without parts moves its box. -/
theorem ownBox_moved {ap ap' : Option Obj} {x : Obj} (dx dy : ℝ) (hc : ¬ Container x.kind)
    (hap : apEq ap ap') :
    (x.offset dx dy).ownBox ap' = (x.ownBox ap).map (Box.translate dx dy) := by
  have hf := fixed_ownOffset x dx dy
  have f1 := congrArg Obj.kind hf
  have f2 := congrArg Obj.nums hf
  have f3 := congrArg Obj.rotation hf
  have f4 := congrArg Obj.direction hf
  have f5 := congrArg Obj.quadrantMode hf
  simp only [Obj.fixed] at f1 f2 f3 f4 f5
  obtain ⟨m1, m2⟩ := apEq_margin hap
  have hp := fun a ha => offset_pts dx dy x a ha hc
  unfold Obj.ownBox
  rw [f1, f2, f3, f4, f5]
  simp only [bind, ← Option.bind_assoc, m1, m2]
  cases hk : x.kind <;> simp only [hk, ptConvert, List.mem_cons, List.not_mem_nil, or_false] at hp ⊢
  case amGroup => rfl
  case outline => rfl
  case region => rfl
  case line =>
    rw [hp .start (by simp), hp .stop (by simp)]
    cases ap.bind lineMargin <;> cases x.pts .start <;> cases x.pts .stop <;>
      simp [segBox_shift, grow_translate, pure]
  case arc =>
    rw [hp .start (by simp), hp .stop (by simp), hp .center (by simp)]
    cases ap.bind arcMargin <;> cases x.pts .start <;> cases x.pts .stop <;>
      cases x.pts .center <;> simp [arcBox_shift, grow_translate, pure]
  case slot =>
    rw [hp .start (by simp), hp .stop (by simp)]
    cases x.nums .diameter <;> cases x.pts .start <;> cases x.pts .stop <;>
      simp [segBox_shift, grow_translate, pure]
  all_goals
    rw [hp .position rfl]
    cases x.pts .position
    all_goals simp [around_shift, pure, Option.map_bind]

theorem bareBox_moved {x : Obj} (dx dy : ℝ) (hc : x.kind = .line ∨ x.kind = .arc) :
    (x.offset dx dy).bareBox = x.bareBox.map (Box.translate dx dy) := by
  have hf := fixed_ownOffset x dx dy
  have f1 := congrArg Obj.kind hf
  have f4 := congrArg Obj.direction hf
  have f5 := congrArg Obj.quadrantMode hf
  simp only [Obj.fixed] at f1 f4 f5
  have hp := fun a ha => offset_pts dx dy x a ha (by rcases hc with h | h <;> simp [Container, h])
  unfold Obj.bareBox
  rw [f1, f4, f5]
  simp only [bind]
  rcases hc with hk | hk <;>
    simp only [hk, ptConvert, List.mem_cons, List.not_mem_nil, or_false] at hp ⊢
  · rw [hp .start (by simp), hp .stop (by simp)]
    cases x.pts .start <;> cases x.pts .stop <;> simp [segBox_shift, pure]
  · rw [hp .start (by simp), hp .stop (by simp), hp .center (by simp)]
    cases x.pts .start <;> cases x.pts .stop <;>
      cases x.pts .center <;> simp [arcBox_shift, pure]

/-- The same attributes; only the caches may differ. -/
def SameAttr (h h' : Heap) : Prop := ∀ k, (h' k).changed = (h k).changed

theorem SameAttr.refl (h : Heap) : SameAttr h h := fun _ => rfl

theorem SameAttr.trans {a b c : Heap} (h : SameAttr a b) (h' : SameAttr b c) : SameAttr a c :=
  fun k => (h' k).trans (h k)

theorem sameAttr_withBox (h : Heap) (i : ℕ) (b : Box) :
    SameAttr h (Function.update h i ((h i).withBox b)) := by
  intro k
  by_cases hk : k = i
  · subst hk
    rw [Function.update_self]
    rfl
  · rw [Function.update_of_ne hk]

theorem ownBox_changed (o : Obj) (ap : Option Obj) : o.changed.ownBox ap = o.ownBox ap :=
  ownBox_congr_own ap rfl rfl rfl rfl rfl rfl

theorem mapM_congr_opt {α β : Type} {f g : α → Option β} {l : List α} (h : ∀ a ∈ l, f a = g a) :
    l.mapM f = l.mapM g := by
  induction l with
  | nil => rfl
  | cons a l ih =>
    rw [List.mapM_cons, List.mapM_cons, h a (by simp), ih fun b hb => h b (by simp [hb])]

theorem boxOf_same {h h' : Heap} (hs : SameAttr h h') (n i : ℕ) : boxOf n h' i = boxOf n h i := by
  have hk : ∀ k, (h' k).kind = (h k).kind := fun k => by have := congrArg Obj.kind (hs k); exact this
  have hp : ∀ k, (h' k).parts = (h k).parts := fun k => by
    have := congrArg Obj.parts (hs k); exact this
  have ha : ∀ k, (h' k).aperture = (h k).aperture := fun k => by
    have := congrArg Obj.aperture (hs k); exact this
  have hb : ∀ k, (h' k).bareBox = (h k).bareBox := fun k => by
    have := congrArg Obj.bareBox (hs k); exact this
  have ho : ∀ k ap, (h' k).ownBox ap = (h k).ownBox ap := fun k ap => by
    rw [← ownBox_changed, hs k, ownBox_changed]
  induction n generalizing i with
  | zero => rfl
  | succ n ih =>
    have e : boxOf n h' = boxOf n h := funext ih
    simp only [boxOf, hk, hp, ha, hb, ho, e]
    cases hai : (h i).aperture with
    | none => rfl
    | some j =>
      have : (h i).ownBox (some (h' j)) = (h i).ownBox (some (h j)) := by
        refine ownBox_congr_ap (hk j) ?_
        have := congrArg Obj.nums (hs j)
        exact this
      simp only [Option.map_some, this]

/-- Parts are nested less than `n` deep. -/
def Shaped : ℕ → Heap → ℕ → Prop
  | 0, _, _ => False
  | n + 1, h, i => Container (h i).kind → ∀ k ∈ (h i).parts, Shaped n h k

theorem Shaped.succ {n i : ℕ} {h : Heap} (hs : Shaped n h i) : Shaped (n + 1) h i := by
  induction n generalizing i with
  | zero => exact absurd hs (by simp [Shaped])
  | succ n ih => exact fun hc k hk => ih (hs hc k hk)

theorem shaped_boxOf {n i : ℕ} {h : Heap} (hs : Shaped n h i) : boxOf (n + 1) h i = boxOf n h i := by
  induction n generalizing i with
  | zero => exact absurd hs (by simp [Shaped])
  | succ n ih =>
    rw [boxOf, boxOf]
    split
    · next hk =>
      rw [mapM_congr_opt fun k hk' => ih (hs (hk.elim .inl (.inr ∘ .inl)) k hk')]
    · split
      · next hk =>
        rw [mapM_congr_opt fun k hk' => ?_]
        split
        · rfl
        · exact ih (hs (.inr (.inr hk)) k hk')
      · rfl

theorem shaped_boxOf_le {n i : ℕ} {h : Heap} (hs : Shaped n h i) (m : ℕ) :
    boxOf (n + m) h i = boxOf n h i := by
  induction m with
  | zero => rfl
  | succ m ih =>
    have : Shaped (n + m) h i := by
      clear ih
      induction m with
      | zero => exact hs
      | succ m ih => exact ih.succ
    rw [← Nat.add_assoc, shaped_boxOf this, ih]

theorem mapM_some_iff {α β : Type} {f : α → Option β} {l : List α} {r : List β} :
    l.mapM f = some r ↔ List.Forall₂ (fun a b => f a = some b) l r := by
  induction l generalizing r with
  | nil => cases r <;> simp
  | cons a l ih =>
    rw [List.mapM_cons]
    constructor
    · intro h
      cases ha : f a with
      | none => simp [ha] at h
      | some b =>
        cases hl : l.mapM f with
        | none => simp [ha, hl] at h
        | some r' =>
          simp [ha, hl] at h
          subst h
          exact .cons ha (ih.1 hl)
    · intro h
      cases h with
      | cons h1 h2 => simp [h1, ih.2 h2]

/-- More fuel does not change a box. -/
theorem boxOf_mono {n i : ℕ} {h : Heap} {b : Box} (hb : boxOf n h i = some b) :
    boxOf (n + 1) h i = some b := by
  induction n generalizing i b with
  | zero => simp [boxOf] at hb
  | succ n ih =>
    rw [boxOf] at hb ⊢
    split at hb
    · next hk =>
      rw [if_pos hk]
      obtain ⟨r, h1, h2⟩ := Option.bind_eq_some_iff.1 hb
      rw [mapM_some_iff] at h1
      rw [Option.bind_eq_some_iff]
      exact ⟨r, mapM_some_iff.2 (h1.imp fun _ _ => ih), h2⟩
    · next hk0 =>
      rw [if_neg hk0]
      split at hb
      · next hk =>
        rw [if_pos hk]
        obtain ⟨r, h1, h2⟩ := Option.bind_eq_some_iff.1 hb
        rw [mapM_some_iff] at h1
        rw [Option.bind_eq_some_iff]
        refine ⟨r, mapM_some_iff.2 (h1.imp fun a x => ?_), h2⟩
        split
        · exact fun h => h
        · exact ih
      · next hk =>
        rw [if_neg hk]
        exact hb

theorem boxOf_le {n m i : ℕ} {h : Heap} {b : Box} (hb : boxOf n h i = some b) (hnm : n ≤ m) :
    boxOf m h i = some b := by
  obtain ⟨k, rfl⟩ := Nat.exists_eq_add_of_le hnm
  clear hnm
  induction k with
  | zero => exact hb
  | succ k ih => exact boxOf_mono ih

/-- The box an object has by its attributes. -/
def HasBox (h : Heap) (i : ℕ) (b : Box) : Prop := ∃ n, boxOf n h i = some b

theorem HasBox.unique {h : Heap} {i : ℕ} {b b' : Box} (h1 : HasBox h i b) (h2 : HasBox h i b') :
    b = b' := by
  obtain ⟨n, hn⟩ := h1
  obtain ⟨m, hm⟩ := h2
  have a := boxOf_le hn (le_max_left n m)
  rw [boxOf_le hm (le_max_right n m)] at a
  exact (Option.some.inj a).symm

/-- A set of objects with all their parts. -/
def Closed (S : Set ℕ) (h : Heap) : Prop :=
  ∀ k ∈ S, Container (h k).kind → ∀ j ∈ (h k).parts, j ∈ S

/-- All cached boxes are right. -/
def Coherent (S : Set ℕ) (h : Heap) : Prop :=
  ∀ k ∈ S, (h k).kind ≠ .amGroup → ∀ b, (h k).box = some b → HasBox h k b

theorem Coherent.store {S : Set ℕ} {h : Heap} {i : ℕ} {b : Box} (hc : Coherent S h)
    (hb : HasBox h i b) : Coherent S (Function.update h i ((h i).withBox b)) := by
  have hs := sameAttr_withBox h i b
  intro k hk hka b' hb'
  by_cases hki : k = i
  · subst hki
    rw [Function.update_self] at hb'
    simp only [Obj.withBox, Option.some.injEq] at hb'
    subst hb'
    obtain ⟨n, hn⟩ := hb
    exact ⟨n, by rw [boxOf_same hs, hn]⟩
  · rw [Function.update_of_ne hki] at hb' hka
    obtain ⟨n, hn⟩ := hc k hk hka b' hb'
    exact ⟨n, by rw [boxOf_same hs, hn]⟩

theorem Closed.same {S : Set ℕ} {h h' : Heap} (hc : Closed S h) (hs : SameAttr h h') :
    Closed S h' := by
  intro k hk hcont j hj
  have h1 := congrArg Obj.kind (hs k)
  have h2 := congrArg Obj.parts (hs k)
  simp only [Obj.changed] at h1 h2
  exact hc k hk (h1 ▸ hcont) j (h2 ▸ hj)

/-- What is needed of a reader of boxes: it keeps attributes and coherence, and returns boxes of the
objects (`box`), and does return one if `fuel` is enough for it. -/
structure Reads (S : Set ℕ) (read : Heap → ℕ → Option Box × Heap) (sure : Heap → ℕ → Option Box)
    (box : Heap → ℕ → Box → Prop) : Prop where
  same : ∀ h i, SameAttr h (read h i).2
  coh : ∀ h i, i ∈ S → Closed S h → Coherent S h → Coherent S (read h i).2
  sound : ∀ h i b, i ∈ S → Closed S h → Coherent S h → (read h i).1 = some b → box h i b
  complete : ∀ h i b, i ∈ S → Closed S h → Coherent S h → sure h i = some b →
    (read h i).1 = some b

theorem readParts_reads {S : Set ℕ} {read : Heap → ℕ → Option Box × Heap}
    {sure : Heap → ℕ → Option Box} {box : Heap → ℕ → Box → Prop} (hr : Reads S read sure box)
    (hsure : ∀ h h' i, SameAttr h h' → sure h' i = sure h i)
    (hbox : ∀ h h' i b, SameAttr h h' → box h' i b → box h i b) (l : List ℕ) :
    ∀ h, (∀ k ∈ l, k ∈ S) →
    SameAttr h (readParts read h l).2 ∧
    (Closed S h → Coherent S h → Coherent S (readParts read h l).2) ∧
    (Closed S h → Coherent S h → ∀ bs, (readParts read h l).1 = some bs →
      List.Forall₂ (box h) l bs) ∧
    (Closed S h → Coherent S h → ∀ bs, l.mapM (sure h) = some bs →
      (readParts read h l).1 = some bs) := by
  induction l with
  | nil =>
    intro h _
    refine ⟨SameAttr.refl h, fun _ hc => hc, fun _ _ bs hbs => ?_, fun _ _ bs hbs => ?_⟩
    · simp only [readParts, Option.some.injEq] at hbs
      subst hbs
      exact .nil
    · simpa [readParts] using hbs
  | cons i l ih =>
    intro h hS
    have hi : i ∈ S := hS i (by simp)
    have s1 := hr.same h i
    have c1 := hr.coh h i hi
    have d1 := hr.sound h i
    have e1 := hr.complete h i
    simp only [readParts]
    generalize hx : read h i = x at s1 c1 d1 e1
    obtain ⟨ob, h1⟩ := x
    cases ob with
    | none =>
      simp only
      refine ⟨s1, c1, fun _ _ bs hbs => absurd hbs (by simp), fun hcl hco bs hbs => ?_⟩
      rw [mapM_some_iff] at hbs
      cases hbs with
      | cons h2 _ => exact absurd (e1 _ hi hcl hco h2) (by simp)
    | some b =>
      simp only
      obtain ⟨s2, c2, d2, e2⟩ := ih h1 fun k hk => hS k (by simp [hk])
      generalize hy : readParts read h1 l = y at s2 c2 d2 e2
      obtain ⟨obs, h2⟩ := y
      have hmap : ∀ bs, (i :: l).mapM (sure h) = some bs →
          ∃ b' bs', bs = b' :: bs' ∧ sure h i = some b' ∧ l.mapM (sure h1) = some bs' := by
        intro bs hbs
        rw [mapM_some_iff] at hbs
        cases hbs with
        | cons h3 h4 =>
          refine ⟨_, _, rfl, h3, mapM_some_iff.2 (h4.imp fun a x hax => ?_)⟩
          rw [hsure h h1 a s1]
          exact hax
      cases obs with
      | none =>
        refine ⟨s1.trans s2, fun hcl hco => c2 (hcl.same s1) (c1 hcl hco),
          fun _ _ bs hbs => absurd hbs (by simp), fun hcl hco bs hbs => ?_⟩
        obtain ⟨b', bs', rfl, -, h4⟩ := hmap bs hbs
        exact absurd (e2 (hcl.same s1) (c1 hcl hco) bs' h4) (by simp)
      | some bs0 =>
        refine ⟨s1.trans s2, fun hcl hco => c2 (hcl.same s1) (c1 hcl hco),
          fun hcl hco bs hbs => ?_, fun hcl hco bs hbs => ?_⟩
        · simp only [Option.some.injEq] at hbs
          subst hbs
          exact .cons (d1 b hi hcl hco rfl)
            ((d2 (hcl.same s1) (c1 hcl hco) bs0 rfl).imp fun a x hax => hbox h h1 a x s1 hax)
        · obtain ⟨b', bs', rfl, h3, h4⟩ := hmap bs hbs
          have h5 := e1 b' hi hcl hco h3
          have h6 := e2 (hcl.same s1) (c1 hcl hco) bs' h4
          simp only [Option.some.injEq] at h5 h6 ⊢
          rw [h5, h6]

/-- The box of a part of a region. -/
noncomputable def bareOf (n : ℕ) (h : Heap) (k : ℕ) : Option Box :=
  if (h k).kind = .line ∨ (h k).kind = .arc then (h k).bareBox else boxOf n h k

theorem bareOf_same {h h' : Heap} (hs : SameAttr h h') (n i : ℕ) : bareOf n h' i = bareOf n h i := by
  have hk : (h' i).kind = (h i).kind := by have := congrArg Obj.kind (hs i); exact this
  have hb : (h' i).bareBox = (h i).bareBox := by have := congrArg Obj.bareBox (hs i); exact this
  unfold bareOf
  rw [hk, hb, boxOf_same hs]

theorem bareOf_le {n m i : ℕ} {h : Heap} {b : Box} (hb : bareOf n h i = some b) (hnm : n ≤ m) :
    bareOf m h i = some b := by
  unfold bareOf at hb ⊢
  split at hb
  · next hk => rw [if_pos hk]; exact hb
  · next hk => rw [if_neg hk]; exact boxOf_le hb hnm

/-- The common fuel. -/
theorem common_fuel {f : ℕ → ℕ → Option Box} (hle : ∀ n m i b, f n i = some b → n ≤ m → f m i = some b)
    {l : List ℕ} {bs : List Box} (h : List.Forall₂ (fun i b => ∃ n, f n i = some b) l bs) :
    ∃ n, l.mapM (f n) = some bs := by
  induction h with
  | nil => exact ⟨0, rfl⟩
  | cons h1 _ ih =>
    obtain ⟨n, hn⟩ := h1
    obtain ⟨m, hm⟩ := ih
    refine ⟨max n m, mapM_some_iff.2 (.cons (hle _ _ _ _ hn (le_max_left n m)) ?_)⟩
    exact (mapM_some_iff.1 hm).imp fun a b hab => hle _ _ _ _ hab (le_max_right n m)

theorem bare_reads {S : Set ℕ} {n : ℕ} (hr : Reads S (readBox n) (boxOf n) HasBox) :
    Reads S (readBare (readBox n)) (bareOf n) (fun h i b => ∃ m, bareOf m h i = some b) := by
  have e : ∀ (h : Heap) i, readBare (readBox n) h i =
      if (h i).kind = .line ∨ (h i).kind = .arc then ((h i).bareBox, h) else readBox n h i := by
    intro h i
    unfold readBare
    cases (h i).kind <;> simp
  constructor
  · intro h i
    rw [e]
    split
    · exact SameAttr.refl h
    · exact hr.same h i
  · intro h i hi hcl hco
    rw [e]
    split
    · exact hco
    · exact hr.coh h i hi hcl hco
  · intro h i b hi hcl hco hb
    rw [e] at hb
    unfold bareOf
    split at hb
    · next hk => exact ⟨0, by rw [if_pos hk]; exact hb⟩
    · next hk =>
      obtain ⟨m, hm⟩ := hr.sound h i b hi hcl hco hb
      exact ⟨m, by rw [if_neg hk]; exact hm⟩
  · intro h i b hi hcl hco hb
    rw [e]
    unfold bareOf at hb
    split at hb
    · next hk => rw [if_pos hk]; exact hb
    · next hk => rw [if_neg hk]; exact hr.complete h i b hi hcl hco hb

theorem readBox_reads (S : Set ℕ) (n : ℕ) : Reads S (readBox n) (boxOf n) HasBox := by
  induction n with
  | zero =>
    refine ⟨fun h i => SameAttr.refl h, fun h i _ _ hc => hc, fun h i b _ _ _ hb => ?_,
      fun h i b _ _ _ hb => ?_⟩
    · simp [readBox] at hb
    · simp [boxOf] at hb
  | succ n ih =>
    have P1 := readParts_reads ih (fun h h' i hs => boxOf_same hs n i)
      (fun h h' i b hs ⟨m, hm⟩ => ⟨m, by rw [← boxOf_same hs]; exact hm⟩)
    have P2 := readParts_reads (bare_reads ih) (fun h h' i hs => bareOf_same hs n i)
      (fun h h' i b hs ⟨m, hm⟩ => ⟨m, by rw [← bareOf_same hs]; exact hm⟩)
    -- the three forms of reading
    have key : ∀ (h : Heap) (i : ℕ),
        SameAttr h (readBox (n + 1) h i).2 ∧
        (i ∈ S → Closed S h → Coherent S h → Coherent S (readBox (n + 1) h i).2 ∧
          (∀ b, (readBox (n + 1) h i).1 = some b → HasBox h i b) ∧
          (∀ b, boxOf (n + 1) h i = some b → (readBox (n + 1) h i).1 = some b)) := by
      intro h i
      by_cases hg : (h i).kind = .amGroup
      · have er : readBox (n + 1) h i = ((readParts (readBox n) h (h i).parts).1.bind unionBox,
            (readParts (readBox n) h (h i).parts).2) := by
          rw [readBox, hg]
        have eb : boxOf (n + 1) h i = ((h i).parts.mapM (boxOf n h)).bind unionBox := by
          rw [boxOf, if_pos (.inl hg)]
        rw [er, eb]
        by_cases hi : i ∈ S ∧ Closed S h
        swap
        · refine ⟨?_, fun h1 h2 _ => absurd ⟨h1, h2⟩ hi⟩
          have : ∀ (l : List ℕ) (h : Heap), SameAttr h (readParts (readBox n) h l).2 := by
            intro l h
            have := readParts_inv (P := fun h' => SameAttr h h') (read := readBox n)
              (fun h' i hh => hh.trans (ih.same h' i)) (l := l) (h := h) (SameAttr.refl h)
            exact this
          exact this _ _
        · have hparts : ∀ k ∈ (h i).parts, k ∈ S := hi.2 i hi.1 (.inl hg)
          obtain ⟨s, c, d, e⟩ := P1 (h i).parts h hparts
          refine ⟨s, fun _ hcl hco => ⟨c hcl hco, fun b hb => ?_, fun b hb => ?_⟩⟩
          · obtain ⟨bs, h1, h2⟩ := Option.bind_eq_some_iff.1 hb
            obtain ⟨m, hm⟩ := common_fuel (f := fun n => boxOf n h)
              (fun _ _ _ _ => boxOf_le) (d hcl hco bs h1)
            exact ⟨m + 1, by rw [boxOf, if_pos (.inl hg), hm]; exact h2⟩
          · obtain ⟨bs, h1, h2⟩ := Option.bind_eq_some_iff.1 hb
            exact Option.bind_eq_some_iff.2 ⟨bs, e hcl hco bs h1, h2⟩
      · by_cases hc : (h i).kind = .outline ∨ (h i).kind = .region
        · cases hbx : (h i).box with
          | some b0 =>
            have er : readBox (n + 1) h i = (some b0, h) := by
              rw [readBox]
              rcases hc with hc | hc <;> simp only [hc, hbx]
            rw [er]
            refine ⟨SameAttr.refl h, fun hi hcl hco => ⟨hco, fun b hb => ?_, fun b hb => ?_⟩⟩
            · simp only [Option.some.injEq] at hb
              subst hb
              exact hco i hi hg b0 hbx
            · rw [HasBox.unique (hco i hi hg b0 hbx) ⟨_, hb⟩]
          | none =>
            set rd := if (h i).kind = .region then readBare (readBox n) else readBox n with hrd
            have er : readBox (n + 1) h i =
                (match (readParts rd h (h i).parts).1.bind unionBox with
                | none => (none, (readParts rd h (h i).parts).2)
                | some b => (some b, Function.update (readParts rd h (h i).parts).2 i
                    (((readParts rd h (h i).parts).2 i).withBox b))) := by
              rw [readBox]
              rcases hc with hc | hc <;> simp only [hc, hbx, hrd] <;> rfl
            set f : ℕ → ℕ → Option Box :=
              if (h i).kind = .region then fun n => bareOf n h else fun n => boxOf n h with hf
            have eb : ∀ m, boxOf (m + 1) h i = ((h i).parts.mapM (f m)).bind unionBox := by
              intro m
              rw [boxOf, hf]
              rcases hc with hc | hc
              · simp [hc]
              · simp only [hc, if_true]
                rw [if_neg (by simp)]
                rfl
            have hle : ∀ n m i b, f n i = some b → n ≤ m → f m i = some b := by
              intro n m k b
              rw [hf]
              split
              · exact bareOf_le
              · exact boxOf_le
            have hsame : SameAttr h (readParts rd h (h i).parts).2 := by
              rw [hrd]
              split
              · exact readParts_inv (P := fun h' => SameAttr h h')
                  (fun h' i hh => hh.trans ((bare_reads ih).same h' i)) (SameAttr.refl h)
              · exact readParts_inv (P := fun h' => SameAttr h h')
                  (fun h' i hh => hh.trans (ih.same h' i)) (SameAttr.refl h)
            have hP : i ∈ S → Closed S h → Coherent S h →
                Coherent S (readParts rd h (h i).parts).2 ∧
                (∀ bs, (readParts rd h (h i).parts).1 = some bs →
                  List.Forall₂ (fun k b => ∃ n, f n k = some b) (h i).parts bs) ∧
                (∀ bs, (h i).parts.mapM (f n) = some bs →
                  (readParts rd h (h i).parts).1 = some bs) := by
              intro hi hcl hco
              have hparts : ∀ k ∈ (h i).parts, k ∈ S := hcl i hi (.inr hc)
              rw [hrd, hf]
              split
              · obtain ⟨s, c, d, e⟩ := P2 (h i).parts h hparts
                exact ⟨c hcl hco, d hcl hco, e hcl hco⟩
              · obtain ⟨s, c, d, e⟩ := P1 (h i).parts h hparts
                exact ⟨c hcl hco, d hcl hco, e hcl hco⟩
            clear_value rd f
            generalize readParts rd h (h i).parts = x at er hsame hP
            obtain ⟨obs, h1⟩ := x
            cases hu : obs.bind unionBox with
            | none =>
              simp only [hu] at er
              rw [er]
              refine ⟨hsame, fun hi hcl hco => ⟨(hP hi hcl hco).1, fun b hb => by simp at hb,
                fun b hb => ?_⟩⟩
              rw [eb] at hb
              obtain ⟨bs, h2, h3⟩ := Option.bind_eq_some_iff.1 hb
              have := (hP hi hcl hco).2.2 bs h2
              simp only at this
              rw [this] at hu
              rw [Option.bind_some, h3] at hu
              exact absurd hu (by simp)
            | some b0 =>
              simp only [hu] at er
              rw [er]
              obtain ⟨bs, h2, h3⟩ := Option.bind_eq_some_iff.1 hu
              have hhas : i ∈ S → Closed S h → Coherent S h → HasBox h i b0 := by
                intro hi hcl hco
                obtain ⟨m, hm⟩ := common_fuel hle ((hP hi hcl hco).2.1 bs h2)
                exact ⟨m + 1, by rw [eb, hm]; exact h3⟩
              refine ⟨hsame.trans (sameAttr_withBox h1 i b0), fun hi hcl hco => ⟨?_, fun b hb => ?_,
                fun b hb => ?_⟩⟩
              · refine (hP hi hcl hco).1.store ?_
                obtain ⟨m, hm⟩ := hhas hi hcl hco
                exact ⟨m, by rw [boxOf_same hsame]; exact hm⟩
              · simp only [Option.some.injEq] at hb
                subst hb
                exact hhas hi hcl hco
              · rw [HasBox.unique (hhas hi hcl hco) ⟨_, hb⟩]
        · have er : readBox (n + 1) h i = (match (h i).box with
              | some b => (some b, h)
              | none => match (h i).ownBox ((h i).aperture.map h) with
                | none => (none, h)
                | some b => (some b, Function.update h i ((h i).withBox b))) := by
            rw [readBox]
            cases hk : (h i).kind <;> first
              | exact absurd hk hg
              | rfl
              | exact absurd (Or.inl hk) hc
              | exact absurd (Or.inr hk) hc
          have eb : ∀ m, boxOf (m + 1) h i = (h i).ownBox ((h i).aperture.map h) := by
            intro m
            rw [boxOf, if_neg fun h' => h'.elim hg (fun h'' => hc (.inl h'')),
              if_neg fun h'' => hc (.inr h'')]
          rw [er]
          cases hbx : (h i).box with
          | some b0 =>
            refine ⟨SameAttr.refl h, fun hi hcl hco => ⟨hco, fun b hb => ?_, fun b hb => ?_⟩⟩
            · simp only [Option.some.injEq] at hb
              subst hb
              exact hco i hi hg b0 hbx
            · rw [HasBox.unique (hco i hi hg b0 hbx) ⟨_, hb⟩]
          | none =>
            simp only [eb]
            cases ho : (h i).ownBox ((h i).aperture.map h) with
            | none => exact ⟨SameAttr.refl h, fun hi hcl hco => ⟨hco, by simp, by simp⟩⟩
            | some b0 =>
              refine ⟨sameAttr_withBox h i b0, fun hi hcl hco => ⟨hco.store ⟨1, by rw [eb, ho]⟩,
                fun b hb => ?_, fun b hb => hb⟩⟩
              simp only [Option.some.injEq] at hb
              subst hb
              exact ⟨1, by rw [eb, ho]⟩
    exact ⟨fun h i => (key h i).1, fun h i hi hcl hco => ((key h i).2 hi hcl hco).1,
      fun h i b hi hcl hco => ((key h i).2 hi hcl hco).2.1 b,
      fun h i b hi hcl hco => ((key h i).2 hi hcl hco).2.2 b⟩

theorem shaped_footprint {n i : ℕ} {h : Heap} (hs : Shaped n h i) :
    Closed {k | k ∈ footprint n h i} h ∧ i ∈ footprint n h i := by
  induction n generalizing i with
  | zero => exact absurd hs (by simp [Shaped])
  | succ n ih =>
    refine ⟨?_, by simp [footprint]⟩
    intro k hk hc j hj
    simp only [Set.mem_ofPred_eq, footprint, List.mem_cons] at hk ⊢
    rcases hk with rfl | hk
    · rw [if_pos hc]
      exact .inr (List.mem_flatMap.2 ⟨j, hj, (ih (hs hc j hj)).2⟩)
    · split at hk
      · next hci =>
        rw [if_pos hci]
        obtain ⟨x, hx, hkx⟩ := List.mem_flatMap.1 hk
        exact .inr (List.mem_flatMap.2 ⟨x, hx, (ih (hs hci x hx)).1 k hkx hc j hj⟩)
      · simp at hk

theorem mapM_map_opt {α β : Type} {f g : α → Option β} {t : β → β} {l : List α}
    (h : ∀ a ∈ l, g a = (f a).map t) : l.mapM g = (l.mapM f).map (List.map t) := by
  induction l with
  | nil => rfl
  | cons a l ih =>
    rw [List.mapM_cons, List.mapM_cons, h a (by simp), ih fun b hb => h b (by simp [hb])]
    cases f a <;> simp
    cases l.mapM f <;> simp

theorem apEq_fixed {h h' : Heap} (hf : ∀ k, (h' k).fixed = (h k).fixed) (a : Option ℕ) :
    apEq (a.map h) (a.map h') := by
  cases a with
  | none => exact ⟨rfl, rfl⟩
  | some j =>
    have h1 := congrArg Obj.kind (hf j)
    have h2 := congrArg Obj.nums (hf j)
    simp only [Obj.fixed] at h1 h2
    exact ⟨by simp [h1], by simp [h2]⟩

/-- The box of moved objects. -/
theorem boxOf_moved {dx dy : ℝ} {h h' : Heap} (hf : ∀ k, (h' k).fixed = (h k).fixed) {n i : ℕ}
    (hs : Shaped n h i) (hm : ∀ k ∈ footprint n h i, h' k = (h k).moved dx dy) :
    boxOf n h' i = (boxOf n h i).map (Box.translate dx dy) := by
  induction n generalizing i with
  | zero => rfl
  | succ n ih =>
    have hk : ∀ k, (h' k).kind = (h k).kind := fun k => by
      have := congrArg Obj.kind (hf k); exact this
    have hp : (h' i).parts = (h i).parts := by have := congrArg Obj.parts (hf i); exact this
    have ha : (h' i).aperture = (h i).aperture := by
      have := congrArg Obj.aperture (hf i); exact this
    have hsub : Container (h i).kind → ∀ k ∈ (h i).parts, ∀ j ∈ footprint n h k,
        h' j = (h j).moved dx dy := by
      intro hc k hk' j hj
      refine hm j ?_
      simp only [footprint, if_pos hc]
      exact List.mem_cons_of_mem _ (List.mem_flatMap.2 ⟨k, hk', hj⟩)
    have hself : ∀ k, k ∈ footprint (n + 1) h k := fun k => by simp [footprint]
    have hun : ∀ o : Option (List Box), (o.map (List.map (Box.translate dx dy))).bind unionBox =
        (o.bind unionBox).map (Box.translate dx dy) := by
      intro o
      cases o with
      | none => rfl
      | some l => simp [unionBox_translate]
    rw [boxOf, boxOf, hk i, hp]
    split
    · next hc =>
      rw [← hun, mapM_map_opt fun k hk' =>
        ih (hs (hc.elim .inl (.inr ∘ .inl)) k hk') (hsub (hc.elim .inl (.inr ∘ .inl)) k hk')]
    · next hc0 =>
      split
      · next hc =>
        rw [← hun, mapM_map_opt fun k hk' => ?_]
        rw [hk k]
        split
        · next hl =>
          cases n with
          | zero => exact absurd (hs (.inr (.inr hc)) k hk') (by simp [Shaped])
          | succ n =>
            rw [hsub (.inr (.inr hc)) k hk' k (by simp [footprint]), Obj.moved,
              if_neg (by rcases hl with h | h <;> simp [h]),
              if_neg (by rcases hl with h | h <;> simp [h, Container]), bareBox_moved dx dy hl]
        · exact ih (hs (.inr (.inr hc)) k hk') (hsub (.inr (.inr hc)) k hk')
      · next hc =>
        have hnc : ¬ Container (h i).kind := by
          rintro (h1 | h1 | h1)
          · exact hc0 (.inl h1)
          · exact hc0 (.inr h1)
          · exact hc h1
        rw [hm i (hself i), Obj.moved, if_neg fun h => hnc (.inl h), if_neg hnc]
        have hoa : ((h i).offset dx dy).aperture = (h i).aperture := (offset_struct _ _ _).2.1
        rw [hoa]
        exact ownBox_moved dx dy hnc (apEq_fixed hf _)

theorem moved_box {o : Obj} (dx dy : ℝ) (hg : o.kind ≠ .amGroup) (hsl : o.kind ≠ .slot) :
    (o.moved dx dy).box = none := by
  have hc : o.changed.box = none := rfl
  unfold Obj.moved
  rw [if_neg hg]
  split
  · rfl
  · next hct =>
    unfold Obj.offset
    cases hk : o.kind <;> simp only <;> first
      | exact absurd hk hg
      | exact absurd hk hsl
      | exact hc
      | exact box_setPt (box_setPt (box_setPt hc _ _) _ _) _ _
      | exact box_setPt (box_setPt hc _ _) _ _
      | exact box_setPt hc _ _
      | simp [Obj.setPt, hk, ptSetter, Obj.changed]

/-- After a move the box is the old one moved: for every class but slots (`C33_slot_violated`), for
every state of the caches that is coherent, and for objects with parts that are properly nested, no
object being part twice, and macro apertures with a position.  Missing: slots. -/
theorem C33_move_partial (dx dy : ℝ) (n : ℕ) (h : Heap) (i : ℕ) (b : Box) (hs : Shaped n h i)
    (hnd : (footprint n h i).Nodup) (hslot : ∀ k ∈ footprint n h i, (h k).kind ≠ .slot)
    (hpos : ∀ k ∈ footprint n h i, (h k).kind = .amGroup → (h k).pts .position ≠ none)
    (hco : Coherent {k | k ∈ footprint n h i} h) (hb : (readBox n h i).1 = some b) :
    (readBox n (offset dx dy n h i) i).1 = some (b.translate dx dy) := by
  obtain ⟨hcl, hi⟩ := shaped_footprint hs
  have hR := readBox_reads {k | k ∈ footprint n h i} n
  have hspec := offset_spec dx dy n h i hnd hpos
  have hm : ∀ k ∈ footprint n h i, offset dx dy n h i k = (h k).moved dx dy := by
    intro k hk
    rw [hspec k, if_pos hk]
  have hf : ∀ k, (offset dx dy n h i k).fixed = (h k).fixed := fun k => fixed_offset i k
  have hbox : boxOf n h i = some b := by
    obtain ⟨m, hm⟩ := hR.sound h i b hi hcl hco hb
    have := boxOf_le hm (Nat.le_add_left m n)
    rw [shaped_boxOf_le hs m] at this
    exact this
  refine hR.complete _ i _ hi ?_ ?_ ?_
  · intro k hk hc j hj
    obtain ⟨h1, h2⟩ := same_offset dx dy n h i k
    exact hcl k hk (h1 ▸ hc) j (h2 ▸ hj)
  · intro k hk hg b' hb'
    have hka : (h k).kind ≠ .amGroup := by
      rw [← (same_offset dx dy n h i k).1]
      exact hg
    rw [hm k hk, moved_box dx dy hka (hslot k hk)] at hb'
    exact absurd hb' (by simp)
  · rw [boxOf_moved hf hs hm, hbox]
    rfl

/-- A slot's box stays where it was if it was read before the move. -/
theorem C33_slot_violated :
    ∃ (h : Heap) (b : Box), (readBox 1 h 0).1 = some b ∧
      (readBox 1 (offset 1 0 1 (readBox 1 h 0).2 0) 0).1 = some b ∧ b ≠ b.translate 1 0 := by
  refine ⟨fun _ => blank .slot none [], ((-(1 / 2), 1 / 2), (-(1 / 2), 1 / 2)), ?_, ?_, ?_⟩
  · norm_num [readBox, blank, Obj.ownBox, segBox, Box.grow]
  · norm_num [readBox, blank, Obj.ownBox, segBox, Box.grow, offset, Obj.offset, Obj.setPt, ptSetter,
      Obj.withBox]
  · norm_num [Box.translate]

/-- What moving does, in one formula. -/
theorem moved_eq (dx dy : ℝ) (o : Obj) : (o.moved dx dy).changed = { o.changed with
    pts := fun a => if a ∈ ptConvert o.kind then (o.pts a).map (shift dx dy) else o.pts a } := by
  have key : ∀ x : Obj, x.fixed = o.fixed →
      (∀ a, x.pts a = if a ∈ ptConvert o.kind then (o.pts a).map (shift dx dy) else o.pts a) →
      x.changed = { o.changed with
        pts := fun a => if a ∈ ptConvert o.kind then (o.pts a).map (shift dx dy) else o.pts a } := by
    intro x hx hp
    cases x
    cases o
    simp only [Obj.fixed, Obj.mk.injEq] at hx
    simp only [Obj.changed, Obj.mk.injEq]
    simp_all
    funext a
    exact hp a
  refine key _ ?_ ?_
  · unfold Obj.moved
    split
    · next hg =>
      unfold Obj.fixed
      simp only
    · split
      · rfl
      · exact fixed_ownOffset o dx dy
  · intro a
    unfold Obj.moved
    split
    · next hg => cases a <;> simp [hg, ptConvert]
    · next hg =>
      split
      · next hc =>
        rcases hc with hc | hc | hc
        · exact absurd hc hg
        · simp [hc, ptConvert, Obj.changed]
        · simp [hc, ptConvert, Obj.changed]
      · next hc =>
        split
        · next ha => exact offset_pts dx dy o a ha hc
        · next ha =>
          unfold Obj.offset
          revert ha hc
          cases o.kind <;> cases a <;> simp [ptConvert, setPt_pts, Obj.changed, Container]

theorem moved_moved (dx dy dx' dy' : ℝ) (o o' : Obj) (h : o'.changed = (o.moved dx dy).changed) :
    (o'.moved dx' dy').changed = (o.moved (dx + dx') (dy + dy')).changed := by
  have hsh : ∀ p : RPt, shift dx' dy' (shift dx dy p) = shift (dx + dx') (dy + dy') p := by
    intro p
    simp only [shift, Prod.mk.injEq]
    exact ⟨by ring, by ring⟩
  rw [moved_eq] at h
  have hk : o'.kind = o.kind := by have := congrArg Obj.kind h; exact this
  have hp : o'.pts = fun a => if a ∈ ptConvert o.kind then (o.pts a).map (shift dx dy)
      else o.pts a := by have := congrArg Obj.pts h; exact this
  rw [moved_eq, moved_eq, h, hk]
  simp only [Obj.mk.injEq, true_and, and_true]
  funext a
  rw [hp]
  simp only
  split
  · cases o.pts a <;> simp [hsh]
  · rfl

/-- Moves add up, for every class and every state of the caches. -/
theorem C33_moves_add (dx dy dx' dy' : ℝ) (n : ℕ) (h : Heap) (i : ℕ)
    (hnd : (footprint n h i).Nodup)
    (hpos : ∀ k ∈ footprint n h i, (h k).kind = .amGroup → (h k).pts .position ≠ none) :
    SameAttr (offset (dx + dx') (dy + dy') n h i)
      (offset dx' dy' n (offset dx dy n h i) i) := by
  intro k
  have hfp : footprint n (offset dx dy n h i) i = footprint n h i :=
    footprint_congr (same_offset dx dy n h i) n i
  have s1 := offset_spec dx dy n h i hnd hpos
  rw [offset_spec dx' dy' n _ i (by rw [hfp]; exact hnd) ?_ k, hfp,
    offset_spec (dx + dx') (dy + dy') n h i hnd hpos k, s1 k]
  · split
    · exact moved_moved dx dy dx' dy' _ _ rfl
    · rfl
  · rw [hfp]
    intro j hj hg
    rw [(same_offset dx dy n h i j).1] at hg
    rw [s1 j, if_pos hj, Obj.moved, if_pos hg]
    have := hpos j hj hg
    cases hp : (h j).pts .position with
    | none => exact absurd hp this
    | some p => simp

/-- The moves of C33: a region of two lines that was read before. -/
example : (readBox 2 (offset 3 4 2 (fun i => if i = 0 then blank .region none [1, 2]
      else blank .line none []) 0) 0).1 = some ((3, 3), (4, 4)) := by
  have h := C33_move_partial 3 4 2 (fun i => if i = 0 then blank .region none [1, 2]
      else blank .line none []) 0 ((0, 0), (0, 0)) ?_ ?_ ?_ ?_ ?_ ?_
  · rw [h]
    norm_num [Box.translate]
  · intro _ k hk
    simp [blank] at hk
    rcases hk with rfl | rfl <;> simp [Shaped, blank, Container]
  · simp [footprint, blank, Container]
  · simp [footprint, blank, Container]
  · simp [footprint, blank, Container]
  · intro k _ _ b hb
    simp only at hb
    split at hb <;> simp [blank] at hb
  · simp [readBox, readParts, readBare, blank, Obj.bareBox, segBox, unionBox]

/-! ## C41 -/

theorem moveAll_spec (dx dy : ℝ) (n : ℕ) : ∀ (l : List ℕ) (h : Heap),
    (l.flatMap (footprint n h)).Nodup →
    (∀ k ∈ l.flatMap (footprint n h), (h k).kind = .amGroup → (h k).pts .position ≠ none) →
    ∀ k, l.foldl (offset dx dy n) h k =
      if k ∈ l.flatMap (footprint n h) then (h k).moved dx dy else h k := by
  intro l
  induction l with
  | nil => intro h _ _ k; simp
  | cons x l ihl =>
    intro h hnd hpos k
    rw [List.flatMap_cons] at hnd hpos
    rw [List.nodup_append] at hnd
    obtain ⟨hx, hl, hdis⟩ := hnd
    have hsame := same_offset dx dy n h x
    have hfp : footprint n (offset dx dy n h x) = footprint n h :=
      funext fun i => footprint_congr hsame n i
    have hspec := offset_spec dx dy n h x hx fun k hk => hpos k (List.mem_append_left _ hk)
    have hout : ∀ k ∈ l.flatMap (footprint n h), offset dx dy n h x k = h k := by
      intro k hk
      rw [hspec k, if_neg]
      intro hkx
      exact hdis k hkx k hk rfl
    rw [List.foldl_cons, ihl _ (by rw [hfp]; exact hl) (by
      rw [hfp]
      intro k hk
      rw [hout k hk]
      exact hpos k (List.mem_append_right _ hk)), hfp, List.flatMap_cons]
    by_cases hk : k ∈ l.flatMap (footprint n h)
    · rw [if_pos hk, hout k hk, if_pos (List.mem_append_right _ hk)]
    · rw [if_neg hk, hspec k]
      by_cases hk' : k ∈ footprint n h x
      · rw [if_pos hk', if_pos (List.mem_append_left _ hk')]
      · rw [if_neg hk', if_neg]
        rw [List.mem_append]
        exact fun h => h.elim hk' hk

/-- What a program does with a macro aperture. -/
inductive GroupOp
  | place (p : RPt)      -- group.position = p
  | move (dx dy : ℝ)     -- group.offset(dx, dy)

noncomputable def GroupOp.run (n g : ℕ) (h : Heap) : GroupOp → Heap
  | .place p => setGroupPosition p n h g
  | .move dx dy => offset dx dy (n + 1) h g

/-- The position it should have: a move before the first placement raises. -/
noncomputable def GroupOp.position (p : Option RPt) : GroupOp → Option RPt
  | .place q => some q
  | .move dx dy => p.map (shift dx dy)

/-- Displaced by a position. -/
noncomputable def displaced (p : Option RPt) (o : Obj) : Obj :=
  match p with
  | none => o
  | some q => o.moved q.1 q.2

/-- After any sequence of placements and moves of a freshly built macro aperture `g`, its position is
the one given by the last placement and the moves after it, and each of its parts (and their parts) is
displaced from its definition by exactly that position. -/
theorem C41_placement (n g : ℕ) (h : Heap) (ops : List GroupOp) (hk : (h g).kind = .amGroup)
    (hfresh : (h g).pts .position = none)
    (hnd : (g :: (h g).parts.flatMap (footprint n h)).Nodup)
    (hpos : ∀ k ∈ (h g).parts.flatMap (footprint n h), (h k).kind = .amGroup →
      (h k).pts .position ≠ none) :
    (ops.foldl (GroupOp.run n g) h g).pts .position = ops.foldl GroupOp.position none ∧
      ∀ k ∈ (h g).parts.flatMap (footprint n h),
        (ops.foldl (GroupOp.run n g) h k).changed =
          (displaced (ops.foldl GroupOp.position none) (h k)).changed := by
  set F := (h g).parts.flatMap (footprint n h) with hF
  have hgF : g ∉ F := (List.nodup_cons.1 hnd).1
  have hFn : F.Nodup := (List.nodup_cons.1 hnd).2
  -- what holds along the way
  have step : ∀ (ops : List GroupOp) (H : Heap) (P : Option RPt),
      (∀ k, (H k).kind = (h k).kind ∧ (H k).parts = (h k).parts) →
      (H g).pts .position = P →
      (∀ k ∈ F, (H k).changed = (displaced P (h k)).changed) →
      (ops.foldl (GroupOp.run n g) H g).pts .position = ops.foldl GroupOp.position P ∧
      ∀ k ∈ F, (ops.foldl (GroupOp.run n g) H k).changed =
          (displaced (ops.foldl GroupOp.position P) (h k)).changed := by
    intro ops
    induction ops with
    | nil => intro H P _ h1 h2; exact ⟨h1, h2⟩
    | cons op ops ih =>
      intro H P hkp hP hD
      rw [List.foldl_cons, List.foldl_cons]
      have hfp : footprint n H = footprint n h := funext fun i => footprint_congr hkp n i
      have hparts : (H g).parts.flatMap (footprint n H) = F := by rw [(hkp g).2, hfp]
      have hposH : ∀ k ∈ F, (H k).kind = .amGroup → (H k).pts .position ≠ none := by
        intro k hk hkk
        rw [(hkp k).1] at hkk
        have h1 := congrArg Obj.pts (hD k hk)
        have h2 : (H k).pts = (displaced P (h k)).pts := h1
        rw [h2]
        have h3 := hpos k hk hkk
        unfold displaced
        cases P with
        | none => exact h3
        | some q =>
          simp only [Obj.moved, if_pos hkk]
          cases hp : (h k).pts .position with
          | none => exact absurd hp h3
          | some p => simp
      cases op with
      | place p =>
        have hrun : GroupOp.run n g H (.place p) = setGroupPosition p n H g := rfl
        set d := (H g).groupDelta p with hd
        have hmv := moveAll_spec d.1 d.2 n (H g).parts H (by rw [hparts]; exact hFn)
          (by rw [hparts]; exact hposH)
        rw [hparts] at hmv
        refine ih _ _ ?_ ?_ ?_
        · intro k
          rw [hrun, setGroupPosition]
          simp only [← hd]
          have := fixed_moveAll (dx := d.1) (dy := d.2) (n := n) (H g).parts H k
          have t1 := congrArg Obj.kind this
          have t2 := congrArg Obj.parts this
          simp only [Obj.fixed] at t1 t2
          by_cases hkg : k = g
          · subst hkg
            rw [Function.update_self]
            exact ⟨t1.trans (hkp k).1, t2.trans (hkp k).2⟩
          · rw [Function.update_of_ne hkg]
            exact ⟨t1.trans (hkp k).1, t2.trans (hkp k).2⟩
        · rw [hrun, setGroupPosition]
          simp [Obj.withPosition, GroupOp.position]
        · intro k hk
          have hkg : k ≠ g := fun h' => hgF (h' ▸ hk)
          rw [hrun, setGroupPosition]
          simp only [← hd]
          rw [Function.update_of_ne hkg, hmv k, if_pos hk]
          simp only [GroupOp.position, displaced]
          cases P with
          | none =>
            have : d = p := by rw [hd, Obj.groupDelta, hP]
            rw [this]
            have h0 := hD k hk
            simp only [displaced] at h0
            rw [moved_eq, moved_eq, h0]
            have k1 : (H k).kind = (h k).kind := (hkp k).1
            have k2 : (H k).pts = (h k).pts := by have := congrArg Obj.pts h0; exact this
            rw [k1, k2]
          | some q =>
            have : d = (p.1 - q.1, p.2 - q.2) := by rw [hd, Obj.groupDelta, hP]
            rw [this]
            have := moved_moved q.1 q.2 (p.1 - q.1) (p.2 - q.2) (h k) (H k) (hD k hk)
            rw [this]
            simp
      | move dx dy =>
        have hrun : GroupOp.run n g H (.move dx dy) = offset dx dy (n + 1) H g := rfl
        have hkH : (H g).kind = .amGroup := by rw [(hkp g).1, hk]
        cases P with
        | none =>
          have : offset dx dy (n + 1) H g = H := by
            rw [offset]
            simp only [hkH, hP]
          rw [hrun, this]
          exact ih H none hkp hP hD
        | some q =>
          have hfpg : footprint (n + 1) H g = g :: F := by
            rw [footprint, if_pos (.inl hkH), hparts]
          have hmv := offset_spec dx dy (n + 1) H g (by rw [hfpg]; exact hnd) (by
            rw [hfpg]
            intro k hk' hkk
            rcases List.mem_cons.1 hk' with rfl | hk'
            · rw [hP]; simp
            · exact hposH k hk' hkk)
          rw [hfpg] at hmv
          rw [hrun]
          refine ih _ _ ?_ ?_ ?_
          · intro k
            obtain ⟨h1, h2⟩ := same_offset dx dy (n + 1) H g k
            exact ⟨h1.trans (hkp k).1, h2.trans (hkp k).2⟩
          · rw [hmv g, if_pos (by simp), Obj.moved, if_pos hkH]
            simp [hP, GroupOp.position]
          · intro k hk'
            rw [hmv k, if_pos (by simp [hk'])]
            simp only [GroupOp.position, displaced, Option.map_some, shift]
            exact moved_moved q.1 q.2 dx dy (h k) (H k) (hD k hk')
  refine step ops h none (fun k => ⟨rfl, rfl⟩) hfresh fun k _ => rfl

/-- A macro aperture of a circle and a polygon, moved too early, placed twice and moved. -/
example : ((([.move 1 1, .place (2, 3), .place (5, 5), .move 1 0] : List GroupOp).foldl
    (GroupOp.run 1 0) (fun i => if i = 0 then
      { blank .amGroup none [1, 2] with pts := fun _ => none } else blank .circle none [])) 1).changed =
    ((blank .circle none []).moved 6 5).changed := by
  have h := (C41_placement 1 0 (fun i => if i = 0 then
      { blank .amGroup none [1, 2] with pts := fun _ => none } else blank .circle none [])
      [.move 1 1, .place (2, 3), .place (5, 5), .move 1 0] rfl rfl ?_ ?_).2 1 ?_
  · rw [h]
    norm_num [GroupOp.position, displaced, shift]
  · simp [blank, footprint, Container]
  · simp [blank, footprint, Container]
  · simp [blank, footprint, Container]

end Verif.Geom
