import Verif.Props.ExcellonWrite
import Verif.Props.DrillPicture

/-! # C83: a drill file written and read again shows the same -/

namespace Verif.Excellon
open Verif.Py Verif.Cam Verif.Excellon.Spec Verif.Cairo Verif.Geom Verif.Render

/-! ## Specification -/

/-- What a file drills, with diameters, in order. -/
def XFile.drilled (f : XFile) : List (Feature × Option ℚ) := f.hits.map fun h => (h.feature, h.diameter f.heap)

/-- A number of a tool means one size in the whole file: definitions of the same number in the header agree, and every
hole is made with a tool of the size that the header gives for its number. -/
structure OneSize (f : XFile) : Prop where
  same : ∀ t ∈ f.defined, ∀ t' ∈ f.defined, t.number = t'.number → t.diameter = t'.diameter
  hits : ∀ x ∈ f.hits, ∃ t ∈ f.defined, f.numberOf x = some t.number ∧ x.diameter f.heap = t.diameter

/-! ## Lemmas -/

theorem perm_sections {α : Type} [DecidableEq α] {l l' : List (ℤ × α)}
    (h : ∀ n, (l.filter fun x => x.1 = n).map (·.2) = (l'.filter fun x => x.1 = n).map (·.2)) : l.Perm l' := by
  rw [List.perm_iff_count]
  rintro ⟨n, p⟩
  have key : ∀ l : List (ℤ × α), l.count (n, p) = ((l.filter fun x => x.1 = n).map (·.2)).count p := by
    intro l
    induction l with
    | nil => rfl
    | cons x l ih =>
      obtain ⟨m, q⟩ := x
      rw [List.count_cons, List.filter_cons, ih]
      by_cases hm : m = n
      · subst hm
        simp [List.count_cons]
      · simp [hm]
  rw [key, key, h n]

/-- The holes of a file with the numbers of their tools. -/
theorem numbered {f : XFile} (h : ∀ x ∈ f.hits, ∃ n p, (∃ t, x = .hole t p) ∧ f.numberOf x = some n) :
    ∃ l : List (ℤ × (ℚ × ℚ)), (∀ n, f.holesOf n = (l.filter fun x => x.1 = n).map (·.2)) ∧
      ∀ size : ℤ → Option ℚ, (∀ x ∈ f.hits, ∀ n, f.numberOf x = some n → x.diameter f.heap = size n) →
        f.drilled = l.map fun x => (.hole x.2, size x.1) := by
  unfold XFile.holesOf XFile.drilled
  revert h
  induction f.hits with
  | nil => intro _; exact ⟨[], fun _ => rfl, fun _ _ => rfl⟩
  | cons x hits ih =>
    intro h
    obtain ⟨n, p, ⟨t, rfl⟩, hn⟩ := h x (by simp)
    obtain ⟨l, h1, h2⟩ := ih fun y hy => h y (List.mem_cons_of_mem _ hy)
    refine ⟨(n, p) :: l, ?_, ?_⟩
    · intro m
      rw [List.filterMap_cons, List.filter_cons]
      by_cases hm : n = m
      · subst hm
        simp only [hn, if_true, decide_true, List.map_cons, h1]
      · simp only [hn, Option.some.injEq, decide_false, Bool.false_eq_true, if_false, hm, h1]
    · intro size hs
      rw [List.map_cons, List.map_cons, h2 size fun y hy => hs y (List.mem_cons_of_mem _ hy), hs _ (by simp) n hn]
      rfl

theorem numberOf_diameter {f : XFile} {r : ℕ} {p : ℚ × ℚ} {t : Tool} (h : f.heap[r]? = some t) :
    f.numberOf (.hole (some r) p) = some t.number ∧ (Hit.hole (some r) p).diameter f.heap = t.diameter := by
  simp [XFile.numberOf, Hit.tool, Hit.diameter, h]

/-- Like `C83_drilled_partial`, for files that need not come from a text, and with the order of the holes. -/
theorem written_again {f : XFile} {st : FileSettings} (hR : Refers f.heap f.tools) (hk : (f.tools.map (·.1)).Nodup)
    (hp : Plain f st) (hs : OneSize f) :
    ∃ text f', f.write = .ok text ∧ parseRaw (some st) [] text = .ok f' ∧ (∀ n, f'.holesOf n = f.holesOf n) ∧
      f'.drilled.Perm f.drilled := by
  let size : ℤ → Option ℚ := fun n =>
    match f.defined.find? (fun t => t.number = n) with
    | some t => t.diameter
    | none => some (defaultDiameter st.units n)
  have hsize : ∀ t ∈ f.defined, t.diameter = size t.number := by
    intro t ht
    simp only [size]
    split
    · rename_i t' e
      exact hs.same t ht t' (List.mem_of_find?_eq_some e) (by simpa [eq_comm] using List.find?_some e)
    · rename_i e
      exact absurd (by simp) (List.find?_eq_none.1 e t ht)
  obtain ⟨text, f', h1, h2, h3, h4, h5⟩ := write_read_of (D := fun n d => d = size n) hR hk hp hsize (by
    intro n hn
    by_contra hc
    refine hn ?_
    simp only [size]
    rw [List.find?_eq_none.2]
    intro t ht e
    exact hc (List.mem_map.2 ⟨t, ht, by simpa using e⟩))
  refine ⟨text, f', h1, h2, h3, ?_⟩
  obtain ⟨l, l1, l2⟩ := numbered (f := f) (by
    intro x hx
    obtain ⟨p, hh, -⟩ := hp.holes x hx
    obtain ⟨n, -, hn⟩ := hp.known x hx
    exact ⟨n, p, hh, hn⟩)
  obtain ⟨l', l1', l2'⟩ := numbered (f := f') (by
    intro x hx
    obtain ⟨r, p, t, rfl, ht⟩ := h4 x hx
    exact ⟨t.number, p, ⟨_, rfl⟩, (numberOf_diameter ht).1⟩)
  rw [l2 size, l2' size]
  · refine List.Perm.map _ (perm_sections fun n => ?_)
    rw [← l1, ← l1', h3]
  · intro x hx n hn
    obtain ⟨r, p, t, rfl, ht⟩ := h4 x hx
    obtain ⟨a1, a2⟩ := numberOf_diameter (p := p) ht
    rw [a1] at hn
    cases hn
    rw [a2, h5 t (List.mem_of_getElem? ht)]
  · intro x hx n hn
    obtain ⟨t, ht, a1, a2⟩ := hs.hits x hx
    rw [a1] at hn
    cases hn
    rw [a2, hsize t ht]

theorem drilled_again {f : XFile} {st : FileSettings} (hR : Refers f.heap f.tools) (hk : (f.tools.map (·.1)).Nodup)
    (hp : Plain f st) (hs : OneSize f) :
    ∃ text f', f.write = .ok text ∧ parseRaw (some st) [] text = .ok f' ∧ f'.drilled.Perm f.drilled := by
  obtain ⟨text, f', h1, h2, -, h3⟩ := written_again hR hk hp hs
  exact ⟨text, f', h1, h2, h3⟩

/-- **C83 for drill files.**  Every parsed file of the form described in C28 whose tool numbers mean one size can be
written, and the text, read with the settings of the file, drills the same holes with the same diameters (sorted by
tools). -/
theorem C83_drilled_partial {settings : Option FileSettings} {ext : List (ℤ × Tool)} {data : Str} {f : XFile}
    {st : FileSettings} (hx : FreshTools ext) (h : parseRaw settings ext data = .ok f) (hp : Plain f st)
    (hs : OneSize f) :
    ∃ text f', f.write = .ok text ∧ parseRaw (some st) [] text = .ok f' ∧ f'.drilled.Perm f.drilled := by
  obtain ⟨hR, hk⟩ := parsed_tools hx h
  exact drilled_again hR hk hp hs

/-! ## Boxes and pictures -/

/-- The box of a hit depends on its feature and its diameter. -/
def featureBox (x : Feature × Option ℚ) : PyR ((ℚ × ℚ) × (ℚ × ℚ)) :=
  match x with
  | (.hole p, some d) => .ok ((p.1 - d / 2, p.1 + d / 2), (p.2 - d / 2, p.2 + d / 2))
  | (.slot (some a, some b) (some c, some e), some d) =>
    .ok ((min a c - d / 2, max a c + d / 2), (min b e - d / 2, max b e + d / 2))
  | _ => .error .typeError

theorem hitBox_feature {heap : List Tool} {x : Hit} {b : (ℚ × ℚ) × (ℚ × ℚ)} :
    hitBox heap x = .ok b ↔ featureBox (x.feature, x.diameter heap) = .ok b := by
  unfold hitBox hitRadius Hit.diameter pyIdx
  cases hx : x.tool with
  | none => cases x <;> simp [featureBox, bind, Except.bind, Hit.feature]
  | some r =>
    cases ht : heap[r]? with
    | none => cases x <;> simp [featureBox, bind, Except.bind, Hit.feature, ht]
    | some t =>
      cases hd : t.diameter with
      | none => cases x <;> simp [featureBox, bind, Except.bind, Hit.feature, hd, ht]
      | some d =>
        cases x with
        | hole o p => simp [featureBox, bind, Except.bind, Hit.feature, hd, ht]
        | slot o a c g =>
          obtain ⟨a1, a2⟩ := a
          obtain ⟨c1, c2⟩ := c
          cases a1 <;> cases a2 <;> cases c1 <;> cases c2 <;>
            simp [featureBox, bind, Except.bind, Hit.feature, hd, ht]

theorem joinBox_comm (z x y : (ℚ × ℚ) × (ℚ × ℚ)) : joinBox (joinBox z x) y = joinBox (joinBox z y) x := by
  simp only [joinBox, Prod.mk.injEq]
  refine ⟨⟨min_left_comm .., max_left_comm ..⟩, min_left_comm .., max_left_comm ..⟩

theorem boxes_fold {heap : List Tool} {l : List Hit} {bs : List ((ℚ × ℚ) × (ℚ × ℚ))}
    (h : List.Forall₂ (fun h x => hitBox heap h = .ok x) l bs) : ∀ b0 : (ℚ × ℚ) × (ℚ × ℚ),
    l.foldlM (fun b h => do
      let x ← hitBox heap h
      Except.ok ((min x.1.1 b.1.1, max x.1.2 b.1.2), (min x.2.1 b.2.1, max x.2.2 b.2.2))) b0 =
        (Except.ok (bs.foldl joinBox b0) : PyR _) := by
  induction h with
  | nil => intro b0; rfl
  | cons hx _ ih =>
    intro b0
    rw [List.foldlM_cons, hx]
    exact ih _

/-- Files that drill the same have the same bounding box. -/
theorem box_perm {f f' : XFile} (h : f'.drilled.Perm f.drilled) {b : (ℚ × ℚ) × (ℚ × ℚ)}
    (hb : f.boundingBox = .ok b) : f'.boundingBox = .ok b := by
  obtain ⟨bs, h1, rfl⟩ := box_fold hb
  have h2 : List.Forall₂ (fun x c => featureBox x = .ok c) f.drilled bs := by
    unfold XFile.drilled
    rw [List.forall₂_map_left_iff]
    exact h1.imp fun _ _ e => hitBox_feature.1 e
  obtain ⟨bs', h3, h4⟩ := List.perm_comp_forall₂ h h2
  have h5 : List.Forall₂ (fun h x => hitBox f'.heap h = .ok x) f'.hits bs' := by
    unfold XFile.drilled at h3
    rw [List.forall₂_map_left_iff] at h3
    exact h3.imp fun _ _ e => hitBox_feature.2 e
  unfold XFile.boundingBox
  rw [boxes_fold h5, h4.foldl_eq' fun x _ y _ z => joinBox_comm z x y]

/-- Files that drill the same look the same. -/
theorem render_perm (K : Engine) {f f' : XFile} (h : f'.drilled.Perm f.drilled) {b : (ℚ × ℚ) × (ℚ × ℚ)}
    (hb : f.boundingBox = .ok b) (hne : f.hits ≠ []) (h0 : ∀ x ∈ f.hits, ∀ d, x.diameter f.heap = some d → 0 < d)
    {s : ℝ} (hs : 0 < s) : f'.render K { scale := s } = f.render K { scale := s } := by
  have hmem : ∀ ft d, (∃ x ∈ f'.hits, x.feature = ft ∧ x.diameter f'.heap = d) ↔
      ∃ x ∈ f.hits, x.feature = ft ∧ x.diameter f.heap = d := by
    intro ft d
    have := h.mem_iff (a := (ft, d))
    simpa [XFile.drilled] using this
  have hb' := box_perm h hb
  have hne' : f'.hits ≠ [] := by
    intro e
    have h1 := h.length_eq
    simp only [XFile.drilled, List.length_map, e, List.length_nil] at h1
    exact hne (List.length_eq_zero_iff.1 h1.symm)
  have h0' : ∀ x ∈ f'.hits, ∀ d, x.diameter f'.heap = some d → 0 < d := by
    intro x hx d hd
    obtain ⟨y, hy, -, e⟩ := (hmem x.feature (some d)).1 ⟨x, hx, rfl, hd⟩
    exact h0 y hy d e
  obtain ⟨A, a1, a2⟩ := C74_picture_partial K hb hne h0 hs
  obtain ⟨A', a1', a2'⟩ := C74_picture_partial K hb' hne' h0' hs
  have : A' = A := by
    ext q
    rw [a2, a2']
    constructor
    · rintro ⟨x, hx, d, hd, rest⟩
      obtain ⟨y, hy, e1, e2⟩ := (hmem x.feature (some d)).1 ⟨x, hx, rfl, hd⟩
      exact ⟨y, hy, d, e2, by rw [e1]; exact rest⟩
    · rintro ⟨x, hx, d, hd, rest⟩
      obtain ⟨y, hy, e1, e2⟩ := (hmem x.feature (some d)).2 ⟨x, hx, rfl, hd⟩
      exact ⟨y, hy, d, e2, by rw [e1]; exact rest⟩
  rw [a1, a1', this]

/-- **C83 for drill files.**  The file read from the written text has the same bounding box and, if it has holes, all of
positive size, the same picture. -/
theorem C83_drill_picture_partial (K : Engine) {settings : Option FileSettings} {ext : List (ℤ × Tool)} {data : Str}
    {f : XFile} {st : FileSettings} (hx : FreshTools ext) (h : parseRaw settings ext data = .ok f) (hp : Plain f st)
    (hs : OneSize f) {b : (ℚ × ℚ) × (ℚ × ℚ)} (hb : f.boundingBox = .ok b) (hne : f.hits ≠ [])
    (h0 : ∀ x ∈ f.hits, ∀ d, x.diameter f.heap = some d → 0 < d) :
    ∃ text f', f.write = .ok text ∧ parseRaw (some st) [] text = .ok f' ∧ f'.boundingBox = .ok b ∧
      ∀ s : ℝ, 0 < s → f'.render K { scale := s } = f.render K { scale := s } := by
  obtain ⟨text, f', h1, h2, h3⟩ := C83_drilled_partial hx h hp hs
  exact ⟨text, f', h1, h2, box_perm h3 hb, fun s hs => render_perm K h3 hb hne h0 hs⟩

/-! ## Examples and violations -/

/-- A check for `OneSize`. -/
def oneSizeB (f : XFile) : Bool :=
  (f.defined.all fun t => f.defined.all fun t' => decide (t.number = t'.number → t.diameter = t'.diameter)) &&
    f.hits.all fun x => f.defined.any fun t =>
      decide (f.numberOf x = some t.number) && decide (x.diameter f.heap = t.diameter)

theorem oneSizeB_sound {f : XFile} (h : oneSizeB f = true) : OneSize f := by
  unfold oneSizeB at h
  simp only [Bool.and_eq_true, List.all_eq_true, List.any_eq_true, decide_eq_true_eq] at h
  exact ⟨h.1, fun x hx => by obtain ⟨t, h1, h2, h3⟩ := h.2 x hx; exact ⟨t, h1, h2, h3⟩⟩

-- the file of C28, one of whose tools has no diameter and is not used
example : ∃ f, parseRaw none [] turns = .ok f ∧ Plain f metric24 ∧ OneSize f ∧ f.hits ≠ [] ∧
    (∃ b, f.boundingBox = .ok b) ∧ ∀ x ∈ f.hits, ∀ d, x.diameter f.heap = some d → 0 < d := by
  refine ⟨_, rfl, plainB_sound (by decide +kernel), oneSizeB_sound (by decide +kernel), by decide +kernel,
    ⟨((-2025 / 1000, 10525 / 1000), (-575 / 1000, 21025 / 1000)), by decide +kernel⟩, ?_⟩
  have : ∀ (o : List (Option ℚ)), (o.all fun o => match o with | some d => decide (0 < d) | none => true) = true →
      ∀ d, some d ∈ o → 0 < d := by
    intro o h d hd
    simpa using List.all_eq_true.1 h _ hd
  intro x hx d hd
  refine this _ ?_ d (List.mem_map.2 ⟨x, hx, hd⟩)
  decide +kernel

/-- What a file drills before and after being written and read again. -/
def drilledTwice (data : Str) : PyR (List (Feature × Option ℚ) × Str × List (Feature × Option ℚ)) := do
  let f ← parseRaw none [] data
  let st ← f.cam.settings
  let text ← f.write
  let f' ← parseRaw (some st) [] text
  .ok (f.drilled, text, f'.drilled)

/-- **C83 fails** for diameters with more decimals than the coordinates have: they are cut off. -/
theorem C83_diameter_violated : drilledTwice (prog ["M48", "METRIC,LZ", "T01C0.123456", "%", "T01", "X01Y01", "M30"]) =
    .ok ([(.hole (1, 1), some (123456 / 1000000))], prog ["M48", "METRIC,LZ", "T01C0.1234", "%", "T01", "X01Y01", "M30"],
      [(.hole (1, 1), some (1234 / 10000))]) := by
  decide +kernel

end Verif.Excellon
