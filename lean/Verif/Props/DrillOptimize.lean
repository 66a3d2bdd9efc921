import Verif.Model.DrillOptimize
import Verif.Props.DrillSave

/-! # C87: changing the order of the holes of a drill file drills the same holes -/

namespace Verif.Excellon
open Verif.Py Verif.Cam Verif.Excellon.Spec

/-! ## Specification -/

/-- A solver returns every place once. -/
def Visits (solve : List (ℚ × ℚ) → List ℕ) : Prop := ∀ l, (solve l).Perm (List.range l.length)

/-- The points of a list in the order of the given places. -/
def inOrder (l : List (ℚ × ℚ)) (path : List ℕ) : List (ℚ × ℚ) := path.map fun i => l[i]?.getD (0, 0)

/-! ## Lemmas -/

theorem inOrder_perm {l : List (ℚ × ℚ)} {path : List ℕ} (h : path.Perm (List.range l.length)) : (inOrder l path).Perm l := by
  refine (h.map _).trans (List.Perm.of_eq ?_)
  refine List.ext_getElem (by simp) fun i h1 h2 => ?_
  simp [h2]

/-- Like `perm_sections`, if the sections are the same up to order. -/
theorem perm_sections' {α : Type} [DecidableEq α] {l l' : List (ℤ × α)}
    (h : ∀ n, ((l.filter fun x => x.1 = n).map (·.2)).Perm ((l'.filter fun x => x.1 = n).map (·.2))) : l.Perm l' := by
  rw [List.perm_iff_count]
  rintro ⟨n, p⟩
  have key : ∀ l : List (ℤ × α), l.count (n, p) = ((l.filter fun x => x.1 = n).map (·.2)).count p := by
    intro l
    induction l with
    | nil => rfl
    | cons x l ih =>
      obtain ⟨m, q⟩ := x
      rw [List.count_cons, List.filter_cons, ih]
      by_cases hm : m = n
      · subst hm
        simp [List.count_cons]
      · simp [hm]
  rw [key, key, (h n).count_eq]

theorem holesOf_filter {f : XFile} {n : ℤ} : f.holesOf n = f.hits.filterMap fun h => match h with
    | .hole _ p => if f.numberOf h = some n then some p else none
    | .slot _ _ _ _ => none := rfl

theorem hitNumber_of {f : XFile} {x : Hit} {n : ℤ} (h : f.numberOf x = some n) : hitNumber f.heap x = .ok n := by
  unfold XFile.numberOf at h
  unfold hitNumber
  cases hx : x.tool with
  | none => rw [hx] at h; cases h
  | some r =>
    rw [hx, Option.bind_some, Option.map_eq_some_iff] at h
    obtain ⟨t, ht, rfl⟩ := h
    simp [pyIdx, ht, Except.map]

theorem positionsOf_spec {f : XFile} (h : ∀ x ∈ f.hits, ∃ p n, (∃ t, x = .hole t p) ∧ f.numberOf x = some n) :
    ∃ pos, positionsOf f = .ok pos ∧ ∀ n, dictGet pos n = if f.holesOf n = [] then none else some (f.holesOf n) := by
  have key : ∀ l : List Hit, (∀ x ∈ l, ∃ p n, (∃ t, x = .hole t p) ∧ f.numberOf x = some n) →
      ∀ d : List (ℤ × List (ℚ × ℚ)), (∀ n, dictGet d n ≠ some []) → ∃ pos, l.foldlM (fun d h => do
        let n ← hitNumber f.heap h
        match h with
        | .hole _ p => .ok (dictSet d n ((dictGet d n).getD [] ++ [p]))
        | .slot _ _ _ _ => .error .attributeError) d = (.ok pos : PyR _) ∧ (∀ n, dictGet pos n ≠ some []) ∧
        ∀ n, (dictGet pos n).getD [] = (dictGet d n).getD [] ++ l.filterMap fun h => match h with
          | .hole _ p => if f.numberOf h = some n then some p else none
          | .slot _ _ _ _ => none := by
    intro l
    induction l with
    | nil => exact fun _ d hd => ⟨d, rfl, hd, fun n => by simp⟩
    | cons x l ih =>
      intro hl d hd
      obtain ⟨p, n, ⟨t, rfl⟩, hn⟩ := hl x (by simp)
      obtain ⟨pos, h1, h2, h3⟩ := ih (fun y hy => hl y (by simp [hy])) (dictSet d n ((dictGet d n).getD [] ++ [p])) (by
        intro m
        by_cases hm : m = n
        · subst hm; rw [dictGet_set_self]; simp
        · rw [dictGet_set_ne _ _ hm]; exact hd m)
      refine ⟨pos, ?_, h2, fun m => ?_⟩
      · rw [List.foldlM_cons, hitNumber_of hn]
        exact h1
      · rw [h3, List.filterMap_cons]
        by_cases hm : m = n
        · subst hm
          rw [dictGet_set_self]
          simp [hn]
        · rw [dictGet_set_ne _ _ hm]
          simp [hn, Ne.symm hm]
  obtain ⟨pos, h1, h2, h3⟩ := key f.hits h [] (fun n => by simp [dictGet])
  refine ⟨pos, h1, fun n => ?_⟩
  have := h3 n
  simp only [dictGet, Option.getD_none, List.nil_append] at this
  rw [holesOf_filter, ← this]
  cases hg : dictGet pos n with
  | none => simp
  | some l =>
    have : l ≠ [] := fun e => h2 n (e ▸ hg)
    simp [this]

theorem mapM_ok {α β : Type} {g : α → PyR β} {k : α → β} : ∀ {l : List α}, (∀ a ∈ l, g a = .ok (k a)) →
    l.mapM g = .ok (l.map k)
  | [], _ => rfl
  | a :: l, h => by
    rw [List.mapM_cons, h a (by simp), mapM_ok (fun b hb => h b (by simp [hb]))]
    rfl

theorem reorder_spec {solve : List (ℚ × ℚ) → List ℕ} (hv : Visits solve) {f : XFile}
    {pos : List (ℤ × List (ℚ × ℚ))} {n : ℤ} {r : ℕ}
    (hp : dictGet pos n = if f.holesOf n = [] then none else some (f.holesOf n)) (hr : dictGet f.tools n = some r) :
    reorder solve f pos n (f.holesOf n).length =
      .ok ((inOrder (f.holesOf n) (solve (f.holesOf n))).map fun p => .hole (some r) p) := by
  have hps : measured pos n (f.holesOf n).length = .ok (f.holesOf n) := by
    unfold measured
    split
    · rename_i h; rw [List.length_eq_zero_iff.1 h]
    · rename_i h
      rw [if_neg (by simpa using h)] at hp
      simp [positionsGet, hp, bind, Except.bind]
  unfold reorder
  rw [hps]
  show ((solve (f.holesOf n)).mapM _ : PyR _) = _
  rw [mapM_ok (k := fun i => .hole (some r) ((f.holesOf n)[i]?.getD (0, 0)))]
  · simp [inOrder]
  · intro i hi
    have hi' : i < (f.holesOf n).length := by simpa using (hv (f.holesOf n)).mem_iff.1 hi
    rw [if_neg (by rintro e; rw [e] at hi'; simp at hi')] at hp
    simp [hr, positionsGet, hp, bind, Except.bind, pyIdx, hi']

theorem holesOf_length {f : XFile} (h : ∀ x ∈ f.hits, ∃ p, ∃ t, x = Hit.hole t p) (n : ℤ) :
    (f.holesOf n).length = f.hits.countP fun x => f.numberOf x = some n := by
  unfold XFile.holesOf
  revert h
  induction f.hits with
  | nil => intro _; rfl
  | cons x l ih =>
    intro h
    obtain ⟨p, t, rfl⟩ := h x (by simp)
    rw [List.filterMap_cons, List.countP_cons, ← ih fun y hy => h y (by simp [hy])]
    by_cases hn : f.numberOf (.hole t p) = some n <;> simp [hn]

/-- The holes of a file made of sections. -/
theorem holesOf_sections {heap : List Tool} {g : ℤ → List (ℚ × ℚ)} {tools : List (ℤ × ℕ)} {f : XFile} (hh : f.heap = heap)
    (hR : Refers heap tools) (hk : (tools.map (·.1)).Nodup)
    (hf : f.hits = tools.flatMap fun x => (g x.1).map fun p => .hole (some x.2) p) (n : ℤ) :
    f.holesOf n = if n ∈ tools.map (·.1) then g n else [] := by
  rw [← filter_sections hk (g := g) (n := n), holesOf_filter, hf]
  clear hf hk
  induction tools with
  | nil => rfl
  | cons x l ih =>
    rw [List.flatMap_cons, List.flatMap_cons, List.filterMap_append, List.filter_append, List.map_append,
      ih fun y hy => hR y (by simp [hy])]
    congr 1
    have hx : ∀ p, f.numberOf (.hole (some x.2) p) = some x.1 := by
      intro p
      have := hR x (by simp)
      rw [List.getElem?_map] at this
      simp [XFile.numberOf, Hit.tool, hh, this]
    induction g x.1 with
    | nil => rfl
    | cons p ps ih' =>
      rw [List.map_cons, List.map_cons, List.filterMap_cons, List.filter_cons, ih']
      by_cases hm : x.1 = n <;> simp [hx, hm]

/-! ## C87 -/

/-- **C87.**  A parsed drill file of the form described in C28 whose tool numbers mean one size, in which no tool in use
was defined again, is put in the order of any solver that visits every hole once, and written: no step raises, the holes
of every tool come in the order the solver chose, and the text, read again, drills the same holes with the same
diameters. -/
theorem C87_optimized_partial {settings : Option FileSettings} {ext : List (ℤ × Tool)} {data : Str} {f : XFile}
    {st : FileSettings} (hx : FreshTools ext) (h : parseRaw settings ext data = .ok f) (hp : Plain f st)
    (hs : OneSize f) (hb : (Mach.start (startsIncremental settings)).anyBare (f.statements.map (·.kind)) = false)
    (hu : ∀ x ∈ f.hits, ∃ r, x.tool = some r ∧ r ∈ f.tools.map (·.2))
    {solve : List (ℚ × ℚ) → List ℕ} (hv : Visits solve) :
    ∃ g text f', f.optimize solve = .ok g ∧ g.write = .ok text ∧ parseRaw (some st) [] text = .ok f' ∧
      (∀ n, f'.holesOf n = inOrder (f.holesOf n) (solve (f.holesOf n))) ∧ g.drilled.Perm f.drilled ∧
      f'.drilled.Perm f.drilled := by
  obtain ⟨hR, hk⟩ := parsed_tools hx h
  have hholes : ∀ x ∈ f.hits, ∃ p n, (∃ t, x = .hole t p) ∧ f.numberOf x = some n := by
    intro x hx
    obtain ⟨p, h1, -⟩ := hp.holes x hx
    obtain ⟨n, -, h2⟩ := hp.known x hx
    exact ⟨p, n, h1, h2⟩
  obtain ⟨pos, hpos, hget⟩ := positionsOf_spec hholes
  have hcount : f.hitCounts = .ok (f.tools.map fun x => (x.1, (f.holesOf x.1).length)) := by
    unfold XFile.hitCounts
    rw [foldlM_counts f.tools [] hR hk (by simp), List.nil_append]
    congr 1
    refine List.map_congr_left fun x hm => ?_
    have h1 := C25_hit_count_partial hx h hb hu (n := x.1) (List.mem_map_of_mem hm)
    unfold XFile.hitCount XFile.hitCounts at h1
    rw [foldlM_counts f.tools [] hR hk (by simp), List.nil_append] at h1
    have h2 := dictGet_of_mem (d := f.tools.map fun x => (x.1, ((f.heap[x.2]?).map (·.hitCount)).getD 0))
      (by rw [List.map_map]; exact hk) (List.mem_map_of_mem (f := fun x => (x.1, ((f.heap[x.2]?).map (·.hitCount)).getD 0)) hm)
    simp only [Except.map, h2, Except.ok.injEq, Option.some.injEq] at h1
    rw [h1, holesOf_length fun x hx => by
      obtain ⟨p, ⟨t, e⟩, -⟩ := hp.holes x hx
      exact ⟨p, t, e⟩]
  let order : ℤ → List (ℚ × ℚ) := fun n => inOrder (f.holesOf n) (solve (f.holesOf n))
  have horder : ∀ n, (order n).Perm (f.holesOf n) := fun n => inOrder_perm (hv _)
  let g : XFile := { f with hits := f.tools.flatMap fun x => (order x.1).map fun p => .hole (some x.2) p }
  have hg : f.optimize solve = .ok g := by
    unfold XFile.optimize
    rw [hcount, hpos]
    simp only [bind, Except.bind]
    rw [mapM_ok (k := fun x => (order x.1).map fun p => .hole (some ((dictGet f.tools x.1).getD 0)) p)]
    · simp only [g, List.flatMap, List.map_map]
      congr 3
      refine List.map_congr_left fun x hm => ?_
      simp [dictGet_of_mem hk hm]
    · intro y hy
      obtain ⟨x, hm, rfl⟩ := List.mem_map.1 hy
      have := dictGet_of_mem hk hm
      simp only [this, Option.getD_some]
      exact reorder_spec hv (hget x.1) this
  have hgo : ∀ n, g.holesOf n = order n := by
    intro n
    rw [holesOf_sections (f := g) (g := order) rfl hR hk rfl n]
    split
    · rfl
    · rename_i hn
      have : f.holesOf n = [] := by
        rw [holesOf_filter, List.filterMap_eq_nil_iff]
        intro x hx
        obtain ⟨p, ⟨t, rfl⟩, -⟩ := hp.holes x hx
        obtain ⟨m, hm, h2⟩ := hp.known _ hx
        simp only [h2, Option.some.injEq]
        rw [if_neg]
        rintro rfl; exact hn hm
      have h0 := horder n
      rw [this] at h0
      exact h0.eq_nil.symm
  -- every new hole is an old one, made with the tool of that number
  have hnum : ∀ x ∈ g.hits, ∃ y ∈ f.hits, ∃ p n, (∃ t, x = .hole t p) ∧ (∃ t, y = .hole t p) ∧
      n ∈ f.tools.map (·.1) ∧ g.numberOf x = some n ∧ f.numberOf y = some n ∧ x.diameter g.heap = y.diameter f.heap := by
    intro x hxm
    obtain ⟨⟨n, r⟩, hm, hxm⟩ := List.mem_flatMap.1 hxm
    obtain ⟨p, hpm, rfl⟩ := List.mem_map.1 hxm
    have hpm := (horder n).mem_iff.1 hpm
    obtain ⟨y, hy, hyp⟩ := List.mem_filterMap.1 hpm
    obtain ⟨q, ⟨t, rfl⟩, -⟩ := hp.holes y hy
    simp only at hyp
    split at hyp
    · rename_i hn
      cases hyp
      obtain ⟨r', e, hr'⟩ := hu _ hy
      cases e
      obtain ⟨⟨n', r''⟩, hm', rfl⟩ := List.mem_map.1 hr'
      have a1 := hR _ hm
      have a2 := hR _ hm'
      rw [List.getElem?_map] at a1 a2
      have : n' = n := by
        simp only [XFile.numberOf, Hit.tool, Option.bind_some] at hn
        rw [a2] at hn
        exact Option.some.inj hn
      subst this
      have e1 := dictGet_of_mem hk hm
      rw [dictGet_of_mem hk hm'] at e1
      cases e1
      exact ⟨_, hy, p, n', ⟨_, rfl⟩, ⟨_, rfl⟩, List.mem_map_of_mem (f := (·.1)) hm, hn, hn, rfl⟩
    · cases hyp
  have hpg : Plain g st := by
    refine ⟨hp.settings, hp.absolute, hp.format, hp.header, hp.numbers, ?_, ?_⟩
    · intro x hxm
      obtain ⟨y, hy, p, n, ⟨t, rfl⟩, ⟨t', rfl⟩, -⟩ := hnum x hxm
      obtain ⟨q, ⟨t2, e⟩, h1, h2⟩ := hp.holes _ hy
      cases e
      exact ⟨p, ⟨t, rfl⟩, h1, h2⟩
    · intro x hxm
      obtain ⟨y, hy, p, n, -, -, h1, h2, -⟩ := hnum x hxm
      exact ⟨n, h1, h2⟩
  have hsg : OneSize g := by
    refine ⟨hs.same, fun x hxm => ?_⟩
    obtain ⟨y, hy, p, n, -, -, -, h2, h3, h4⟩ := hnum x hxm
    obtain ⟨t, ht, e1, e2⟩ := hs.hits y hy
    exact ⟨t, ht, by rw [h2, ← h3, e1], by rw [h4, e2]⟩
  obtain ⟨text, f', t1, t2, t3, t4⟩ := written_again (f := g) hR hk hpg hsg
  have hperm : g.drilled.Perm f.drilled := by
    obtain ⟨l, l1, l2⟩ := numbered (f := f) (fun x hx => by
      obtain ⟨p, n, h1, h2⟩ := hholes x hx
      exact ⟨n, p, h1, h2⟩)
    obtain ⟨l', l1', l2'⟩ := numbered (f := g) (fun x hx => by
      obtain ⟨y, hy, p, n, h1, -, -, h2, -⟩ := hnum x hx
      exact ⟨n, p, h1, h2⟩)
    classical
    let size : ℤ → Option ℚ := fun n => if hn : ∃ t ∈ f.defined, t.number = n then hn.choose.diameter else none
    have hsize : ∀ t ∈ f.defined, t.diameter = size t.number := by
      intro t ht
      have hn : ∃ t' ∈ f.defined, t'.number = t.number := ⟨t, ht, rfl⟩
      simp only [size, dif_pos hn]
      exact hs.same t ht _ hn.choose_spec.1 hn.choose_spec.2.symm
    rw [l2 size, l2' size]
    · refine List.Perm.map _ (perm_sections' fun n => ?_)
      rw [← l1, ← l1', hgo]
      exact horder n
    · intro x hx n hn
      obtain ⟨t, ht, e1, e2⟩ := hsg.hits x hx
      rw [e1] at hn; cases hn
      rw [e2]; exact hsize t ht
    · intro x hx n hn
      obtain ⟨t, ht, e1, e2⟩ := hs.hits x hx
      rw [e1] at hn; cases hn
      rw [e2]; exact hsize t ht
  exact ⟨g, text, f', hg, t1, t2, fun n => by rw [t3, hgo], hperm, t4.trans hperm⟩

/-! ## Examples and files for which the claim fails -/

/-- The places in reverse. -/
def backwards (l : List (ℚ × ℚ)) : List ℕ := (List.range l.length).reverse

theorem backwards_visits : Visits backwards := fun _ => List.reverse_perm _

-- the file of C28, drilled backwards
example : ∃ f, parseRaw none [] turns = .ok f ∧ Plain f metric24 ∧ OneSize f ∧ FreshTools [] ∧
    (Mach.start (startsIncremental none)).anyBare (f.statements.map (·.kind)) = false ∧
    (∀ x ∈ f.hits, ∃ r, x.tool = some r ∧ r ∈ f.tools.map (·.2)) ∧
    f.holesOf 2 = [(1, 1), (-3 / 2, 1), (10, 41 / 2), (3 / 2, -1 / 20)] ∧
    (∃ g, f.optimize backwards = .ok g ∧ g.holesOf 2 = [(3 / 2, -1 / 20), (10, 41 / 2), (-3 / 2, 1), (1, 1)]) := by
  refine ⟨_, rfl, plainB_sound (by decide +kernel), oneSizeB_sound (by decide +kernel), fun x hx => (by cases hx),
    by decide +kernel, ?_, by decide +kernel, ⟨_, rfl, by decide +kernel⟩⟩
  have key : ∀ (l : List Hit) (ts : List ℕ), (l.all fun h => match h.tool with
      | some r => ts.contains r
      | none => false) = true → ∀ x ∈ l, ∃ r, x.tool = some r ∧ r ∈ ts := by
    intro l ts h x hx
    have := List.all_eq_true.1 h x hx
    split at this
    · rename_i r e
      exact ⟨r, e, by simpa using this⟩
    · cases this
  exact key _ _ (by decide +kernel)

/-- What a file drills, and what it drills in the order of the solver. -/
def drilledOptimized (solve : List (ℚ × ℚ) → List ℕ) (data : Str) :
    PyR (List (Feature × Option ℚ) × List (Feature × Option ℚ)) := do
  let f ← parseRaw none [] data
  let g ← f.optimize solve
  .ok (f.drilled, g.drilled)

/-- **C87 fails** for files with slots: `AttributeError`. -/
theorem C87_slot_violated : drilledOptimized backwards (prog ["M48", "INCH,LZ", "T01C0.020", "%", "T01", "X01Y01",
    "X01Y01G85X02Y01", "M30"]) = .error .attributeError := by
  decide +kernel

/-- **C87 fails** if a tool is defined again after use: only as many holes as followed are kept, and
these are the first ones, drilled with the new diameter. -/
theorem C87_redefined_violated : drilledOptimized backwards (prog ["M48", "INCH,LZ", "T01C0.020", "%", "T01", "X01Y01",
      "M48", "T01C0.030", "%", "M30"]) = .ok ([(.hole (1, 1), some (1 / 50))], []) ∧
    drilledOptimized backwards (prog ["M48", "INCH,LZ", "T01C0.020", "%", "T01", "X01Y01",
      "M48", "T01C0.030", "%", "T01", "X02Y02", "M30"]) =
      .ok ([(.hole (1, 1), some (1 / 50)), (.hole (2, 2), some (3 / 100))], [(.hole (1, 1), some (3 / 100))]) := by
  constructor <;> decide +kernel

end Verif.Excellon
