import Verif.Lemmas.ExcellonCount
import Verif.Spec.ToolUse

/-! # Lemmas about the tools of drill files -/

namespace Verif.Excellon
open Verif.Py Verif.Cam Verif.Utils Spec

/-! ## Racks -/

theorem rackAfter_append (num : ℕ → Option ℤ) (l l' : List Kind) : ∀ (m : Mach) (R : Rack),
    Rack.after num m R (l ++ l') = Rack.after num (m.after l) (Rack.after num m R l) l' := by
  induction l with
  | nil => intro m R; rfl
  | cons k l ih => intro m R; exact ih _ _

theorem rackUsed_append (num : ℕ → Option ℤ) (l l' : List Kind) : ∀ (m : Mach) (R : Rack),
    Rack.used num m R (l ++ l') = Rack.used num m R l ++ Rack.used num (m.after l) (Rack.after num m R l) l' := by
  induction l with
  | nil => intro m R; rfl
  | cons k l ih =>
    intro m R
    simp only [List.cons_append, Rack.used, ih, List.append_assoc]
    rfl

/-- One statement keeps tools in the rack and the note that one was missing. -/
theorem step_mono (num : ℕ → Option ℤ) (m : Mach) (R : Rack) (k : Kind) :
    (∀ n, (R.step num m k).table n = none → R.table n = none) ∧
      ((R.step num m k).missing = false → R.missing = false) := by
  unfold Rack.step
  split
  · unfold Rack.next
    split
    · split
      · refine ⟨fun n h => ?_, id⟩
        simp only [Rack.define] at h
        split at h
        · cases h
        · exact h
      · exact ⟨fun _ h => h, id⟩
    · split
      · exact ⟨fun _ h => h, id⟩
      · refine ⟨fun _ h => h, fun h => ?_⟩
        simp only [Rack.take, Bool.or_eq_false_iff] at h
        exact h.1
    · split
      · refine ⟨fun _ h => h, fun h => ?_⟩
        simp only [Rack.take, Bool.or_eq_false_iff] at h
        exact h.1
      · exact ⟨fun _ h => h, fun h => by cases h⟩
    · exact ⟨fun _ h => h, id⟩
  · unfold Rack.need
    split
    · exact ⟨fun _ h => h, id⟩
    · refine ⟨fun _ h => h, fun h => ?_⟩
      simp only [Rack.take, Bool.or_eq_false_iff] at h
      exact h.1

theorem after_mono (num : ℕ → Option ℤ) (l : List Kind) : ∀ (m : Mach) (R : Rack),
    (∀ n, (Rack.after num m R l).table n = none → R.table n = none) ∧
      ((Rack.after num m R l).missing = false → R.missing = false) := by
  induction l with
  | nil => intro m R; exact ⟨fun _ h => h, id⟩
  | cons k l ih =>
    intro m R
    obtain ⟨h1, h2⟩ := ih (m.next k) (R.step num m k)
    obtain ⟨h3, h4⟩ := step_mono num m R k
    exact ⟨fun n h => h3 n (h1 n h), fun h => h4 (h2 h)⟩

theorem take_define {R : Rack} {n k : ℤ} {r : ℕ} (h : (R.take k).missing = false) (hn : R.table n = none) :
    (R.define n r).take k = (R.take k).define n r := by
  simp only [Rack.take, Bool.or_eq_false_iff] at h
  have hk : k ≠ n := by
    rintro rfl
    rw [hn] at h
    cases h.2
  simp only [Rack.take, Rack.define, if_neg hk]

/-- A tool that is not asked for does not change what a statement does. -/
theorem step_define (num : ℕ → Option ℤ) (m : Mach) (R : Rack) (k : Kind) {n : ℤ} {r : ℕ}
    (hm : (R.step num m k).missing = false) (hn : (R.step num m k).table n = none) :
    (R.define n r).step num m k = (R.step num m k).define n r := by
  have h0 := (step_mono num m R k).1 n hn
  unfold Rack.step at hm hn ⊢
  split
  · rename_i hk
    rw [if_pos hk] at hm hn
    unfold Rack.next at hm hn ⊢
    split
    · split
      · rename_i a n' e
        simp only [e, Rack.define] at hn
        have hne : n ≠ n' := by
          rintro rfl
          simp at hn
        simp only [Rack.define, Rack.mk.injEq, and_self, and_true]
        funext x
        by_cases hx : x = n
        · subst hx; rw [if_neg hne, if_pos rfl, if_pos rfl]
        · rw [if_neg hx, if_neg hx]
      · rfl
    · simp only at hm hn
      split
      · rfl
      · rename_i hz
        rw [if_neg hz] at hm hn
        exact take_define hm h0
    · have hc : (R.define n r).cur = R.cur := rfl
      rw [hc]
      simp only at hm hn
      split
      · rename_i e
        rw [e] at hm hn
        exact take_define hm h0
      · rfl
    · rfl
  · rename_i hk
    rw [if_neg hk] at hm hn
    unfold Rack.need at hm hn ⊢
    have hc : (R.define n r).cur = R.cur := rfl
    rw [hc]
    split
    · rfl
    · rename_i e
      rw [e] at hm hn
      exact take_define hm h0

/-- A tool that no statement asks for may be put in the rack before. -/
theorem after_define (num : ℕ → Option ℤ) {n : ℤ} {r : ℕ} (l : List Kind) : ∀ (m : Mach) (R : Rack),
    (Rack.after num m R l).missing = false → (Rack.after num m R l).table n = none →
    Rack.after num m (R.define n r) l = (Rack.after num m R l).define n r ∧
      Rack.used num m (R.define n r) l = Rack.used num m R l := by
  induction l with
  | nil => intro m R _ _; exact ⟨rfl, rfl⟩
  | cons k l ih =>
    intro m R hm hn
    have hs := step_define num m R k (r := r) ((after_mono num l _ _).2 hm) ((after_mono num l _ _).1 n hn)
    obtain ⟨h1, h2⟩ := ih (m.next k) (R.step num m k) hm hn
    simp only [Rack.after, Rack.used, hs]
    exact ⟨h1, by rw [h2]; rfl⟩

/-! ## The parser -/

/-- `num` gives the numbers of the tool objects. -/
def Numbers (num : ℕ → Option ℤ) (heap : List Tool) : Prop := ∀ r t, heap[r]? = some t → num r = some t.number

theorem Numbers.of_same {num : ℕ → Option ℤ} {heap heap' : List Tool}
    (h : heap'.map (·.number) = heap.map (·.number)) (hn : Numbers num heap') : Numbers num heap := by
  intro r t ht
  have e : (heap'.map (·.number))[r]? = some t.number := by rw [h, List.getElem?_map, ht]; rfl
  rw [List.getElem?_map, Option.map_eq_some_iff] at e
  obtain ⟨t', h1, h2⟩ := e
  rw [hn r t' h1, h2]

theorem Numbers.of_append {num : ℕ → Option ℤ} {heap l : List Tool} (hn : Numbers num (heap ++ l)) :
    Numbers num heap := by
  intro r t ht
  refine hn r t ?_
  rw [List.getElem?_append_left (List.getElem?_eq_some_iff.mp ht).1]
  exact ht

/-- The rack a parser state stands for. -/
def PState.rack (s : PState) : Rack := ⟨fun n => (dictGet s.tools n).or (dictGet s.ext n), s.active, false⟩

/-- Something was made without a tool, or there was no next tool. -/
def Lost (s : PState) : Prop := (∃ h ∈ s.hits, h.tool = none) ∨ ∃ a, Kind.nextTool a none ∈ s.kinds

/-- The statements read so far explain the tools. -/
structure Racked (m0 : Mach) (R0 : Rack) (s : PState) : Prop where
  comments : s.comments = []
  agree : Lost s ∨ ∀ num, Numbers num s.heap →
    Rack.after num m0 R0 s.kinds = s.rack ∧ Rack.used num m0 R0 s.kinds = s.hits.map (·.tool)

theorem Lost.mono {s s' : PState} (h : Lost s) (hk : ∀ k ∈ s.kinds, k ∈ s'.kinds)
    (hh : ∃ l, s'.hits.map (·.tool) = s.hits.map (·.tool) ++ l) : Lost s' := by
  rcases h with ⟨x, hx, e⟩ | ⟨a, ha⟩
  · left
    obtain ⟨l, hl⟩ := hh
    have : (none : Option ℕ) ∈ s'.hits.map (·.tool) := by
      rw [hl]
      exact List.mem_append_left _ (List.mem_map.mpr ⟨x, hx, e⟩)
    obtain ⟨y, hy, e'⟩ := List.mem_map.mp this
    exact ⟨y, hy, e'⟩
  · exact .inr ⟨a, hk _ ha⟩

/-- One more statement. -/
theorem Racked.push {m0 : Mach} {R0 : Rack} {s s' : PState} (h : Racked m0 R0 s) (hs : Sim m0 s) (k : Kind)
    (hk : s'.kinds = s.kinds ++ [k]) (hc : s'.comments = s.comments)
    (hh : ∃ l, s'.hits.map (·.tool) = s.hits.map (·.tool) ++ l)
    (hn : ∀ num, Numbers num s'.heap → Numbers num s.heap)
    (hr : Lost s' ∨ ∀ num, Numbers num s'.heap → s.rack.step num s.view k = s'.rack ∧
      s'.hits.map (·.tool) = s.hits.map (·.tool) ++ List.replicate (s.view.makes k).length s'.active) :
    Racked m0 R0 s' := by
  refine ⟨by rw [hc, h.comments], ?_⟩
  rcases h.agree with hl | ha
  · exact .inl (hl.mono (fun x hx => by rw [hk]; exact List.mem_append_left _ hx) hh)
  · rcases hr with hl | hr
    · exact .inl hl
    · right
      intro num hnum
      obtain ⟨h1, h2⟩ := ha num (hn num hnum)
      obtain ⟨h3, h4⟩ := hr num hnum
      rw [hk, rackAfter_append, rackUsed_append, hs.view, h1, h2, h4]
      refine ⟨h3, ?_⟩
      simp only [Rack.used, List.append_nil, h3]
      rfl

/-- Nothing that matters changes. -/
theorem Racked.keep {m0 : Mach} {R0 : Rack} {s s' : PState} (h : Racked m0 R0 s) (hk : s'.kinds = s.kinds)
    (hc : s'.comments = s.comments) (hh : s'.hits = s.hits) (hn : s'.heap = s.heap)
    (ht : s'.tools = s.tools) (he : s'.ext = s.ext) (ha : s'.active = s.active) : Racked m0 R0 s' := by
  refine ⟨by rw [hc, h.comments], ?_⟩
  unfold Lost PState.rack
  rw [hk, hh, hn, ht, he, ha]
  exact h.agree

/-- A statement that has nothing to do with tools. -/
theorem Racked.quiet {m0 : Mach} {R0 : Rack} {s s' : PState} (h : Racked m0 R0 s) (hs : Sim m0 s) (k : Kind)
    (hq : ∀ num (R : Rack), R.next num k = R) (hm : s.view.makes k = [])
    (hk : s'.kinds = s.kinds ++ [k]) (hc : s'.comments = s.comments) (hh : s'.hits = s.hits) (hn : s'.heap = s.heap)
    (ht : s'.tools = s.tools) (he : s'.ext = s.ext) (ha : s'.active = s.active) : Racked m0 R0 s' := by
  refine h.push hs k hk hc ⟨[], by rw [hh, List.append_nil]⟩ (fun num => by rw [hn]; exact id) (.inr fun num _ => ?_)
  rw [hm, hh]
  refine ⟨?_, by simp⟩
  unfold Rack.step
  rw [if_pos hm, hq]
  unfold PState.rack
  rw [ht, he, ha]

theorem getTool_rack {s s' : PState} (hc : s.comments = []) {id : ℤ} {r : Option ℕ} (h : s.getTool id = .ok (r, s')) :
    r = s.rack.table id ∧ s'.rack = s.rack := by
  unfold PState.getTool at h
  rw [hc] at h
  simp only [PState.rack]
  split at h
  · rename_i r0 e
    cases h
    exact ⟨by rw [e]; rfl, rfl⟩
  · rename_i e
    simp only [dictGet] at h
    split at h
    · rename_i r0 e2
      obtain ⟨st, _, h2⟩ := bindOk h
      cases h2
      refine ⟨by rw [e, e2]; rfl, ?_⟩
      simp only [Rack.mk.injEq, and_true]
      funext n
      by_cases hn : n = id
      · subst hn; rw [dictGet_set_self, e, e2]; rfl
      · rw [dictGet_set_ne _ _ hn]
    · rename_i e2
      cases h
      exact ⟨by rw [e, e2]; rfl, rfl⟩

theorem needTool_rack {s s' : PState} (hc : s.comments = []) (h : s.needTool = .ok s') (ha : s'.active ≠ none) :
    s'.rack = s.rack.need := by
  unfold PState.needTool at h
  unfold Rack.need
  split at h
  · rename_i r e
    cases h
    have : s.rack.cur = some r := e
    rw [this]
  · rename_i e
    obtain ⟨⟨r, s1⟩, h1, h2⟩ := bindOk h
    cases h2
    obtain ⟨h3, h4⟩ := getTool_rack hc h1
    have : s.rack.cur = none := e
    rw [this]
    simp only at ha
    rw [h3] at ha
    have e2 : (s.rack.table 1).isNone = false := by
      cases hh : s.rack.table 1 with
      | none => exact absurd hh ha
      | some _ => rfl
    have e3 : s1.rack.table = s.rack.table := by rw [h4]
    simp only [Rack.take, h3, PState.rack, Rack.mk.injEq]
    exact ⟨e3, trivial, by rw [Bool.false_or]; exact e2.symm⟩

theorem need_cur (R : Rack) {r : ℕ} (h : R.cur = some r) : R.need = R := by
  unfold Rack.need; rw [h]

/-- A hit made with the tool that is needed. -/
theorem made_rack {s s1 : PState} (hc : s.comments = []) (h1 : s.needTool = .ok s1) (num : ℕ → Option ℤ) {k : Kind}
    {m : Mach} {f : Feature} (hm : m.makes k = [f]) (ha : s1.active ≠ none) :
    s.rack.step num m k = s1.rack ∧ List.replicate (m.makes k).length s1.active = [s1.active] := by
  rw [needTool_rack hc h1 ha, hm]
  refine ⟨?_, rfl⟩
  unfold Rack.step
  rw [hm, if_neg (by simp)]

theorem Racked.rout {m0 : Mach} {R0 : Rack} {s s' : PState} {line : Str} (h : Racked m0 R0 s) (hs : Sim m0 s)
    (hr : s.rout line = .ok s') : Racked m0 R0 s' := by
  unfold PState.rout at hr
  obtain ⟨st, _, hr⟩ := bindOk hr
  obtain ⟨⟨x, y⟩, _, hr⟩ := bindOk hr
  cases hr
  have h1 : Racked m0 R0 (s.add .routeMode) :=
    h.quiet hs .routeMode (fun _ _ => rfl) rfl (add_kinds _ _) rfl rfl rfl rfl rfl rfl
  have hs1 : Sim m0 (s.add .routeMode) := hs.addIdle ⟨fun _ => rfl, fun _ => rfl⟩
  exact h1.quiet hs1 (.coord x y (some "ROUT")) (fun _ _ => rfl) (by simp [Mach.makes])
    (by simp [PState.kinds, PState.add]) rfl rfl rfl rfl rfl rfl

theorem heap_count (heap : List Tool) (r : ℕ) (n : ℕ) :
    (heap.modify r fun t => { t with hitCount := t.hitCount + n }).map (·.number) = heap.map (·.number) :=
  map_modify_same _ _ (by intro a; rfl) _ _

/-- A statement that makes one hit, counted or not. -/
theorem Racked.make {m0 : Mach} {R0 : Rack} {s s0 s1 s' : PState} (h : Racked m0 R0 s) (hs : Sim m0 s) {k : Kind}
    {x : Hit} {f : Feature} (h1 : s0.needTool = .ok s1) (h2 : s' = s1.addHit x ∨ (s1.addHit x).countHit = .ok s')
    (hm : s.view.makes k = [f]) (hk0 : s0.kinds = s.kinds ++ [k])
    (hc : s0.comments = s.comments) (hh : s0.hits = s.hits) (hn : s0.heap = s.heap) (ht : s0.tools = s.tools)
    (he : s0.ext = s.ext) (ha : s0.active = s.active) (hx : x.tool = s1.active) : Racked m0 R0 s' := by
  have hsame := needTool_same h1
  have key : s'.kinds = s1.kinds ∧ s'.comments = s1.comments ∧ s'.hits = s1.hits ++ [x] ∧
      s'.heap.map (·.number) = s1.heap.map (·.number) ∧ s'.rack = s1.rack := by
    rcases h2 with rfl | h2
    · exact ⟨rfl, rfl, rfl, rfl, rfl⟩
    · obtain ⟨r, _, rfl⟩ := countHit_ok h2
      exact ⟨rfl, rfl, rfl, heap_count _ _ 1, rfl⟩
  obtain ⟨k1, k2, k3, k4, k5⟩ := key
  have e1 : s1.kinds = s.kinds ++ [k] := by rw [← hk0]; unfold PState.kinds; rw [hsame.statements]
  have e2 : s'.hits.map (·.tool) = s.hits.map (·.tool) ++ [s1.active] := by
    rw [k3, hsame.hits, hh, List.map_append, List.map_singleton, hx]
  have e3 : s0.rack = s.rack := by unfold PState.rack; rw [ht, he, ha]
  refine h.push hs k (by rw [k1, e1]) (by rw [k2, hsame.comments, hc]) ⟨_, e2⟩ ?_ ?_
  · intro num hnum
    rw [← hn]
    exact Numbers.of_same (by rw [k4, hsame.numbers]) hnum
  · cases e : s1.active with
    | none =>
      left
      exact .inl ⟨x, by rw [k3]; simp, by rw [hx, e]⟩
    | some r =>
      right
      intro num _
      obtain ⟨g1, g2⟩ := made_rack (by rw [hc, h.comments]) h1 num hm (by rw [e]; simp)
      have e4 : s'.active = s1.active := congrArg Rack.cur k5
      rw [k5, ← g1, e3, e4, g2, e2]
      exact ⟨rfl, rfl⟩

theorem Racked.linear {m0 : Mach} {R0 : Rack} {s s' : PState} {line : Str} (h : Racked m0 R0 s) (hs : Sim m0 s)
    (hr : s.linear line = .ok s') : Racked m0 R0 s' := by
  unfold PState.linear at hr
  obtain ⟨st, _, hr⟩ := bindOk hr
  obtain ⟨⟨x, y⟩, _, hr⟩ := bindOk hr
  have h1 : Racked m0 R0 (s.add .routeMode) :=
    h.quiet hs .routeMode (fun _ _ => rfl) rfl (add_kinds _ _) rfl rfl rfl rfl rfl rfl
  have hs1 : Sim m0 (s.add .routeMode) := hs.addIdle ⟨fun _ => rfl, fun _ => rfl⟩
  simp only at hr
  split at hr
  · rename_i hd
    obtain ⟨s1, h2, h3⟩ := bindOk hr
    have hd'' : (s.add .routeMode).view.down = true := hd
    have hmk : (s.add .routeMode).view.makes (.coord x y (some "LINEAR")) =
        [.slot (both s.pos) (both (s.view.goto x y).pos)] := by
      simp only [Mach.makes]
      rw [if_pos ⟨by decide, hd''⟩]; rfl
    exact h1.make hs1 h2 (.inr h3) hmk (by simp [PState.kinds, PState.add]) rfl rfl rfl rfl rfl rfl rfl
  · rename_i hd
    cases hr
    refine h1.quiet hs1 (.coord x y (some "LINEAR")) (fun _ _ => rfl) ?_ (by simp [PState.kinds, PState.add])
      rfl rfl rfl rfl rfl rfl
    simp only [Mach.makes]
    rw [if_neg (fun c => hd c.2)]

theorem Racked.coordLine {m0 : Mach} {R0 : Rack} {s s' : PState} {line : Str} (h : Racked m0 R0 s) (hs : Sim m0 s)
    (hr : s.coordLine line = .ok s') : Racked m0 R0 s' := by
  unfold PState.coordLine at hr
  obtain ⟨st, _, hr⟩ := bindOk hr
  obtain ⟨⟨x, y⟩, _, hr⟩ := bindOk hr
  simp only at hr
  split at hr
  · rename_i hl
    obtain ⟨s1, h2, h3⟩ := bindOk hr
    cases h3
    have h1 : s.view.phase = .linear ∧ s.view.down = true := ⟨(phaseOf_linear _).2 hl.1, hl.2⟩
    refine h.make hs (k := .coord x y none) (f := .slot (both s.pos) (both (s.view.goto x y).pos)) h2 (.inl rfl) ?_
      (by simp [PState.kinds, PState.add]) rfl rfl rfl rfl rfl rfl rfl
    simp only [Mach.makes]
    rw [if_pos h1]; rfl
  · rename_i hl
    have h1 : ¬ (s.view.phase = .linear ∧ s.view.down = true) := by
      rintro ⟨a, b⟩
      exact hl ⟨(phaseOf_linear _).1 a, b⟩
    split at hr
    · rename_i hd
      obtain ⟨s1, h2, h3⟩ := bindOk hr
      have h4 : s.view.phase.drills = true := (phaseOf_drills _).2 hd
      refine h.make hs (k := .coord x y none) (f := .hole (s.view.goto x y).pos) h2 (.inr h3) ?_
        (by simp [PState.kinds, PState.add]) rfl rfl rfl rfl rfl rfl rfl
      simp only [Mach.makes]
      rw [if_neg h1, if_pos h4]
    · rename_i hd
      cases hr
      refine h.quiet hs (.coord x y none) (fun _ _ => rfl) ?_ (by simp [PState.kinds, PState.add])
        rfl rfl rfl rfl rfl rfl
      have h2 : ¬ s.view.phase.drills = true := fun a => hd ((phaseOf_drills _).1 a)
      simp only [Mach.makes]
      rw [if_neg h1, if_neg h2]

theorem Racked.slotLine {m0 : Mach} {R0 : Rack} {s s' : PState} {line : Str} (h : Racked m0 R0 s) (hs : Sim m0 s)
    (hr : s.slotLine line = .ok s') : Racked m0 R0 s' := by
  unfold PState.slotLine at hr
  obtain ⟨st, _, hr⟩ := bindOk hr
  obtain ⟨k, _, hr⟩ := bindOk hr
  split at hr
  · rename_i x1 y1 x2 y2 _
    simp only at hr
    split at hr
    · rename_i hd
      obtain ⟨s1, h2, h3⟩ := bindOk hr
      have h4 : s.view.phase.drills = true := (phaseOf_drills _).2 hd
      refine h.make hs (k := .slot x1 y1 x2 y2) (f := .slot (x1, y1) (x2, y2)) h2 (.inr h3) ?_
        (by simp [PState.kinds, PState.add]) rfl rfl rfl rfl rfl rfl rfl
      simp only [Mach.makes]
      rw [if_pos h4]
    · rename_i hd
      cases hr
      refine h.quiet hs (.slot x1 y1 x2 y2) (fun _ _ => rfl) ?_ (by simp [PState.kinds, PState.add])
        rfl rfl rfl rfl rfl rfl
      have h2 : ¬ s.view.phase.drills = true := fun a => hd ((phaseOf_drills _).1 a)
      simp only [Mach.makes]
      rw [if_neg h2]
  · cases hr; exact h

theorem Racked.repeatLine {m0 : Mach} {R0 : Rack} {s s' : PState} {line : Str} (h : Racked m0 R0 s) (hs : Sim m0 s)
    (hr : s.repeatLine line = .ok s') : Racked m0 R0 s' := by
  unfold PState.repeatLine at hr
  obtain ⟨st, _, hr⟩ := bindOk hr
  obtain ⟨k, _, hr⟩ := bindOk hr
  split at hr
  · rename_i n dx dy _
    cases ha : s.active with
    | some r =>
      rw [repeatHole_spec n.toNat (s.add (.rep n dx dy)) (r := r) ha] at hr
      cases hr
      have e : ((s.hits ++ (row s.pos (dx.getD 0) (dy.getD 0) n.toNat).map (Hit.hole (some r))).map (·.tool)) =
          s.hits.map (·.tool) ++ List.replicate (s.view.makes (.rep n dx dy)).length (some r) := by
        simp only [List.map_append, List.map_map, Mach.makes, List.length_map]
        congr 1
        rw [List.eq_replicate_iff]
        refine ⟨by simp [PState.view], ?_⟩
        intro b hb
        obtain ⟨p, -, rfl⟩ := List.mem_map.mp hb
        rfl
      refine h.push hs (.rep n dx dy) (add_kinds _ _) rfl ⟨_, e⟩ ?_ (.inr ?_)
      · intro num hnum
        exact Numbers.of_same (heap_count _ _ _) hnum
      · intro num _
        refine ⟨?_, ?_⟩
        · unfold Rack.step
          have : s.rack.need = s.rack := need_cur _ ha
          rw [this]
          split <;> rfl
        · show _ = _ ++ List.replicate _ s.active
          rw [ha]
          exact e
    | none =>
      cases hn : n.toNat with
      | zero =>
        rw [hn] at hr
        cases hr
        exact h.quiet hs (.rep n dx dy) (fun _ _ => rfl) (by simp [Mach.makes, hn, row]) (add_kinds _ _)
          rfl rfl rfl rfl rfl rfl
      | succ m =>
        rw [hn, repeatHole_none m (s.add (.rep n dx dy)) ha] at hr
        cases hr
  · cases hr; exact h

theorem Racked.nextTool {m0 : Mach} {R0 : Rack} {s s' : PState} (h : Racked m0 R0 s) (hs : Sim m0 s)
    (hr : s.nextTool = .ok s') : Racked m0 R0 s' := by
  unfold PState.nextTool at hr
  split at hr
  · cases hr
  · rename_i r ha
    obtain ⟨t, ht, hr⟩ := bindOk hr
    obtain ⟨⟨n, s1⟩, h1, hr⟩ := bindOk hr
    cases hr
    have hsame := (getTool_same h1).1
    obtain ⟨g1, g2⟩ := getTool_rack h.comments h1
    refine h.push hs (.nextTool (some r) n) ?_ (by simp [PState.add, hsame.comments]) ⟨[], ?_⟩ ?_ ?_
    · simp [PState.kinds, PState.add, hsame.statements]
    · simp [PState.add, hsame.hits]
    · intro num hnum
      exact Numbers.of_same hsame.numbers hnum
    · cases hn : n with
      | none =>
        left
        exact .inr ⟨some r, by simp [PState.kinds, PState.add]⟩
      | some n' =>
        right
        intro num hnum
        have hnum' : Numbers num s.heap := Numbers.of_same hsame.numbers hnum
        have ht' : s.heap[r]? = some t := by
          unfold pyIdx at ht
          split at ht
          · cases ht; assumption
          · cases ht
        refine ⟨?_, by simp [PState.add, hsame.hits, Mach.makes]⟩
        have hb : s.rack.cur.bind num = some t.number := by
          show s.active.bind num = _
          rw [ha]
          exact hnum' r t ht'
        have hmk : s.view.makes (.nextTool (some r) (some n')) = [] := rfl
        simp only [Rack.step, hmk, if_true, Rack.next, hb]
        rw [hn] at g1
        have e3 : s1.rack.table = s.rack.table := by rw [g2]
        simp only [Rack.take, ← g1]
        simp only [PState.rack, PState.add] at e3 ⊢
        rw [e3]
        rfl

theorem Racked.defineTool {m0 : Mach} {R0 : Rack} {s s' : PState} {line : Str} (h : Racked m0 R0 s) (hs : Sim m0 s)
    (hr : s.defineTool line = .ok s') : Racked m0 R0 s' := by
  unfold PState.defineTool at hr
  split at hr
  · obtain ⟨st, _, hr⟩ := bindOk hr
    obtain ⟨t, _, hr⟩ := bindOk hr
    cases hr
    refine h.push hs (.tool s.heap.length) (add_kinds _ _) rfl ⟨[], by simp [PState.add]⟩ ?_ (.inr ?_)
    · intro num hnum
      exact Numbers.of_append hnum
    · intro num hnum
      refine ⟨?_, by simp [PState.add, Mach.makes]⟩
      have hnm : num s.heap.length = some (s.mergeProperties t).number := hnum _ _ (by simp [PState.add])
      have hmk : s.view.makes (.tool s.heap.length) = [] := rfl
      simp only [Rack.step, hmk, if_true, Rack.next, hnm, Rack.define, PState.rack, PState.add, Rack.mk.injEq,
        and_true]
      funext n
      by_cases hn : n = (s.mergeProperties t).number
      · subst hn; rw [if_pos rfl, dictGet_set_self]; rfl
      · rw [if_neg hn, dictGet_set_ne _ _ hn]
  · cases hr
    exact h.quiet hs (.unknown line) (fun _ _ => rfl) rfl (add_kinds _ _) rfl rfl rfl rfl rfl rfl

/-- Where a tool is inserted. -/
theorem insertTool_split (x : Stmt) (l : List Stmt) (y : Stmt) (hy : isToolStmt y = true) :
    ∃ l1 l2, l = l1 ++ l2 ∧ insertTool x (l ++ [y]) = l1 ++ x :: l2 ++ [y] := by
  induction l with
  | nil => exact ⟨[], [], rfl, by simp [insertTool, hy]⟩
  | cons a l ih =>
    by_cases ha : isToolStmt a = true
    · exact ⟨[], a :: l, rfl, by simp [insertTool, ha]⟩
    · obtain ⟨l1, l2, rfl, e⟩ := ih
      refine ⟨a :: l1, l2, rfl, ?_⟩
      simp only [List.cons_append, insertTool, ha, if_false, Bool.false_eq_true]
      rw [← List.cons_append, e]
      rfl

theorem Racked.selectTool {m0 : Mach} {R0 : Rack} {s s' : PState} {line : Str} (h : Racked m0 R0 s) (hs : Sim m0 s)
    (hr : s.selectTool line = .ok s') : Racked m0 R0 s' := by
  unfold PState.selectTool at hr
  obtain ⟨k, _, hr⟩ := bindOk hr
  split at hr
  · rename_i n c _
    simp only at hr
    split at hr
    · rename_i hz
      cases hr
      exact h.quiet hs (.toolSel n c) (fun _ _ => by simp [Rack.next, hz]) rfl (add_kinds _ _) rfl rfl rfl rfl rfl rfl
    · rename_i hz
      obtain ⟨⟨r, s1⟩, h2, hr⟩ := bindOk hr
      obtain ⟨hsame, hact⟩ := getTool_same h2
      obtain ⟨g1, g2⟩ := getTool_rack (s := s.add (.toolSel n c)) h.comments h2
      have g3 : (s.add (.toolSel n c)).rack = s.rack := rfl
      rw [g3] at g1 g2
      have hst : s1.statements = s.statements ++ [⟨"inch", .toolSel n c⟩] := hsame.statements
      simp only at hr
      split at hr
      · rename_i r' 
        cases hr
        refine h.push hs (.toolSel n c) (by simp [PState.kinds, hst]) hsame.comments ⟨[], ?_⟩ ?_ (.inr ?_)
        · rw [List.append_nil]; exact congrArg _ hsame.hits
        · intro num hnum
          exact Numbers.of_same (hsame.numbers) hnum
        · intro num hnum
          refine ⟨?_, by simpa [Mach.makes, PState.add] using congrArg (List.map (·.tool)) hsame.hits⟩
          have hmk : s.view.makes (.toolSel n c) = [] := rfl
          have e3 : s1.rack.table = s.rack.table := by rw [g2]
          simp only [Rack.step, hmk, if_true, Rack.next, hz, if_false, Rack.take, ← g1]
          simp only [PState.rack] at e3 ⊢
          rw [e3]
          rfl
      · obtain ⟨st, _, hr⟩ := bindOk hr
        cases hr
        obtain ⟨l1, l2, e1, e2⟩ := insertTool_split ⟨"inch", .tool s1.heap.length⟩ s.statements
          ⟨"inch", .toolSel n c⟩ rfl
        have hk : (insertTool ⟨"inch", .tool s1.heap.length⟩ s1.statements).map (·.kind) =
            l1.map (·.kind) ++ .tool s1.heap.length :: l2.map (·.kind) ++ [.toolSel n c] := by
          rw [hst, e2]; simp
        have hk0 : s.kinds = l1.map (·.kind) ++ l2.map (·.kind) := by
          unfold PState.kinds; rw [e1]; simp
        have hhits : s1.hits = s.hits := hsame.hits
        refine ⟨by rw [show s1.comments = s.comments from hsame.comments, h.comments], ?_⟩
        rcases h.agree with hl | ha
        · left
          refine hl.mono ?_ ⟨[], by rw [List.append_nil, hhits]⟩
          intro x hx
          show x ∈ (insertTool _ _).map _
          rw [hk]
          rw [hk0] at hx
          simp only [List.mem_append, List.mem_cons] at hx ⊢
          tauto
        · right
          intro num hnum
          have hnum' : Numbers num s.heap := Numbers.of_same hsame.numbers (Numbers.of_append hnum)
          have hnm : num s1.heap.length = some n := hnum s1.heap.length
            { settings := some st, number := n, diameter := some (defaultDiameter st.units n) } (by simp)
          obtain ⟨a1, a2⟩ := ha num hnum'
          rw [hk0, rackAfter_append] at a1
          rw [hk0, rackUsed_append] at a2
          have hmiss : (Rack.after num (m0.after (l1.map (·.kind))) (Rack.after num m0 R0 (l1.map (·.kind)))
              (l2.map (·.kind))).missing = false := by rw [a1]; rfl
          have htab : (Rack.after num (m0.after (l1.map (·.kind))) (Rack.after num m0 R0 (l1.map (·.kind)))
              (l2.map (·.kind))).table n = none := by rw [a1, ← g1]
          obtain ⟨b1, b2⟩ := after_define num (r := s1.heap.length) (l2.map (·.kind)) _ _ hmiss htab
          have c1 : ∀ (m : Mach) (R : Rack), R.step num m (.tool s1.heap.length) = R.define n s1.heap.length := by
            intro m R
            have : m.makes (.tool s1.heap.length) = [] := rfl
            simp only [Rack.step, this, if_true, Rack.next, hnm]
          have c2 : ∀ (m : Mach), m.makes (.tool s1.heap.length) = [] := fun _ => rfl
          have c3 : ∀ (m : Mach), m.makes (.toolSel n c) = [] := fun _ => rfl
          have c4 : ∀ (m : Mach), m.next (.tool s1.heap.length) = m := fun _ => rfl
          have f1 : Rack.after num m0 R0 (l1.map (·.kind) ++ .tool s1.heap.length :: l2.map (·.kind)) =
              s.rack.define n s1.heap.length := by
            rw [rackAfter_append, Rack.after, c1, c4, b1, a1]
          have f2 : Rack.used num m0 R0 (l1.map (·.kind) ++ .tool s1.heap.length :: l2.map (·.kind)) =
              s.hits.map (·.tool) := by
            rw [rackUsed_append, Rack.used, c1, c2, c4, b2, ← a2]
            rfl
          show Rack.after num m0 R0 ((insertTool _ _).map _) = _ ∧ Rack.used num m0 R0 ((insertTool _ _).map _) = _
          rw [hk, rackAfter_append, rackUsed_append, f1, f2, hhits]
          constructor
          · simp only [Rack.after, Rack.step, c3, if_true, Rack.next, hz, if_false, Rack.take, Rack.define, PState.rack,
              Rack.mk.injEq]
            have e3 : s1.rack.table = s.rack.table := by rw [g2]
            simp only [PState.rack] at e3
            refine ⟨?_, trivial, rfl⟩
            funext x
            by_cases hx : x = n
            · subst hx; rw [if_pos rfl, dictGet_set_self]; rfl
            · rw [if_neg hx, dictGet_set_ne _ _ hx]
              exact (congrFun e3 x).symm
          · simp only [Rack.used, c3, List.length_nil, List.replicate_zero, List.append_nil]
  · cases hr; exact h

theorem Racked.commentLine {m0 : Mach} {R0 : Rack} {s s' : PState} {line : Str} (h : Racked m0 R0 s) (hs : Sim m0 s)
    (hr : s.commentLine line = .ok s') : Racked m0 R0 s' := by
  obtain ⟨t, f, p, rfl⟩ := commentLine_ok hr
  exact h.quiet hs (.comment t) (fun _ _ => rfl) rfl (add_kinds _ _) rfl rfl rfl rfl rfl rfl

theorem Racked.dispatchTools {m0 : Mach} {R0 : Rack} {s s' : PState} {line : Str} (h : Racked m0 R0 s) (hs : Sim m0 s)
    (hr : s.dispatchTools line = .ok s') : Racked m0 R0 s' := by
  unfold PState.dispatchTools at hr
  simp only at hr
  split_ifs at hr
  · exact h.defineTool hs hr
  · exact h.selectTool hs hr
  · exact h.repeatLine hs hr
  · exact h.slotLine hs hr
  · exact h.coordLine hs hr
  · cases hr
    exact h.quiet hs (.unknown line) (fun _ _ => rfl) rfl (add_kinds _ _) rfl rfl rfl rfl rfl rfl

theorem Racked.dispatchSettings {m0 : Mach} {R0 : Rack} {s s' : PState} {line : Str} (h : Racked m0 R0 s)
    (hs : Sim m0 s) (hr : s.dispatchSettings line = .ok s') : Racked m0 R0 s' := by
  unfold PState.dispatchSettings at hr
  simp only at hr
  split_ifs at hr
  · cases hr
    unfold PState.unitLine
    split
    · rename_i z f _
      exact h.quiet hs (.unit z f) (fun _ _ => rfl) rfl (by simp [PState.kinds]) rfl rfl rfl rfl rfl rfl
    · exact h
  · obtain ⟨m, hm, hr⟩ := bindOk hr
    cases hr
    unfold measuringFrom at hm
    split at hm
    · cases hm
    · cases hm
      exact h.quiet hs .measuring (fun _ _ => rfl) rfl (by simp [PState.kinds]) rfl rfl rfl rfl rfl rfl
  · simp only [incrFrom] at hr
    cases hr
    exact h.quiet hs (.incr _) (fun _ _ => rfl) rfl (add_kinds _ _) rfl rfl rfl rfl rfl rfl
  · obtain ⟨k, hk, hr⟩ := bindOk hr
    cases hr
    obtain ⟨v, _, rfl⟩ := mapOk hk
    exact h.quiet hs _ (fun _ _ => rfl) rfl (add_kinds _ _) rfl rfl rfl rfl rfl rfl
  · obtain ⟨k, hk, hr⟩ := bindOk hr
    cases hr
    exact h.quiet hs (.format _) (fun _ _ => rfl) rfl (add_kinds _ _) rfl rfl rfl rfl rfl rfl
  · cases hr; exact h.quiet hs .cutterOff (fun _ _ => rfl) rfl (add_kinds _ _) rfl rfl rfl rfl rfl rfl
  · cases hr; exact h.quiet hs .cutterLeft (fun _ _ => rfl) rfl (add_kinds _ _) rfl rfl rfl rfl rfl rfl
  · cases hr; exact h.quiet hs .cutterRight (fun _ _ => rfl) rfl (add_kinds _ _) rfl rfl rfl rfl rfl rfl
  · cases hr; exact h.quiet hs .absMode (fun _ _ => rfl) rfl (add_kinds _ _) rfl rfl rfl rfl rfl rfl
  · obtain ⟨k, hk, hr⟩ := bindOk hr
    cases hr
    obtain ⟨v, _, rfl⟩ := mapOk hk
    exact h.quiet hs _ (fun _ _ => rfl) rfl (add_kinds _ _) rfl rfl rfl rfl rfl rfl
  · exact h.dispatchTools hs hr

theorem Racked.dispatch {m0 : Mach} {R0 : Rack} {s s' : PState} {line : Str} (h : Racked m0 R0 s) (hs : Sim m0 s)
    (hr : s.dispatch line = .ok s') : Racked m0 R0 s' := by
  unfold PState.dispatch at hr
  rcases iteOk hr with ⟨_, hr⟩ | ⟨_, hr⟩
  · exact h.commentLine hs hr
  rcases iteOk hr with ⟨_, hr⟩ | ⟨_, hr⟩
  · cases hr; exact h.quiet hs .headerBegin (fun _ _ => rfl) rfl (add_kinds _ _) rfl rfl rfl rfl rfl rfl
  rcases iteOk hr with ⟨_, hr⟩ | ⟨_, hr⟩
  · cases hr; exact h.quiet hs .rewindStop (fun _ _ => rfl) rfl (add_kinds _ _) rfl rfl rfl rfl rfl rfl
  rcases iteOk hr with ⟨_, hr⟩ | ⟨_, hr⟩
  · exact h.nextTool hs hr
  rcases iteOk hr with ⟨_, hr⟩ | ⟨_, hr⟩
  · cases hr; exact h.quiet hs .headerEnd (fun _ _ => rfl) rfl (add_kinds _ _) rfl rfl rfl rfl rfl rfl
  rcases iteOk hr with ⟨_, hr⟩ | ⟨_, hr⟩
  · cases hr; exact h.quiet hs .zRout (fun _ _ => rfl) rfl (add_kinds _ _) rfl rfl rfl rfl rfl rfl
  rcases iteOk hr with ⟨_, hr⟩ | ⟨_, hr⟩
  · cases hr; exact h.quiet hs .retractClamp (fun _ _ => rfl) rfl (add_kinds _ _) rfl rfl rfl rfl rfl rfl
  rcases iteOk hr with ⟨_, hr⟩ | ⟨_, hr⟩
  · cases hr; exact h.quiet hs .retractNoClamp (fun _ _ => rfl) rfl (add_kinds _ _) rfl rfl rfl rfl rfl rfl
  rcases iteOk hr with ⟨_, hr⟩ | ⟨_, hr⟩
  · obtain ⟨st, _, hr⟩ := bindOk hr
    obtain ⟨k, hk, hr⟩ := bindOk hr
    cases hr
    unfold endFrom at hk
    split at hk
    · cases hk
    · obtain ⟨x, _, hk⟩ := bindOk hk
      obtain ⟨y, _, hk⟩ := bindOk hk
      cases hk
      exact h.quiet hs _ (fun _ _ => rfl) rfl (add_kinds _ _) rfl rfl rfl rfl rfl rfl
  rcases iteOk hr with ⟨_, hr⟩ | ⟨_, hr⟩
  · rcases iteOk hr with ⟨_, hr⟩ | ⟨_, hr⟩
    · cases hr; exact h.keep rfl rfl rfl rfl rfl rfl rfl
    · exact h.rout hs hr
  rcases iteOk hr with ⟨_, hr⟩ | ⟨_, hr⟩
  · rcases iteOk hr with ⟨_, hr⟩ | ⟨_, hr⟩
    · cases hr; exact h.keep rfl rfl rfl rfl rfl rfl rfl
    · exact h.linear hs hr
  rcases iteOk hr with ⟨_, hr⟩ | ⟨_, hr⟩
  · cases hr; exact h.quiet hs .drillMode (fun _ _ => rfl) rfl (add_kinds _ _) rfl rfl rfl rfl rfl rfl
  exact h.dispatchSettings hs hr

theorem Racked.parseLine {m0 : Mach} {R0 : Rack} {s s' : PState} {line : Str} (h : Racked m0 R0 s) (hs : Sim m0 s)
    (hr : s.parseLine line = .ok s') : Racked m0 R0 s' := by
  unfold PState.parseLine at hr
  simp only at hr
  have h1 : Racked m0 R0 { s with prev := [] } := h.keep rfl rfl rfl rfl rfl rfl rfl
  have hs1 : Sim m0 { s with prev := [] } := hs.keep rfl rfl rfl
  split at hr
  · cases hr; exact h1
  · exact h1.dispatch hs1 hr

end Verif.Excellon
