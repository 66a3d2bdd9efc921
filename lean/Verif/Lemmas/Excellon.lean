import Verif.Spec.Excellon

/-! # Lemmas about the drill file parser -/

namespace Verif.Excellon
open Verif.Py Verif.Cam Verif.Utils

/-- A successful bind. -/
theorem bindOk {α β : Type} {x : PyR α} {f : α → PyR β} {b : β} (h : (x >>= f) = .ok b) :
    ∃ a, x = .ok a ∧ f a = .ok b := by
  cases x with
  | error e => cases h
  | ok a => exact ⟨a, rfl, h⟩

/-- The two ways through a conditional. -/
theorem iteOk {α : Type} {p : Prop} [Decidable p] {a b x : α} (h : (if p then a else b) = x) :
    (p ∧ a = x) ∨ (¬ p ∧ b = x) := by
  by_cases hp : p
  · exact .inl ⟨hp, by rwa [if_pos hp] at h⟩
  · exact .inr ⟨hp, by rwa [if_neg hp] at h⟩

theorem mapOk {α β : Type} {x : PyR α} {f : α → β} {b : β} (h : x.map f = .ok b) :
    ∃ a, x = .ok a ∧ f a = b := by
  cases x with
  | error e => cases h
  | ok a => exact ⟨a, rfl, by simpa [Except.map] using h⟩

/-- What `_get_tool` leaves alone. -/
structure Same (s s' : PState) : Prop where
  notation_ : s'.notation_ = s.notation_
  units : s'.units = s.units
  zeros : s'.zeros = s.zeros
  format : s'.format = s.format
  state : s'.state = s.state
  statements : s'.statements = s.statements
  ext : s'.ext = s.ext
  comments : s'.comments = s.comments
  hits : s'.hits = s.hits
  pos : s'.pos = s.pos
  down : s'.down = s.down
  prev : s'.prev = s.prev
  plated : s'.plated = s.plated
  counts : s'.heap.map (·.hitCount) = s.heap.map (·.hitCount)
  numbers : s'.heap.map (·.number) = s.heap.map (·.number)

theorem Same.refl (s : PState) : Same s s := by constructor <;> rfl

theorem map_modify_same {α β : Type} (g : α → β) (f : α → α) (h : ∀ a, g (f a) = g a) (l : List α)
    (i : ℕ) : (l.modify i f).map g = l.map g := by
  induction l generalizing i with
  | nil => cases i <;> rfl
  | cons a l ih =>
    cases i with
    | zero => simp [List.modify, List.modifyHead, h]
    | succ i => simp [List.modify_succ_cons, ih]

theorem setToolSettings_counts (l : List Tool) (r : ℕ) (st : FileSettings) :
    (setToolSettings l r st).map (·.hitCount) = l.map (·.hitCount) :=
  map_modify_same _ _ (by intro a; rfl) _ _

theorem setToolSettings_numbers (l : List Tool) (r : ℕ) (st : FileSettings) :
    (setToolSettings l r st).map (·.number) = l.map (·.number) :=
  map_modify_same _ _ (by intro a; rfl) _ _

theorem getTool_same {s s' : PState} {id : ℤ} {r : Option ℕ} (h : s.getTool id = .ok (r, s')) :
    Same s s' ∧ s'.active = s.active := by
  unfold PState.getTool at h
  split at h
  · cases h; exact ⟨Same.refl _, rfl⟩
  · split at h
    · obtain ⟨st, _, h2⟩ := bindOk h
      cases h2
      exact ⟨by constructor <;> first | rfl | exact setToolSettings_counts _ _ _ | exact setToolSettings_numbers _ _ _, rfl⟩
    · split at h
      · obtain ⟨st, _, h2⟩ := bindOk h
        cases h2
        exact ⟨by constructor <;> first | rfl | exact setToolSettings_counts _ _ _ | exact setToolSettings_numbers _ _ _, rfl⟩
      · cases h; exact ⟨Same.refl _, rfl⟩

theorem needTool_same {s s' : PState} (h : s.needTool = .ok s') : Same s s' := by
  unfold PState.needTool at h
  split at h
  · cases h; exact Same.refl _
  · obtain ⟨⟨r, s1⟩, h1, h2⟩ := bindOk h
    cases h2
    have := (getTool_same h1).1
    exact ⟨this.1, this.2, this.3, this.4, this.5, this.6, this.7, this.8, this.9, this.10, this.11,
      this.12, this.13, this.14, this.15⟩

theorem countHit_ok {s s' : PState} (h : s.countHit = .ok s') :
    ∃ r, s.active = some r ∧
      s' = { s with heap := s.heap.modify r fun t => { t with hitCount := t.hitCount + 1 } } := by
  unfold PState.countHit at h
  split at h
  · cases h
  · rename_i r hr; cases h; exact ⟨r, hr, rfl⟩

/-! ## The parser simulates the machine -/

open Spec

/-- The kinds of the statements read so far. -/
def PState.kinds (s : PState) : List Kind := s.statements.map (·.kind)

/-- Phase for a state name. -/
def phaseOf (s : String) : Phase :=
  if s = "INIT" then .init else if s = "HEADER" then .header else if s = "DRILL" then .drill
  else if s = "LINEAR" then .linear else .rout

/-- The machine a parser state stands for. -/
def PState.view (s : PState) : Mach := ⟨decide (s.notation_ ≠ "absolute"), s.pos, phaseOf s.state, s.down⟩

/-- A hit without its tool. -/
def Hit.feature : Hit → Feature
  | .hole _ p => .hole p
  | .slot _ a b _ => .slot a b

/-- The statements read so far explain position, mode and hits. -/
structure Sim (m0 : Mach) (s : PState) : Prop where
  view : m0.after s.kinds = s.view
  all : m0.all s.kinds = s.hits.map Hit.feature

theorem after_append (m : Mach) (l l' : List Kind) : m.after (l ++ l') = (m.after l).after l' :=
  List.foldl_append

theorem all_append (m : Mach) (l l' : List Kind) :
    m.all (l ++ l') = m.all l ++ (m.after l).all l' := by
  induction l generalizing m with
  | nil => rfl
  | cons k l ih => simp only [List.cons_append, Mach.all, ih, List.append_assoc]; rfl

/-- One more statement. -/
theorem Sim.push {m0 : Mach} {s s' : PState} (h : Sim m0 s) (k : Kind)
    (hk : s'.kinds = s.kinds ++ [k]) (hv : s'.view = s.view.next k)
    (hh : s'.hits.map Hit.feature = s.hits.map Hit.feature ++ s.view.makes k) : Sim m0 s' := by
  constructor
  · rw [hk, after_append, h.view, hv]; rfl
  · rw [hk, all_append, h.view, h.all, hh]; simp [Mach.all]

/-- Nothing that matters changes. -/
theorem Sim.keep {m0 : Mach} {s s' : PState} (h : Sim m0 s) (hk : s'.kinds = s.kinds)
    (hv : s'.view = s.view) (hh : s'.hits = s.hits) : Sim m0 s' := by
  constructor
  · rw [hk, hv, h.view]
  · rw [hk, hh, h.all]

theorem Same.view {s s' : PState} (h : Same s s') : s'.view = s.view := by
  unfold PState.view; rw [h.notation_, h.pos, h.state, h.down]

theorem Same.keep {m0 : Mach} {s s' : PState} (h : Same s s') (hs : Sim m0 s) : Sim m0 s' := by
  refine hs.keep ?_ ?_ h.hits
  · unfold PState.kinds; rw [h.statements]
  · unfold PState.view; rw [h.notation_, h.pos, h.state, h.down]

/-- A statement that neither moves nor makes anything. -/
def Idle (k : Kind) : Prop := (∀ m : Mach, m.next k = m) ∧ ∀ m : Mach, m.makes k = []

theorem Sim.idle {m0 : Mach} {s s' : PState} (h : Sim m0 s) {k : Kind} (hi : Idle k)
    (hk : s'.kinds = s.kinds ++ [k]) (hv : s'.view = s.view) (hh : s'.hits = s.hits) : Sim m0 s' :=
  h.push k hk (by rw [hi.1, hv]) (by rw [hi.2, hh, List.append_nil])

theorem add_kinds (s : PState) (k : Kind) : (s.add k).kinds = s.kinds ++ [k] := by
  simp [PState.kinds, PState.add]

theorem Sim.addIdle {m0 : Mach} {s : PState} (h : Sim m0 s) {k : Kind} (hi : Idle k) :
    Sim m0 (s.add k) :=
  h.idle hi (add_kinds s k) rfl rfl

theorem insertTool_sim (x : Stmt) (hx : Idle x.kind) (l : List Stmt) (m : Mach) :
    m.after ((insertTool x l).map (·.kind)) = m.after (l.map (·.kind)) ∧
    m.all ((insertTool x l).map (·.kind)) = m.all (l.map (·.kind)) := by
  induction l generalizing m with
  | nil => exact ⟨rfl, rfl⟩
  | cons s l ih =>
    unfold insertTool
    split
    · simp only [List.map_cons, Mach.after, List.foldl_cons, Mach.all, hx.1, hx.2, List.nil_append,
        and_self]
    · simp only [List.map_cons, Mach.after, List.foldl_cons, Mach.all]
      have := ih (m.next s.kind)
      exact ⟨this.1, by rw [this.2]⟩

theorem move_axis (s : PState) (x y : Option ℚ) :
    (move s.notation_ s.pos x y) = (s.view.goto x y).pos := by
  unfold move Mach.goto PState.view axis
  by_cases h : s.notation_ = "absolute"
  · cases x <;> cases y <;> simp [h]
  · cases x <;> cases y <;> simp [h]

/-- The state after a coordinate statement. -/
theorem moved_view (s : PState) (k : Kind) (x y : Option ℚ) :
    ({ s.add k with pos := move s.notation_ s.pos x y } : PState).view = s.view.goto x y := by
  have := move_axis s x y
  unfold PState.view Mach.goto at *
  simp only [PState.add] at *
  rw [this]
  rfl

theorem phaseOf_linear (x : String) : phaseOf x = .linear ↔ x = "LINEAR" := by
  unfold phaseOf
  constructor
  · intro h; split_ifs at h; assumption
  · rintro rfl; rfl

theorem phaseOf_drills (x : String) : (phaseOf x).drills = true ↔ (x = "DRILL" ∨ x = "HEADER") := by
  unfold phaseOf
  constructor
  · intro h
    split_ifs at h <;> first | (exact Bool.noConfusion h) | tauto
  · rintro (rfl | rfl) <;> rfl

theorem Sim.rout {m0 : Mach} {s s' : PState} {line : Str} (h : Sim m0 s) (hr : s.rout line = .ok s') :
    Sim m0 s' := by
  unfold PState.rout at hr
  obtain ⟨st, _, hr⟩ := bindOk hr
  obtain ⟨⟨x, y⟩, _, hr⟩ := bindOk hr
  cases hr
  have h1 : Sim m0 (s.add .routeMode) := h.addIdle ⟨fun _ => rfl, fun _ => rfl⟩
  refine h1.push (.coord x y (some "ROUT")) (by simp [PState.kinds, PState.add]) ?_ ?_
  · exact moved_view { s.add .routeMode with state := "ROUT" } _ x y
  · simp [Mach.makes, PState.add]

/-- After `_get_tool(1)` a hit is recorded and counted. -/
theorem made {s s1 s' : PState} {h : PState → Hit} (h1 : s.needTool = .ok s1)
    (h2 : (s1.addHit (h s1)).countHit = .ok s') :
    s'.kinds = s.kinds ∧ s'.view = s.view ∧ s'.hits = s.hits ++ [h s1] := by
  have hs := needTool_same h1
  obtain ⟨r, _, rfl⟩ := countHit_ok h2
  refine ⟨?_, ?_, ?_⟩
  · simp [PState.kinds, PState.addHit, hs.statements]
  · simp [PState.view, PState.addHit, hs.notation_, hs.pos, hs.state, hs.down]
  · simp [PState.addHit, hs.hits]

theorem Sim.linear {m0 : Mach} {s s' : PState} {line : Str} (h : Sim m0 s)
    (hr : s.linear line = .ok s') : Sim m0 s' := by
  unfold PState.linear at hr
  obtain ⟨st, _, hr⟩ := bindOk hr
  obtain ⟨⟨x, y⟩, _, hr⟩ := bindOk hr
  have h1 : Sim m0 (s.add .routeMode) := h.addIdle ⟨fun _ => rfl, fun _ => rfl⟩
  have hv := moved_view { s.add .routeMode with state := "LINEAR" } (.coord x y (some "LINEAR")) x y
  have hm := move_axis s x y
  simp only at hr
  split at hr
  · rename_i hd
    obtain ⟨s1, h2, h3⟩ := bindOk hr
    obtain ⟨hk, hv', hh⟩ := made (h := fun s1 => .slot s1.active (both s.pos) (both s1.pos) false) h2 h3
    have hp : s1.pos = move s.notation_ s.pos x y := (needTool_same h2).pos
    refine h1.push (.coord x y (some "LINEAR")) ?_ ?_ ?_
    · rw [hk]; simp [PState.kinds, PState.add]
    · rw [hv']; exact hv
    · rw [hh, List.map_append]
      have hd' : s.view.down = true := hd
      have hd'' : (s.add .routeMode).view.down = true := hd
      have hmk : (s.add .routeMode).view.makes (.coord x y (some "LINEAR")) =
          [.slot (both s.pos) (both (s.view.goto x y).pos)] := by
        simp only [Mach.makes]
        rw [if_pos ⟨by decide, hd''⟩]; rfl
      rw [hmk, hp, hm]; rfl
  · rename_i hd
    cases hr
    refine h1.push (.coord x y (some "LINEAR")) (by simp [PState.kinds, PState.add]) hv ?_
    have hmk : (s.add .routeMode).view.makes (.coord x y (some "LINEAR")) = [] := by
      simp only [Mach.makes]
      rw [if_neg (fun c => hd c.2)]
    rw [hmk]; simp [PState.add]

theorem Sim.coordLine {m0 : Mach} {s s' : PState} {line : Str} (h : Sim m0 s)
    (hr : s.coordLine line = .ok s') : Sim m0 s' := by
  unfold PState.coordLine at hr
  obtain ⟨st, _, hr⟩ := bindOk hr
  obtain ⟨⟨x, y⟩, _, hr⟩ := bindOk hr
  have hv := moved_view s (.coord x y none) x y
  have hm := move_axis s x y
  simp only at hr
  split at hr
  · rename_i hl
    obtain ⟨s1, h2, h3⟩ := bindOk hr
    cases h3
    have hs := needTool_same h2
    have hp : s1.pos = move s.notation_ s.pos x y := hs.pos
    refine h.push (.coord x y none) ?_ ?_ ?_
    · simp [PState.kinds, PState.addHit, hs.statements, PState.add]
    · exact Eq.trans hs.view hv
    · have h1 : s.view.phase = .linear ∧ s.view.down = true :=
        ⟨(phaseOf_linear _).2 hl.1, hl.2⟩
      simp only [Mach.makes]
      rw [if_pos h1]
      simp only [PState.addHit, List.map_append, hs.hits, hp, hm]
      rfl
  · rename_i hl
    have h1 : ¬ (s.view.phase = .linear ∧ s.view.down = true) := by
      rintro ⟨a, b⟩
      exact hl ⟨(phaseOf_linear _).1 a, b⟩
    split at hr
    · rename_i hd
      obtain ⟨s1, h2, h3⟩ := bindOk hr
      obtain ⟨hk, hv', hh⟩ := made (h := fun s1 => .hole s1.active s1.pos) h2 h3
      have hp : s1.pos = move s.notation_ s.pos x y := (needTool_same h2).pos
      refine h.push (.coord x y none) ?_ ?_ ?_
      · rw [hk]; simp [PState.kinds, PState.add]
      · rw [hv']; exact hv
      · have h2 : s.view.phase.drills = true := (phaseOf_drills _).2 hd
        simp only [Mach.makes]
        rw [if_neg h1, if_pos h2, hh, List.map_append]
        simp only [hp, hm]
        rfl
    · rename_i hd
      cases hr
      refine h.push (.coord x y none) (by simp [PState.kinds, PState.add]) hv ?_
      have h2 : ¬ s.view.phase.drills = true := fun a => hd ((phaseOf_drills _).1 a)
      simp only [Mach.makes]
      rw [if_neg h1, if_neg h2]
      simp [PState.add]

theorem Sim.slotLine {m0 : Mach} {s s' : PState} {line : Str} (h : Sim m0 s)
    (hr : s.slotLine line = .ok s') : Sim m0 s' := by
  unfold PState.slotLine at hr
  obtain ⟨st, _, hr⟩ := bindOk hr
  obtain ⟨k, _, hr⟩ := bindOk hr
  split at hr
  · rename_i x1 y1 x2 y2 _
    have hv := moved_view s (.slot x1 y1 x2 y2) x2 y2
    simp only at hr
    split at hr
    · rename_i hd
      obtain ⟨s1, h2, h3⟩ := bindOk hr
      obtain ⟨hk, hv', hh⟩ := made (h := fun s1 => .slot s1.active (x1, y1) (x2, y2) true) h2 h3
      refine h.push (.slot x1 y1 x2 y2) ?_ ?_ ?_
      · rw [hk]; simp [PState.kinds, PState.add]
      · rw [hv']; exact hv
      · have h2 : s.view.phase.drills = true := (phaseOf_drills _).2 hd
        simp only [Mach.makes]
        rw [if_pos h2, hh, List.map_append]
        rfl
    · rename_i hd
      cases hr
      refine h.push (.slot x1 y1 x2 y2) (by simp [PState.kinds, PState.add]) hv ?_
      have h2 : ¬ s.view.phase.drills = true := fun a => hd ((phaseOf_drills _).1 a)
      simp only [Mach.makes]
      rw [if_neg h2]
      simp [PState.add]
  · cases hr; exact h

/-- The loop of a repeat command. -/
theorem repeatHole_spec {dx dy : ℚ} (n : ℕ) (s : PState) {r : ℕ} (ha : s.active = some r) :
    s.repeatHole dx dy n = .ok { s with
      pos := (s.pos.1 + n * dx, s.pos.2 + n * dy)
      hits := s.hits ++ (row s.pos dx dy n).map (Hit.hole (some r))
      heap := s.heap.modify r fun t => { t with hitCount := t.hitCount + n } } := by
  induction n generalizing s with
  | zero =>
    simp only [PState.repeatHole, row, List.range_zero, List.map_nil, List.append_nil, Nat.cast_zero,
      zero_mul, add_zero]
    have : (fun t : Tool => { t with hitCount := t.hitCount }) = id := rfl
    rw [this, List.modify_id]
  | succ n ih =>
    simp only [PState.repeatHole, PState.countHit, PState.addHit, ha]
    refine (ih _ (by simp)).trans ?_
    have hrow : (s.hits ++ [Hit.hole (some r) (s.pos.1 + dx, s.pos.2 + dy)]) ++
        (row (s.pos.1 + dx, s.pos.2 + dy) dx dy n).map (Hit.hole (some r)) =
        s.hits ++ (row s.pos dx dy (n + 1)).map (Hit.hole (some r)) := by
      rw [List.append_assoc]
      congr 1
      unfold row
      rw [List.range_succ_eq_map]
      simp only [List.map_cons, List.map_map, List.singleton_append, Nat.cast_zero, zero_add, one_mul]
      congr 1
      apply List.map_congr_left
      intro k _
      simp only [Function.comp_apply, Nat.succ_eq_add_one, Nat.cast_add, Nat.cast_one]
      congr 2 <;> ring
    have hp : ((s.pos.1 + dx + n * dx, s.pos.2 + dy + n * dy) : ℚ × ℚ) =
        (s.pos.1 + ((n + 1 : ℕ) : ℚ) * dx, s.pos.2 + ((n + 1 : ℕ) : ℚ) * dy) := by
      push_cast; congr 1 <;> ring
    have hh : (s.heap.modify r fun t => { t with hitCount := t.hitCount + 1 }).modify r
        (fun t => { t with hitCount := t.hitCount + n }) =
        s.heap.modify r fun t => { t with hitCount := t.hitCount + (n + 1) } := by
      rw [List.modify_modify_eq]
      congr 1
      funext t
      simp only [Function.comp_apply, Tool.mk.injEq, true_and]
      omega
    simp only [hrow, hp, hh]

theorem repeatHole_none {dx dy : ℚ} (n : ℕ) (s : PState) (ha : s.active = none) :
    s.repeatHole dx dy (n + 1) = .error .attributeError := by
  simp only [PState.repeatHole, PState.countHit, PState.addHit, ha]; rfl

theorem Sim.repeatLine {m0 : Mach} {s s' : PState} {line : Str} (h : Sim m0 s)
    (hr : s.repeatLine line = .ok s') : Sim m0 s' := by
  unfold PState.repeatLine at hr
  obtain ⟨st, _, hr⟩ := bindOk hr
  obtain ⟨k, _, hr⟩ := bindOk hr
  split at hr
  · rename_i n dx dy _
    have key : s'.kinds = s.kinds ++ [.rep n dx dy] ∧ s'.view = s.view.next (.rep n dx dy) ∧
        s'.hits.map Hit.feature = s.hits.map Hit.feature ++ s.view.makes (.rep n dx dy) := by
      cases ha : s.active with
      | some r =>
        rw [repeatHole_spec n.toNat (s.add (.rep n dx dy)) (r := r) ha] at hr
        cases hr
        refine ⟨add_kinds _ _, rfl, ?_⟩
        simp only [List.map_append, List.map_map, Mach.makes]
        rfl
      | none =>
        cases hn : n.toNat with
        | zero =>
          rw [hn] at hr
          cases hr
          refine ⟨add_kinds _ _, ?_, ?_⟩
          · have e : s.view = ⟨s.view.incremental, (s.view.pos.1, s.view.pos.2), s.view.phase, s.view.down⟩ := rfl
            simp only [Mach.next, hn, Nat.cast_zero, zero_mul, add_zero]; rfl
          · simp [Mach.makes, hn, row, PState.add]
        | succ m =>
          rw [hn, repeatHole_none m (s.add (.rep n dx dy)) ha] at hr
          cases hr
    exact h.push _ key.1 key.2.1 key.2.2
  · cases hr; exact h

theorem commentLineFormat_ok {s s' : PState} {t : Str} (h : s.commentLineFormat t = .ok s') :
    ∃ f, s' = { s with format := f } := by
  unfold PState.commentLineFormat at h
  split at h
  · obtain ⟨f, _, h⟩ := bindOk h
    cases h
    split
    · exact ⟨f, rfl⟩
    · exact ⟨s.format, rfl⟩
  · cases h; exact ⟨s.format, rfl⟩

/-- What a comment line changes. -/
theorem commentLine_ok {s s' : PState} {line : Str} (h : s.commentLine line = .ok s') :
    ∃ t f p, s' = { s.add (.comment t) with
      format := f
      plated := p
      state := if beginsHeader t then "HEADER" else s.state } := by
  unfold PState.commentLine at h
  simp only at h
  obtain ⟨s1, h1, h⟩ := bindOk h
  obtain ⟨f, rfl⟩ := commentLineFormat_ok h1
  refine ⟨lstripBy (· == ';') line, f, ((s.add (.comment [])).commentLinePlating (lstripBy (· == ';') line)).plated, ?_⟩
  split at h
  · rename_i hz
    obtain ⟨st, _, h⟩ := bindOk h
    obtain ⟨ts, _, h⟩ := bindOk h
    split at h
    · cases h
    · cases h
      have e : (if beginsHeader (lstripBy (· == ';') line) then "HEADER" else s.state) = "HEADER" := by
        have : beginsHeader (lstripBy (· == ';') line) = true := by
          simp only [beginsHeader, hz, Bool.or_true]
        rw [this]; rfl
      simp only [e]
      rfl
  · rename_i hz
    cases h
    have e : beginsHeader (lstripBy (· == ';') line) = isInfix "HEADER:".toList (lstripBy (· == ';') line) := by
      simp only [beginsHeader, Bool.eq_false_iff.2 hz, Bool.or_false]
    simp only [e]
    rfl

theorem Sim.commentLine {m0 : Mach} {s s' : PState} {line : Str} (h : Sim m0 s)
    (hr : s.commentLine line = .ok s') : Sim m0 s' := by
  obtain ⟨t, f, p, rfl⟩ := commentLine_ok hr
  refine h.push (.comment t) (add_kinds _ _) ?_ (by simp [Mach.makes, PState.add])
  simp only [PState.view, Mach.next, PState.add]
  by_cases hb : beginsHeader t
  · simp only [hb, if_true]; rfl
  · simp only [hb]; rfl

theorem Sim.nextTool {m0 : Mach} {s s' : PState} (h : Sim m0 s) (hr : s.nextTool = .ok s') :
    Sim m0 s' := by
  unfold PState.nextTool at hr
  split at hr
  · cases hr
  · obtain ⟨t, _, hr⟩ := bindOk hr
    obtain ⟨⟨n, s1⟩, h1, hr⟩ := bindOk hr
    cases hr
    have h2 := (getTool_same h1).1.keep h
    exact h2.idle (k := .nextTool _ _) ⟨fun _ => rfl, fun _ => rfl⟩ (add_kinds _ _) rfl rfl

theorem Sim.defineTool {m0 : Mach} {s s' : PState} {line : Str} (h : Sim m0 s)
    (hr : s.defineTool line = .ok s') : Sim m0 s' := by
  unfold PState.defineTool at hr
  split at hr
  · obtain ⟨st, _, hr⟩ := bindOk hr
    obtain ⟨t, _, hr⟩ := bindOk hr
    cases hr
    exact h.idle (k := .tool s.heap.length) ⟨fun _ => rfl, fun _ => rfl⟩ (add_kinds _ _) rfl rfl
  · cases hr
    exact h.addIdle ⟨fun _ => rfl, fun _ => rfl⟩

theorem Sim.selectTool {m0 : Mach} {s s' : PState} {line : Str} (h : Sim m0 s)
    (hr : s.selectTool line = .ok s') : Sim m0 s' := by
  unfold PState.selectTool at hr
  obtain ⟨k, _, hr⟩ := bindOk hr
  split at hr
  · rename_i n c _
    have h1 : Sim m0 (s.add (.toolSel n c)) := h.addIdle ⟨fun _ => rfl, fun _ => rfl⟩
    simp only at hr
    split at hr
    · cases hr; exact h1
    · obtain ⟨⟨r, s1⟩, h2, hr⟩ := bindOk hr
      have h3 := (getTool_same h2).1.keep h1
      simp only at hr
      split at hr
      · cases hr; exact h3.keep rfl rfl rfl
      · obtain ⟨st, _, hr⟩ := bindOk hr
        cases hr
        have := fun m => insertTool_sim ⟨"inch", .tool s1.heap.length⟩
          ⟨fun _ => rfl, fun _ => rfl⟩ s1.statements m
        constructor
        · exact ((this m0).1.trans h3.view :)
        · exact ((this m0).2.trans h3.all :)
  · cases hr; exact h

theorem phaseOf_ne {x : String} (h : x ≠ "HEADER") (h' : x ≠ "INIT") :
    phaseOf x ≠ .header ∧ phaseOf x ≠ .init := by
  unfold phaseOf
  rw [if_neg h', if_neg h]
  split
  · exact ⟨by decide, by decide⟩
  · split <;> exact ⟨by decide, by decide⟩

theorem leaveHeader_of_ne {p : Phase} (h : p ≠ .header) : p.leaveHeader = p := by
  cases p <;> first | rfl | exact absurd rfl h

theorem Sim.rewindLine {m0 : Mach} {s : PState} (h : Sim m0 s) : Sim m0 s.rewindLine := by
  refine h.push .rewindStop (add_kinds _ _) ?_ (by simp [Mach.makes, PState.add, PState.rewindLine])
  simp only [PState.view, Mach.next, PState.add, PState.rewindLine]
  by_cases h1 : s.state = "HEADER"
  · rw [h1]; rfl
  · by_cases h2 : s.state = "INIT"
    · rw [h2]; rfl
    · have hp := phaseOf_ne (x := s.state) h1 h2
      rw [if_neg h1, if_neg h2]
      cases hq : phaseOf s.state <;> first | rfl | exact absurd hq hp.1 | exact absurd hq hp.2

theorem Sim.headerEnd {m0 : Mach} {s : PState} (h : Sim m0 s) :
    Sim m0 { s.add .headerEnd with state := if s.state = "HEADER" then "DRILL" else s.state } := by
  refine h.push .headerEnd (add_kinds _ _) ?_ (by simp [Mach.makes, PState.add])
  simp only [PState.view, Mach.next, PState.add]
  by_cases h1 : s.state = "HEADER"
  · rw [h1]; rfl
  · rw [if_neg h1]
    have : phaseOf s.state ≠ .header := by
      by_cases h2 : s.state = "INIT"
      · rw [h2]; decide
      · exact (phaseOf_ne (x := s.state) h1 h2).1
    rw [leaveHeader_of_ne this]; rfl

theorem Sim.dispatchTools {m0 : Mach} {s s' : PState} {line : Str} (h : Sim m0 s)
    (hr : s.dispatchTools line = .ok s') : Sim m0 s' := by
  unfold PState.dispatchTools at hr
  simp only at hr
  split_ifs at hr
  · exact h.defineTool hr
  · exact h.selectTool hr
  · exact h.repeatLine hr
  · exact h.slotLine hr
  · exact h.coordLine hr
  · cases hr; exact h.addIdle ⟨fun _ => rfl, fun _ => rfl⟩

theorem Sim.dispatchSettings {m0 : Mach} {s s' : PState} {line : Str} (h : Sim m0 s)
    (hr : s.dispatchSettings line = .ok s') : Sim m0 s' := by
  unfold PState.dispatchSettings at hr
  simp only at hr
  split_ifs at hr
  · cases hr
    unfold PState.unitLine
    split
    · rename_i z f _
      exact h.idle (k := .unit z f) ⟨fun _ => rfl, fun _ => rfl⟩ (by simp [PState.kinds]) rfl rfl
    · exact h
  · obtain ⟨m, hm, hr⟩ := bindOk hr
    cases hr
    unfold measuringFrom at hm
    split at hm
    · cases hm
    · cases hm
      exact h.idle (k := .measuring) ⟨fun _ => rfl, fun _ => rfl⟩ (by simp [PState.kinds]) rfl rfl
  · simp only [incrFrom] at hr
    cases hr
    refine h.push (.incr _) (add_kinds _ _) ?_ (by simp [Mach.makes, PState.add])
    simp only [PState.view, Mach.next, PState.add]
    by_cases ho : isInfix "OFF".toList line <;> simp [ho]
  · obtain ⟨k, hk, hr⟩ := bindOk hr
    cases hr
    obtain ⟨v, _, rfl⟩ := mapOk hk
    exact h.addIdle ⟨fun _ => rfl, fun _ => rfl⟩
  · obtain ⟨k, hk, hr⟩ := bindOk hr
    cases hr
    exact h.idle (k := .format _) ⟨fun _ => rfl, fun _ => rfl⟩ (add_kinds _ _) rfl rfl
  · cases hr; exact h.addIdle ⟨fun _ => rfl, fun _ => rfl⟩
  · cases hr; exact h.addIdle ⟨fun _ => rfl, fun _ => rfl⟩
  · cases hr; exact h.addIdle ⟨fun _ => rfl, fun _ => rfl⟩
  · cases hr
    exact h.push .absMode (add_kinds _ _) rfl (by simp [Mach.makes, PState.add])
  · obtain ⟨k, hk, hr⟩ := bindOk hr
    cases hr
    obtain ⟨v, _, rfl⟩ := mapOk hk
    exact h.addIdle ⟨fun _ => rfl, fun _ => rfl⟩
  · exact h.dispatchTools hr

/-- Every line keeps the simulation. -/
theorem Sim.dispatch {m0 : Mach} {s s' : PState} {line : Str} (h : Sim m0 s)
    (hr : s.dispatch line = .ok s') : Sim m0 s' := by
  unfold PState.dispatch at hr
  rcases iteOk hr with ⟨_, hr⟩ | ⟨_, hr⟩
  · exact h.commentLine hr
  rcases iteOk hr with ⟨_, hr⟩ | ⟨_, hr⟩
  · cases hr; exact h.push .headerBegin (add_kinds _ _) rfl (by simp [Mach.makes, PState.add])
  rcases iteOk hr with ⟨_, hr⟩ | ⟨_, hr⟩
  · cases hr; exact h.rewindLine
  rcases iteOk hr with ⟨_, hr⟩ | ⟨_, hr⟩
  · exact h.nextTool hr
  rcases iteOk hr with ⟨_, hr⟩ | ⟨_, hr⟩
  · cases hr; exact h.headerEnd
  rcases iteOk hr with ⟨_, hr⟩ | ⟨_, hr⟩
  · cases hr; exact h.push .zRout (add_kinds _ _) rfl (by simp [Mach.makes, PState.add])
  rcases iteOk hr with ⟨_, hr⟩ | ⟨_, hr⟩
  · cases hr; exact h.push .retractClamp (add_kinds _ _) rfl (by simp [Mach.makes, PState.add])
  rcases iteOk hr with ⟨_, hr⟩ | ⟨_, hr⟩
  · cases hr; exact h.push .retractNoClamp (add_kinds _ _) rfl (by simp [Mach.makes, PState.add])
  rcases iteOk hr with ⟨_, hr⟩ | ⟨_, hr⟩
  · obtain ⟨st, _, hr⟩ := bindOk hr
    obtain ⟨k, hk, hr⟩ := bindOk hr
    cases hr
    unfold endFrom at hk
    split at hk
    · cases hk
    · obtain ⟨x, _, hk⟩ := bindOk hk
      obtain ⟨y, _, hk⟩ := bindOk hk
      cases hk
      exact h.addIdle ⟨fun _ => rfl, fun _ => rfl⟩
  rcases iteOk hr with ⟨_, hr⟩ | ⟨_, hr⟩
  · rcases iteOk hr with ⟨_, hr⟩ | ⟨_, hr⟩
    · cases hr; exact h.keep rfl rfl rfl
    · exact h.rout hr
  rcases iteOk hr with ⟨_, hr⟩ | ⟨_, hr⟩
  · rcases iteOk hr with ⟨_, hr⟩ | ⟨_, hr⟩
    · cases hr; exact h.keep rfl rfl rfl
    · exact h.linear hr
  rcases iteOk hr with ⟨_, hr⟩ | ⟨_, hr⟩
  · cases hr; exact h.push .drillMode (add_kinds _ _) rfl (by simp [Mach.makes, PState.add])
  exact h.dispatchSettings hr

theorem Sim.parseLine {m0 : Mach} {s s' : PState} {line : Str} (h : Sim m0 s)
    (hr : s.parseLine line = .ok s') : Sim m0 s' := by
  unfold PState.parseLine at hr
  simp only at hr
  have h1 : Sim m0 { s with prev := [] } := h.keep rfl rfl rfl
  split at hr
  · cases hr; exact h1
  · exact h1.dispatch hr

/-- An invariant kept by every line is kept by the whole file. -/
theorem run_invariant {P : PState → Prop}
    (hP : ∀ s s' line, P s → s.parseLine line = .ok s' → P s') {lines : List Str} {s s' : PState}
    (h : P s) (hr : s.run lines = .ok s') : P s' := by
  unfold PState.run at hr
  induction lines generalizing s with
  | nil => cases hr; exact h
  | cons l ls ih =>
    rw [List.foldlM_cons] at hr
    obtain ⟨s1, h1, h2⟩ := bindOk hr
    exact ih (hP _ _ _ h h1) h2

end Verif.Excellon
