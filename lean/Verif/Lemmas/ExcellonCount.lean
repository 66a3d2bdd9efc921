import Verif.Lemmas.Excellon
import Verif.Lemmas.Dict

/-! # Tools, references and hit counts of the drill file parser -/

namespace Verif.Excellon
open Verif.Py Verif.Cam Verif.Utils Spec

/-- The number of hits that use tool object `r`. -/
def uses (hits : List Hit) (r : ℕ) : ℕ := hits.countP fun h => h.tool = some r

theorem uses_append (l : List Hit) (h : Hit) (r : ℕ) :
    uses (l ++ [h]) r = uses l r + if h.tool = some r then 1 else 0 := by
  unfold uses
  rw [List.countP_append, List.countP_singleton]
  by_cases hr : h.tool = some r <;> simp [hr]

theorem uses_append_list (l l' : List Hit) (r : ℕ) : uses (l ++ l') r = uses l r + uses l' r :=
  List.countP_append

/-- The numbers of the tools a dictionary refers to are its keys. -/
def Refers (heap : List Tool) (d : List (ℤ × ℕ)) : Prop :=
  ∀ x ∈ d, (heap.map (·.number))[x.2]? = some x.1

theorem Refers.lt {heap : List Tool} {d : List (ℤ × ℕ)} (h : Refers heap d) {n : ℤ} {r : ℕ}
    (hx : (n, r) ∈ d) : r < heap.length := by
  have := h _ hx
  rw [List.getElem?_eq_some_iff] at this
  obtain ⟨h1, _⟩ := this
  simpa using h1

/-- References are valid, counts do not exceed the hits, and are equal to them if `b`. -/
structure Counts (b : Prop) (s : PState) : Prop where
  active : ∀ r, s.active = some r → r < s.heap.length
  tools : Refers s.heap s.tools
  ext : Refers s.heap s.ext
  comments : Refers s.heap s.comments
  hits : ∀ h ∈ s.hits, ∀ r, h.tool = some r → r < s.heap.length
  keys : (s.tools.map (·.1)).Nodup
  le : ∀ r c, (s.heap.map (·.hitCount))[r]? = some c → c ≤ uses s.hits r
  eq : b → ∀ r c, (s.heap.map (·.hitCount))[r]? = some c → c = uses s.hits r

theorem Counts.mono {b b' : Prop} {s : PState} (h : Counts b s) (hb : b' → b) : Counts b' s :=
  ⟨h.active, h.tools, h.ext, h.comments, h.hits, h.keys, h.le, fun x => h.eq (hb x)⟩

/-- Nothing about tools changes. -/
theorem Counts.keep {b b' : Prop} {s s' : PState} (h : Counts b s) (hb : b' → b)
    (h1 : s'.active = s.active) (h2 : s'.heap = s.heap) (h3 : s'.tools = s.tools)
    (h4 : s'.ext = s.ext) (h5 : s'.comments = s.comments) (h6 : s'.hits = s.hits) : Counts b' s' :=
  ⟨by rw [h1, h2]; exact h.active, by rw [h2, h3]; exact h.tools, by rw [h2, h4]; exact h.ext,
   by rw [h2, h5]; exact h.comments, by rw [h6, h2]; exact h.hits, by rw [h3]; exact h.keys,
   by rw [h6, h2]; exact h.le, fun x => by rw [h6, h2]; exact h.eq (hb x)⟩

theorem Refers.set {heap : List Tool} {d : List (ℤ × ℕ)} (h : Refers heap d) {n : ℤ} {r : ℕ}
    (hr : (heap.map (·.number))[r]? = some n) : Refers heap (dictSet d n r) := by
  intro x hx
  rcases mem_dictSet hx with rfl | hx
  · exact hr
  · exact h x hx

/-- A tool found under a number is entered in the table. -/
theorem Counts.enter {b : Prop} {s : PState} (h : Counts b s) {id : ℤ} {r : ℕ} {st : FileSettings}
    (hr : (s.heap.map (·.number))[r]? = some id) :
    Counts b { s with heap := setToolSettings s.heap r st, tools := dictSet s.tools id r } := by
  have hl : (setToolSettings s.heap r st).length = s.heap.length := by simp [setToolSettings]
  have hn := setToolSettings_numbers s.heap r st
  have hc := setToolSettings_counts s.heap r st
  have hR : ∀ {d}, Refers s.heap d → Refers (setToolSettings s.heap r st) d := by
    intro d hd x hx
    rw [hn]; exact hd x hx
  refine ⟨?_, ?_, hR h.ext, hR h.comments, ?_, dictSet_nodup h.keys _ _, ?_, ?_⟩
  · intro x hx
    rw [hl]; exact h.active x hx
  · exact hR (h.tools.set hr)
  · intro x hx y hy
    rw [hl]; exact h.hits x hx y hy
  · intro x c hx
    rw [hc] at hx; exact h.le x c hx
  · intro hb x c hx
    rw [hc] at hx; exact h.eq hb x c hx

theorem Counts.getTool {b : Prop} {s s' : PState} {id : ℤ} {r : Option ℕ} (h : Counts b s)
    (hr : s.getTool id = .ok (r, s')) :
    Counts b s' ∧ ∀ x, r = some x → dictGet s'.tools id = some x := by
  unfold PState.getTool at hr
  split at hr
  · rename_i x hx
    cases hr
    exact ⟨h, fun y hy => by cases hy; exact hx⟩
  · split at hr
    · rename_i x hx
      obtain ⟨st, _, h2⟩ := bindOk hr
      cases h2
      exact ⟨h.enter (h.comments _ (dictGet_mem hx)), fun y hy => by cases hy; exact dictGet_set_self _ _ _⟩
    · split at hr
      · rename_i x hx
        obtain ⟨st, _, h2⟩ := bindOk hr
        cases h2
        exact ⟨h.enter (h.ext _ (dictGet_mem hx)), fun y hy => by cases hy; exact dictGet_set_self _ _ _⟩
      · cases hr; exact ⟨h, fun y hy => by cases hy⟩

theorem Counts.setActive {b : Prop} {s : PState} (h : Counts b s) {r : Option ℕ}
    (hr : ∀ x, r = some x → x < s.heap.length) : Counts b { s with active := r } :=
  ⟨hr, h.tools, h.ext, h.comments, h.hits, h.keys, h.le, h.eq⟩

theorem Counts.got {b : Prop} {s : PState} (h : Counts b s) {id : ℤ} {r : Option ℕ}
    (hr : ∀ x, r = some x → dictGet s.tools id = some x) : ∀ x, r = some x → x < s.heap.length :=
  fun x hx => h.tools.lt (dictGet_mem (hr x hx))

theorem Counts.needTool {b : Prop} {s s' : PState} (h : Counts b s) (hr : s.needTool = .ok s') :
    Counts b s' := by
  unfold PState.needTool at hr
  split at hr
  · cases hr; exact h
  · obtain ⟨⟨r, s1⟩, h1, h2⟩ := bindOk hr
    cases h2
    obtain ⟨h3, h4⟩ := h.getTool h1
    exact h3.setActive (h3.got h4)

theorem counts_modify (heap : List Tool) (r k x c : ℕ)
    (h : ((heap.modify r fun t => { t with hitCount := t.hitCount + k }).map (·.hitCount))[x]? = some c) :
    ∃ c', (heap.map (·.hitCount))[x]? = some c' ∧ c = c' + if x = r then k else 0 := by
  rw [List.getElem?_map, List.getElem?_modify] at h
  rw [List.getElem?_map]
  cases hx : heap[x]? with
  | none => simp [hx] at h
  | some t =>
    refine ⟨t.hitCount, rfl, ?_⟩
    by_cases hr : r = x
    · subst hr; simp [hx] at h; simp [← h]
    · simp [hx, hr] at h
      rw [if_neg (fun e => hr e.symm), ← h, Nat.add_zero]

/-- Hits with the active tool, counted. -/
theorem Counts.hitsCounted {b : Prop} {s : PState} (h : Counts b s) {r : ℕ} (ha : s.active = some r)
    (l : List Hit) (hl : ∀ x ∈ l, x.tool = some r) (p : ℚ × ℚ) :
    Counts b { s with
      pos := p
      hits := s.hits ++ l
      heap := s.heap.modify r fun t => { t with hitCount := t.hitCount + l.length } } := by
  set g : Tool → Tool := fun t => { t with hitCount := t.hitCount + l.length } with hg
  have hlen : (s.heap.modify r g).length = s.heap.length := by simp
  have hn : (s.heap.modify r g).map (·.number) = s.heap.map (·.number) :=
    map_modify_same _ _ (by intro a; rfl) _ _
  have hR : ∀ {d}, Refers s.heap d → Refers (s.heap.modify r g) d := by
    intro d hd x hx
    rw [hn]; exact hd x hx
  have hu : ∀ x, uses (s.hits ++ l) x = uses s.hits x + if x = r then l.length else 0 := by
    intro x
    rw [uses_append_list]
    congr 1
    unfold uses
    by_cases hx : x = r
    · subst hx
      rw [if_pos rfl, List.countP_eq_length]
      intro y hy; simp [hl y hy]
    · rw [if_neg hx, List.countP_eq_zero]
      intro y hy
      simp only [hl y hy, Option.some.injEq, decide_eq_true_eq]
      exact fun e => hx e.symm
  refine ⟨?_, hR h.tools, hR h.ext, hR h.comments, ?_, h.keys, ?_, ?_⟩
  · intro x hx
    rw [hlen]; exact h.active x hx
  · intro x hx y hy
    rw [hlen]
    rcases List.mem_append.1 hx with hx | hx
    · exact h.hits x hx y hy
    · rw [hl x hx] at hy
      cases hy
      exact h.active _ ha
  · intro x c hx
    obtain ⟨c', h1, h2⟩ := counts_modify _ _ _ _ _ hx
    have := h.le x c' h1
    rw [hu, h2]; omega
  · intro hb x c hx
    obtain ⟨c', h1, h2⟩ := counts_modify _ _ _ _ _ hx
    have := h.eq hb x c' h1
    rw [hu, h2]; omega

theorem Counts.made {b : Prop} {s s1 s' : PState} {h : PState → Hit} (hc : Counts b s)
    (h1 : s.needTool = .ok s1) (h2 : (s1.addHit (h s1)).countHit = .ok s')
    (ht : (h s1).tool = s1.active) : Counts b s' := by
  have c1 := hc.needTool h1
  obtain ⟨r, hr, rfl⟩ := countHit_ok h2
  have hr' : s1.active = some r := hr
  exact c1.hitsCounted hr' [h s1] (by intro x hx; rw [List.mem_singleton] at hx; subst hx; rw [ht, hr']) s1.pos

/-- A hit that is not counted. -/
theorem Counts.uncounted {b : Prop} {s : PState} (h : Counts b s) (x : Hit)
    (hx : ∀ r, x.tool = some r → r < s.heap.length) : Counts False (s.addHit x) := by
  refine ⟨h.active, h.tools, h.ext, h.comments, ?_, h.keys, ?_, fun c => c.elim⟩
  · intro y hy r hr
    rcases List.mem_append.1 hy with hy | hy
    · exact h.hits y hy r hr
    · rw [List.mem_singleton] at hy
      subst hy
      exact hx r hr
  · intro r c hr
    have := h.le r c hr
    show c ≤ uses (s.hits ++ [x]) r
    rw [uses_append]
    omega

theorem Refers.grow {heap : List Tool} {d : List (ℤ × ℕ)} (h : Refers heap d) (t : Tool) :
    Refers (heap ++ [t]) d := by
  intro x hx
  have := h x hx
  have hl := h.lt (n := x.1) (r := x.2) hx
  rw [List.map_append, List.getElem?_append_left (by simpa using hl), this]

/-- A new tool. -/
theorem Counts.grow {b : Prop} {s : PState} (h : Counts b s) {t : Tool} (ht : t.hitCount = 0)
    {n : ℤ} (hn : t.number = n) :
    Counts b { s with heap := s.heap ++ [t], tools := dictSet s.tools n s.heap.length } := by
  have hlen : (s.heap ++ [t]).length = s.heap.length + 1 := by simp
  have hnew : ((s.heap ++ [t]).map (·.number))[s.heap.length]? = some n := by
    rw [List.map_append, List.getElem?_append_right (by simp)]
    simp [hn]
  have hu : uses s.hits s.heap.length = 0 := by
    unfold uses
    rw [List.countP_eq_zero]
    intro x hx hc
    exact absurd (h.hits x hx _ (by simpa using hc)) (lt_irrefl _)
  have hold : ∀ r c, ((s.heap ++ [t]).map (·.hitCount))[r]? = some c →
      (s.heap.map (·.hitCount))[r]? = some c ∨ (r = s.heap.length ∧ c = 0) := by
    intro r c hr
    rw [List.map_append] at hr
    rcases Nat.lt_or_ge r s.heap.length with hl | hl
    · rw [List.getElem?_append_left (by simpa using hl)] at hr
      exact .inl hr
    · rw [List.getElem?_append_right (by simpa using hl)] at hr
      right
      simp only [List.length_map, List.map_cons, List.map_nil] at hr
      rcases Nat.eq_zero_or_pos (r - s.heap.length) with he | he
      · rw [he] at hr
        simp only [List.getElem?_cons_zero, Option.some.injEq] at hr
        exact ⟨by omega, by rw [← hr, ht]⟩
      · rw [List.getElem?_eq_none (by simp only [List.length_cons, List.length_nil]; omega)] at hr
        cases hr
  refine ⟨?_, (h.tools.grow t).set hnew, h.ext.grow t, h.comments.grow t, ?_, dictSet_nodup h.keys _ _, ?_, ?_⟩
  · intro r hr
    have := h.active r hr
    show r < (s.heap ++ [t]).length
    omega
  · intro x hx r hr
    have := h.hits x hx r hr
    show r < (s.heap ++ [t]).length
    omega
  · intro r c hr
    rcases hold r c hr with h1 | ⟨rfl, rfl⟩
    · exact h.le r c h1
    · exact Nat.zero_le _
  · intro hb r c hr
    rcases hold r c hr with h1 | ⟨rfl, rfl⟩
    · exact h.eq hb r c h1
    · exact hu.symm

/-! ## Every line -/

/-- No coordinate without `G01` cuts a slot. -/
def NoBare (m0 : Mach) (l : List Kind) : Prop := m0.anyBare l = false

theorem anyBare_append (m : Mach) (l l' : List Kind) :
    m.anyBare (l ++ l') = (m.anyBare l || (m.after l).anyBare l') := by
  induction l generalizing m with
  | nil => rfl
  | cons k l ih => simp only [List.cons_append, Mach.anyBare, ih, Bool.or_assoc]; rfl

theorem NoBare.prefix {m0 : Mach} {l l' : List Kind} (h : NoBare m0 (l ++ l')) : NoBare m0 l := by
  unfold NoBare at *
  rw [anyBare_append, Bool.or_eq_false_iff] at h
  exact h.1

theorem insertTool_bare (x : Stmt) (hx : Idle x.kind) (hx' : ∀ m : Mach, m.cutsBare x.kind = false)
    (l : List Stmt) (m : Mach) :
    m.anyBare ((insertTool x l).map (·.kind)) = m.anyBare (l.map (·.kind)) := by
  induction l generalizing m with
  | nil => rfl
  | cons s l ih =>
    unfold insertTool
    split
    · simp only [List.map_cons, Mach.anyBare, hx.1, hx', Bool.false_or]
    · simp only [List.map_cons, Mach.anyBare, ih]

/-- Counts, together with the simulation. -/
structure Inv (m0 : Mach) (s : PState) : Prop where
  sim : Sim m0 s
  counts : Counts (NoBare m0 s.kinds) s

/-- Counts after a step that appends statements and leaves the tools alone. -/
theorem Counts.quiet {m0 : Mach} {s s' : PState} (h : Counts (NoBare m0 s.kinds) s)
    (h1 : s'.active = s.active) (h2 : s'.heap = s.heap) (h3 : s'.tools = s.tools)
    (h4 : s'.ext = s.ext) (h5 : s'.comments = s.comments) (h6 : s'.hits = s.hits)
    (hk : ∃ l, s'.kinds = s.kinds ++ l) : Counts (NoBare m0 s'.kinds) s' := by
  obtain ⟨l, hl⟩ := hk
  exact h.keep (fun x => by rw [hl] at x; exact x.prefix) h1 h2 h3 h4 h5 h6

theorem Counts.rout {m0 : Mach} {s s' : PState} {line : Str} (h : Counts (NoBare m0 s.kinds) s)
    (hr : s.rout line = .ok s') : Counts (NoBare m0 s'.kinds) s' := by
  unfold PState.rout at hr
  obtain ⟨st, _, hr⟩ := bindOk hr
  obtain ⟨⟨x, y⟩, _, hr⟩ := bindOk hr
  cases hr
  exact h.quiet rfl rfl rfl rfl rfl rfl ⟨[.routeMode, .coord x y (some "ROUT")], by simp [PState.kinds, PState.add]⟩

theorem Counts.linear {m0 : Mach} {s s' : PState} {line : Str} (h : Counts (NoBare m0 s.kinds) s)
    (hr : s.linear line = .ok s') : Counts (NoBare m0 s'.kinds) s' := by
  unfold PState.linear at hr
  obtain ⟨st, _, hr⟩ := bindOk hr
  obtain ⟨⟨x, y⟩, _, hr⟩ := bindOk hr
  simp only at hr
  split at hr
  · obtain ⟨s1, h2, h3⟩ := bindOk hr
    obtain ⟨hk, -, -⟩ := Excellon.made (h := fun s1 => .slot s1.active (both s.pos) (both s1.pos) false) h2 h3
    refine Counts.made (h := fun s1 => .slot s1.active (both s.pos) (both s1.pos) false) ?_ h2 h3 rfl
    refine h.keep (fun c => ?_) rfl rfl rfl rfl rfl rfl
    rw [hk] at c
    have e : (s.add .routeMode).statements = s.statements ++ [⟨"inch", .routeMode⟩] := rfl
    refine NoBare.prefix (l' := [.routeMode, .coord x y (some "LINEAR")]) ?_
    simpa [PState.kinds, PState.add] using c
  · cases hr
    exact h.quiet rfl rfl rfl rfl rfl rfl
      ⟨[.routeMode, .coord x y (some "LINEAR")], by simp [PState.kinds, PState.add]⟩

theorem Inv.coordLine {m0 : Mach} {s s' : PState} {line : Str} (h : Inv m0 s)
    (hr : s.coordLine line = .ok s') : Counts (NoBare m0 s'.kinds) s' := by
  unfold PState.coordLine at hr
  obtain ⟨st, _, hr⟩ := bindOk hr
  obtain ⟨⟨x, y⟩, _, hr⟩ := bindOk hr
  simp only at hr
  split at hr
  · rename_i hl
    obtain ⟨s1, h2, h3⟩ := bindOk hr
    cases h3
    have hs := needTool_same h2
    have hk : (s1.addHit (.slot s1.active (both s.pos) (both s1.pos) false)).kinds =
        s.kinds ++ [.coord x y none] := by
      simp [PState.kinds, PState.addHit, hs.statements, PState.add]
    have hb : ¬ NoBare m0 (s.kinds ++ [.coord x y none]) := by
      unfold NoBare
      rw [anyBare_append, h.sim.view]
      have h1 : s.view.phase = .linear ∧ s.view.down = true :=
        ⟨(phaseOf_linear _).2 hl.1, hl.2⟩
      simp [Mach.anyBare, Mach.cutsBare, h1]
    have c0 : Counts (NoBare m0 s.kinds)
        ({ s.add (.coord x y none) with pos := move s.notation_ s.pos x y } : PState) :=
      h.counts.keep id rfl rfl rfl rfl rfl rfl
    have c1 := c0.needTool h2
    exact (c1.uncounted (.slot s1.active (both s.pos) (both s1.pos) false) (fun r hr => c1.active r hr)).mono (fun c => hb (hk ▸ c))
  · split at hr
    · obtain ⟨s1, h2, h3⟩ := bindOk hr
      obtain ⟨hk, -, -⟩ := Excellon.made (h := fun s1 => .hole s1.active s1.pos) h2 h3
      refine Counts.made (h := fun s1 => .hole s1.active s1.pos) ?_ h2 h3 rfl
      refine h.counts.keep (fun c => ?_) rfl rfl rfl rfl rfl rfl
      rw [hk] at c
      refine NoBare.prefix (l' := [.coord x y none]) ?_
      simpa [PState.kinds, PState.add] using c
    · cases hr
      exact h.counts.quiet rfl rfl rfl rfl rfl rfl ⟨[.coord x y none], by simp [PState.kinds, PState.add]⟩

theorem Counts.slotLine {m0 : Mach} {s s' : PState} {line : Str} (h : Counts (NoBare m0 s.kinds) s)
    (hr : s.slotLine line = .ok s') : Counts (NoBare m0 s'.kinds) s' := by
  unfold PState.slotLine at hr
  obtain ⟨st, _, hr⟩ := bindOk hr
  obtain ⟨k, _, hr⟩ := bindOk hr
  split at hr
  · rename_i x1 y1 x2 y2 _
    simp only at hr
    split at hr
    · obtain ⟨s1, h2, h3⟩ := bindOk hr
      obtain ⟨hk, -, -⟩ := Excellon.made (h := fun s1 => .slot s1.active (x1, y1) (x2, y2) true) h2 h3
      refine Counts.made (h := fun s1 => .slot s1.active (x1, y1) (x2, y2) true) ?_ h2 h3 rfl
      refine h.keep (fun c => ?_) rfl rfl rfl rfl rfl rfl
      rw [hk] at c
      refine NoBare.prefix (l' := [.slot x1 y1 x2 y2]) ?_
      simpa [PState.kinds, PState.add] using c
    · cases hr
      exact h.quiet rfl rfl rfl rfl rfl rfl ⟨[.slot x1 y1 x2 y2], by simp [PState.kinds, PState.add]⟩
  · cases hr; exact h

theorem Counts.repeatLine {m0 : Mach} {s s' : PState} {line : Str}
    (h : Counts (NoBare m0 s.kinds) s) (hr : s.repeatLine line = .ok s') :
    Counts (NoBare m0 s'.kinds) s' := by
  unfold PState.repeatLine at hr
  obtain ⟨st, _, hr⟩ := bindOk hr
  obtain ⟨k, _, hr⟩ := bindOk hr
  split at hr
  · rename_i n dx dy _
    have h0 : Counts (NoBare m0 (s.add (.rep n dx dy)).kinds) (s.add (.rep n dx dy)) :=
      h.quiet rfl rfl rfl rfl rfl rfl ⟨_, add_kinds _ _⟩
    cases ha : s.active with
    | some r =>
      rw [repeatHole_spec n.toNat (s.add (.rep n dx dy)) (r := r) ha] at hr
      cases hr
      have := h0.hitsCounted (r := r) ha
        ((row s.pos (dx.getD 0) (dy.getD 0) n.toNat).map (Hit.hole (some r))) (by
          intro x hx
          obtain ⟨p, _, rfl⟩ := List.mem_map.1 hx
          rfl)
        (s.pos.1 + n.toNat * dx.getD 0, s.pos.2 + n.toNat * dy.getD 0)
      have hl : ((row s.pos (dx.getD 0) (dy.getD 0) n.toNat).map (Hit.hole (some r))).length = n.toNat := by
        simp [row]
      rw [hl] at this
      exact this
    | none =>
      cases hn : n.toNat with
      | zero =>
        rw [hn] at hr
        cases hr
        exact h0
      | succ m =>
        rw [hn, repeatHole_none m (s.add (.rep n dx dy)) ha] at hr
        cases hr
  · cases hr; exact h

theorem Counts.nextTool {m0 : Mach} {s s' : PState} (h : Counts (NoBare m0 s.kinds) s)
    (hr : s.nextTool = .ok s') : Counts (NoBare m0 s'.kinds) s' := by
  unfold PState.nextTool at hr
  split at hr
  · cases hr
  · obtain ⟨t, _, hr⟩ := bindOk hr
    obtain ⟨⟨n, s1⟩, h1, hr⟩ := bindOk hr
    cases hr
    obtain ⟨c1, c2⟩ := h.getTool h1
    have hk : s1.kinds = s.kinds := by
      unfold PState.kinds; rw [(getTool_same h1).1.statements]
    rename_i r _ _ _
    have c3 : Counts (NoBare m0 s.kinds) (s1.add (.nextTool (some r) n)) :=
      c1.keep id rfl rfl rfl rfl rfl rfl
    refine (c3.setActive (r := n) (c1.got c2)).mono (fun c => ?_)
    have c' : NoBare m0 (s1.kinds ++ [.nextTool (some r) n]) := by
      rw [← add_kinds]; exact c
    rw [hk] at c'
    exact c'.prefix

/-- The value a line sets does not change the hit count. -/
theorem command_count {st : FileSettings} {t t' : Tool} {cv : Char × Str}
    (h : t.command st cv = .ok t') : t'.hitCount = t.hitCount := by
  unfold Tool.command at h
  rcases iteOk h with ⟨_, h⟩ | ⟨_, h⟩
  · obtain ⟨v, _, rfl⟩ := mapOk h; rfl
  rcases iteOk h with ⟨_, h⟩ | ⟨_, h⟩
  · obtain ⟨v, _, rfl⟩ := mapOk h; rfl
  rcases iteOk h with ⟨_, h⟩ | ⟨_, h⟩
  · obtain ⟨v, _, rfl⟩ := mapOk h; rfl
  rcases iteOk h with ⟨_, h⟩ | ⟨_, h⟩
  · obtain ⟨v, _, rfl⟩ := mapOk h; rfl
  rcases iteOk h with ⟨_, h⟩ | ⟨_, h⟩
  · obtain ⟨v, _, rfl⟩ := mapOk h; rfl
  rcases iteOk h with ⟨_, h⟩ | ⟨_, h⟩
  · obtain ⟨v, _, rfl⟩ := mapOk h; rfl
  rcases iteOk h with ⟨_, h⟩ | ⟨_, h⟩
  · obtain ⟨v, _, rfl⟩ := mapOk h; rfl
  cases h; rfl

theorem fromExcellon_count {line : Str} {st : FileSettings} {p : Option String} {t : Tool}
    (h : Tool.fromExcellon line st p = .ok t) : t.hitCount = 0 := by
  unfold Tool.fromExcellon at h
  have : ∀ (l : List (Char × Str)) (a : Tool), l.foldlM (fun t cv => t.command st cv) a = .ok t →
      t.hitCount = a.hitCount := by
    intro l
    induction l with
    | nil => intro a ha; cases ha; rfl
    | cons x l ih =>
      intro a ha
      rw [List.foldlM_cons] at ha
      obtain ⟨b, h1, h2⟩ := bindOk ha
      rw [ih b h2, command_count h1]
  exact this _ _ h

theorem mergeProperties_count (s : PState) (t : Tool) :
    (s.mergeProperties t).hitCount = t.hitCount := by
  unfold PState.mergeProperties
  split
  · split
    · split <;> rfl
    · rfl
  · rfl

theorem Counts.defineTool {m0 : Mach} {s s' : PState} {line : Str}
    (h : Counts (NoBare m0 s.kinds) s) (hr : s.defineTool line = .ok s') :
    Counts (NoBare m0 s'.kinds) s' := by
  unfold PState.defineTool at hr
  split at hr
  · obtain ⟨st, _, hr⟩ := bindOk hr
    obtain ⟨t, ht, hr⟩ := bindOk hr
    cases hr
    have hc : (s.mergeProperties t).hitCount = 0 := by
      rw [mergeProperties_count, fromExcellon_count ht]
    refine (h.grow hc rfl).keep (fun c => ?_) rfl rfl rfl rfl rfl rfl
    have e : ∀ (s : PState) k, (s.add k).kinds = s.kinds ++ [k] := add_kinds
    rw [e] at c
    exact c.prefix
  · cases hr
    exact h.quiet rfl rfl rfl rfl rfl rfl ⟨_, add_kinds _ _⟩

theorem Counts.selectTool {m0 : Mach} {s s' : PState} {line : Str}
    (h : Counts (NoBare m0 s.kinds) s) (hr : s.selectTool line = .ok s') :
    Counts (NoBare m0 s'.kinds) s' := by
  unfold PState.selectTool at hr
  obtain ⟨k, _, hr⟩ := bindOk hr
  split at hr
  · rename_i n c _
    have h1 : Counts (NoBare m0 (s.add (.toolSel n c)).kinds) (s.add (.toolSel n c)) :=
      h.quiet rfl rfl rfl rfl rfl rfl ⟨_, add_kinds _ _⟩
    simp only at hr
    split at hr
    · cases hr; exact h1
    · obtain ⟨⟨r, s1⟩, h2, hr⟩ := bindOk hr
      obtain ⟨h3, h4⟩ := h1.getTool h2
      have hk : s1.kinds = (s.add (.toolSel n c)).kinds := by
        unfold PState.kinds; rw [(getTool_same h2).1.statements]
      rw [← hk] at h3
      simp only at hr
      split at hr
      · cases hr; exact h3.setActive (h3.got h4)
      · obtain ⟨st, _, hr⟩ := bindOk hr
        cases hr
        have h5 := h3.grow (t := { settings := some st, number := n, diameter := some (defaultDiameter st.units n) }) rfl rfl
        have h6 := h5.setActive (r := some s1.heap.length) (by intro x hx; cases hx; simp)
        refine h6.keep (fun x => ?_) rfl rfl rfl rfl rfl rfl
        have := insertTool_bare ⟨"inch", .tool s1.heap.length⟩ ⟨fun _ => rfl, fun _ => rfl⟩ (fun _ => rfl) s1.statements m0
        exact (this.symm.trans x :)
  · cases hr; exact h

theorem Inv.dispatchTools {m0 : Mach} {s s' : PState} {line : Str} (h : Inv m0 s)
    (hr : s.dispatchTools line = .ok s') : Counts (NoBare m0 s'.kinds) s' := by
  unfold PState.dispatchTools at hr
  rcases iteOk hr with ⟨_, hr⟩ | ⟨_, hr⟩
  · exact h.counts.defineTool hr
  rcases iteOk hr with ⟨_, hr⟩ | ⟨_, hr⟩
  · exact h.counts.selectTool hr
  rcases iteOk hr with ⟨_, hr⟩ | ⟨_, hr⟩
  · exact h.counts.repeatLine hr
  rcases iteOk hr with ⟨_, hr⟩ | ⟨_, hr⟩
  · rcases iteOk hr with ⟨_, hr⟩ | ⟨_, hr⟩
    · exact h.counts.slotLine hr
    · exact h.coordLine hr
  cases hr; exact h.counts.quiet rfl rfl rfl rfl rfl rfl ⟨_, add_kinds _ _⟩

theorem Inv.dispatchSettings {m0 : Mach} {s s' : PState} {line : Str} (h : Inv m0 s)
    (hr : s.dispatchSettings line = .ok s') : Counts (NoBare m0 s'.kinds) s' := by
  unfold PState.dispatchSettings at hr
  rcases iteOk hr with ⟨_, hr⟩ | ⟨_, hr⟩
  · cases hr
    unfold PState.unitLine
    split
    · exact h.counts.quiet rfl rfl rfl rfl rfl rfl ⟨_, by simp only [PState.kinds, List.map_append]; rfl⟩
    · exact h.counts
  rcases iteOk hr with ⟨_, hr⟩ | ⟨_, hr⟩
  · obtain ⟨m, hm, hr⟩ := bindOk hr
    cases hr
    exact h.counts.quiet rfl rfl rfl rfl rfl rfl ⟨_, by simp only [PState.kinds, List.map_append]; rfl⟩
  rcases iteOk hr with ⟨_, hr⟩ | ⟨_, hr⟩
  · simp only [incrFrom] at hr
    cases hr
    exact h.counts.quiet rfl rfl rfl rfl rfl rfl ⟨_, add_kinds _ _⟩
  rcases iteOk hr with ⟨_, hr⟩ | ⟨_, hr⟩
  · obtain ⟨k, hk, hr⟩ := bindOk hr
    cases hr
    exact h.counts.quiet rfl rfl rfl rfl rfl rfl ⟨_, add_kinds _ _⟩
  rcases iteOk hr with ⟨_, hr⟩ | ⟨_, hr⟩
  · obtain ⟨k, hk, hr⟩ := bindOk hr
    cases hr
    exact h.counts.quiet rfl rfl rfl rfl rfl rfl ⟨_, add_kinds _ _⟩
  rcases iteOk hr with ⟨_, hr⟩ | ⟨_, hr⟩
  · cases hr; exact h.counts.quiet rfl rfl rfl rfl rfl rfl ⟨_, add_kinds _ _⟩
  rcases iteOk hr with ⟨_, hr⟩ | ⟨_, hr⟩
  · cases hr; exact h.counts.quiet rfl rfl rfl rfl rfl rfl ⟨_, add_kinds _ _⟩
  rcases iteOk hr with ⟨_, hr⟩ | ⟨_, hr⟩
  · cases hr; exact h.counts.quiet rfl rfl rfl rfl rfl rfl ⟨_, add_kinds _ _⟩
  rcases iteOk hr with ⟨_, hr⟩ | ⟨_, hr⟩
  · cases hr; exact h.counts.quiet rfl rfl rfl rfl rfl rfl ⟨_, add_kinds _ _⟩
  rcases iteOk hr with ⟨_, hr⟩ | ⟨_, hr⟩
  · obtain ⟨k, hk, hr⟩ := bindOk hr
    cases hr
    exact h.counts.quiet rfl rfl rfl rfl rfl rfl ⟨_, add_kinds _ _⟩
  exact h.dispatchTools hr

theorem Inv.dispatch {m0 : Mach} {s s' : PState} {line : Str} (h : Inv m0 s)
    (hr : s.dispatch line = .ok s') : Counts (NoBare m0 s'.kinds) s' := by
  unfold PState.dispatch at hr
  rcases iteOk hr with ⟨_, hr⟩ | ⟨_, hr⟩
  · obtain ⟨t, f, p, rfl⟩ := commentLine_ok hr
    exact h.counts.quiet rfl rfl rfl rfl rfl rfl ⟨_, add_kinds _ _⟩
  rcases iteOk hr with ⟨_, hr⟩ | ⟨_, hr⟩
  · cases hr; exact h.counts.quiet rfl rfl rfl rfl rfl rfl ⟨_, add_kinds _ _⟩
  rcases iteOk hr with ⟨_, hr⟩ | ⟨_, hr⟩
  · cases hr; exact h.counts.quiet rfl rfl rfl rfl rfl rfl ⟨_, add_kinds _ _⟩
  rcases iteOk hr with ⟨_, hr⟩ | ⟨_, hr⟩
  · exact h.counts.nextTool hr
  rcases iteOk hr with ⟨_, hr⟩ | ⟨_, hr⟩
  · cases hr; exact h.counts.quiet rfl rfl rfl rfl rfl rfl ⟨_, add_kinds _ _⟩
  rcases iteOk hr with ⟨_, hr⟩ | ⟨_, hr⟩
  · cases hr; exact h.counts.quiet rfl rfl rfl rfl rfl rfl ⟨_, add_kinds _ _⟩
  rcases iteOk hr with ⟨_, hr⟩ | ⟨_, hr⟩
  · cases hr; exact h.counts.quiet rfl rfl rfl rfl rfl rfl ⟨_, add_kinds _ _⟩
  rcases iteOk hr with ⟨_, hr⟩ | ⟨_, hr⟩
  · cases hr; exact h.counts.quiet rfl rfl rfl rfl rfl rfl ⟨_, add_kinds _ _⟩
  rcases iteOk hr with ⟨_, hr⟩ | ⟨_, hr⟩
  · obtain ⟨st, _, hr⟩ := bindOk hr
    obtain ⟨k, hk, hr⟩ := bindOk hr
    cases hr
    exact h.counts.quiet rfl rfl rfl rfl rfl rfl ⟨_, add_kinds _ _⟩
  rcases iteOk hr with ⟨_, hr⟩ | ⟨_, hr⟩
  · rcases iteOk hr with ⟨_, hr⟩ | ⟨_, hr⟩
    · cases hr; exact h.counts.quiet rfl rfl rfl rfl rfl rfl ⟨[], (List.append_nil _).symm⟩
    · exact h.counts.rout hr
  rcases iteOk hr with ⟨_, hr⟩ | ⟨_, hr⟩
  · rcases iteOk hr with ⟨_, hr⟩ | ⟨_, hr⟩
    · cases hr; exact h.counts.quiet rfl rfl rfl rfl rfl rfl ⟨[], (List.append_nil _).symm⟩
    · exact h.counts.linear hr
  rcases iteOk hr with ⟨_, hr⟩ | ⟨_, hr⟩
  · cases hr; exact h.counts.quiet rfl rfl rfl rfl rfl rfl ⟨_, add_kinds _ _⟩
  exact h.dispatchSettings hr

theorem Inv.parseLine {m0 : Mach} {s s' : PState} {line : Str} (h : Inv m0 s)
    (hr : s.parseLine line = .ok s') : Inv m0 s' := by
  refine ⟨h.sim.parseLine hr, ?_⟩
  unfold PState.parseLine at hr
  simp only at hr
  have h1 : Inv m0 { s with prev := [] } :=
    ⟨h.sim.keep rfl rfl rfl, h.counts.keep id rfl rfl rfl rfl rfl rfl⟩
  split at hr
  · cases hr; exact h1.counts
  · exact h1.dispatch hr

/-- Externally defined tools under their own numbers that were not used yet. -/
def FreshTools (ext : List (ℤ × Tool)) : Prop := ∀ x ∈ ext, x.2.number = x.1 ∧ x.2.hitCount = 0

theorem Counts.init {settings : Option FileSettings} {ext : List (ℤ × Tool)} (h : FreshTools ext) :
    Counts True (PState.init settings ext) := by
  have h0 : ∀ (r c : ℕ), (((PState.init settings ext).heap.map (·.hitCount)))[r]? = some c → c = 0 := by
    intro r c hr
    simp only [PState.init, List.map_map, List.getElem?_map, Option.map_eq_some_iff] at hr
    obtain ⟨x, hx, rfl⟩ := hr
    exact (h x (List.mem_of_getElem? hx)).2
  refine ⟨fun r hr => (by cases hr), fun x hx => (by cases hx), ?_, fun x hx => (by cases hx),
    fun x hx => (by cases hx), List.nodup_nil, ?_, ?_⟩
  · intro x hx
    simp only [PState.init, List.mem_mapIdx] at hx
    obtain ⟨i, hi, rfl⟩ := hx
    simp only [PState.init, List.map_map, List.getElem?_map, List.getElem?_eq_getElem hi, Option.map_some]
    simp [(h ext[i] (List.getElem_mem hi)).1]
  · intro r c hr
    rw [h0 r c hr]; exact Nat.zero_le _
  · intro _ r c hr
    rw [h0 r c hr]; rfl

/-- What a parsed file knows about its tools. -/
theorem parseRaw_inv {settings : Option FileSettings} {ext : List (ℤ × Tool)} {data : Str} {f : XFile}
    (hx : FreshTools ext) (h : parseRaw settings ext data = .ok f) :
    ∃ s, Inv (Mach.start (decide ((PState.init settings ext).notation_ ≠ "absolute"))) s ∧
      f.statements.map (·.kind) = s.kinds ∧ f.heap = s.heap ∧ f.tools = s.tools ∧ f.hits = s.hits := by
  unfold parseRaw at h
  obtain ⟨s, h1, h⟩ := bindOk h
  unfold PState.finish at h
  obtain ⟨st, _, h⟩ := bindOk h
  cases h
  refine ⟨s, ?_, ?_, rfl, rfl, rfl⟩
  · refine run_invariant (P := Inv _) (fun a b l ha hb => ha.parseLine hb) ?_ h1
    exact ⟨⟨rfl, rfl⟩, (Counts.init hx).mono (fun _ => trivial)⟩
  · simp [PState.kinds]

end Verif.Excellon
