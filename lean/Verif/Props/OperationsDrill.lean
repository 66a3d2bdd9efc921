import Verif.Props.Operations

/-! # C78: operations on copies of drill files and netlists -/

namespace Verif.Operations

open Verif.Py Verif.Utils Excellon

/-! ## Copying -/

/-- The state is one of copying tools of `h`. -/
structure TInv (h : List Tool) (s : ToolCopying) : Prop where
  old : ∀ r < h.length, s.heap[r]? = h[r]?
  next : h.length ≤ s.heap.length
  range : ∀ x ∈ s.memo, x.1 < h.length ∧ h.length ≤ x.2 ∧ s.heap[x.2]? = h[x.1]?
  keys : (s.memo.map Prod.fst).Nodup
  vals : (s.memo.map Prod.snd).Nodup

/-- From `s` to `t`, tools were copied. -/
def Grows (s t : ToolCopying) : Prop := ∃ new, t.memo = new ++ s.memo

theorem Grows.trans {s t u : ToolCopying} : Grows s t → Grows t u → Grows s u := by
  rintro ⟨a, h⟩ ⟨b, h'⟩
  exact ⟨b ++ a, by rw [h', h, List.append_assoc]⟩

theorem Grows.keep {h : List Tool} {s t : ToolCopying} (ht : TInv h t) (hg : Grows s t) {r : ℕ}
    (hr : r ∈ s.memo.map Prod.fst) : r ∈ t.memo.map Prod.fst ∧ look t.memo r = look s.memo r := by
  obtain ⟨new, e⟩ := hg
  have := ht.keys
  rw [e] at this ⊢
  exact ⟨by rw [List.map_append]; exact List.mem_append_right _ hr, look_append hr this⟩

theorem get_lt {α : Type} {l : List α} {i : ℕ} {a : α} (h : l[i]? = some a) : i < l.length :=
  (List.getElem?_eq_some_iff.mp h).1

theorem copyTool_spec {h : List Tool} {s : ToolCopying} (hs : TInv h s) {r : ℕ} (hr : r < h.length) :
    ∃ t, copyTool s r = .ok (look t.memo r, t) ∧ TInv h t ∧ Grows s t ∧ r ∈ t.memo.map Prod.fst := by
  unfold copyTool
  split
  · next j hj =>
    refine ⟨s, by simp [look, hj], hs, ⟨[], rfl⟩, ?_⟩
    by_contra hc
    rw [get_none.mpr hc] at hj
    cases hj
  · next hj =>
    have e : s.heap[r]? = some h[r] := (hs.old r hr).trans (List.getElem?_eq_getElem hr)
    have e1 : pyIdx s.heap r = .ok h[r] := by rw [pyIdx, e]
    refine ⟨⟨s.heap ++ [h[r]], (r, s.heap.length) :: s.memo⟩, ?_, ⟨?_, ?_, ?_, ?_, ?_⟩, ⟨[(r, _)], rfl⟩, by simp⟩
    · simp [e1, bind, Except.bind, look, dictGet]
    · intro k hk
      rw [List.getElem?_append_left (hk.trans_le hs.next)]
      exact hs.old k hk
    · rw [List.length_append]
      exact hs.next.trans (Nat.le_add_right _ _)
    · intro x hx
      rcases List.mem_cons.mp hx with rfl | hx
      · refine ⟨hr, hs.next, ?_⟩
        simp [List.getElem?_eq_getElem hr]
      · obtain ⟨a, b, c⟩ := hs.range x hx
        refine ⟨a, b, ?_⟩
        have : s.heap[x.2]? = some h[x.1] := c.trans (List.getElem?_eq_getElem a)
        rw [List.getElem?_append_left (get_lt this)]
        exact c
    · rw [List.map_cons, List.nodup_cons]
      exact ⟨get_none.mp hj, hs.keys⟩
    · rw [List.map_cons, List.nodup_cons]
      refine ⟨fun hm => ?_, hs.vals⟩
      obtain ⟨x, hx, hx2⟩ := List.mem_map.mp hm
      obtain ⟨a, -, c⟩ := hs.range x hx
      have := get_lt (c.trans (List.getElem?_eq_getElem a))
      omega

/-- A thing with tool `φ r` instead of `r`. -/
def reuse {α : Type} (tool : α → Option ℕ) (set : α → ℕ → α) (φ : ℕ → ℕ) (x : α) : α :=
  match tool x with
  | none => x
  | some r => set x (φ r)

theorem copyUses_spec {α : Type} (tool : α → Option ℕ) (set : α → ℕ → α) {h : List Tool} {l : List α} :
    ∀ {s : ToolCopying}, TInv h s → (∀ x ∈ l, ∀ r, tool x = some r → r < h.length) → ∃ t,
      copyUses tool set s l = .ok (l.map (reuse tool set (look t.memo)), t) ∧ TInv h t ∧ Grows s t ∧
        ∀ x ∈ l, ∀ r, tool x = some r → r ∈ t.memo.map Prod.fst := by
  induction l with
  | nil => exact fun {s} hs _ => ⟨s, rfl, hs, ⟨[], rfl⟩, by simp⟩
  | cons x l ih =>
    intro s hs hl
    obtain ⟨t, h1, ht, hg, hx⟩ : ∃ t, copyUse tool set s x = .ok (reuse tool set (look t.memo) x, t) ∧ TInv h t ∧ Grows s t ∧
        ∀ r, tool x = some r → r ∈ t.memo.map Prod.fst := by
      unfold copyUse reuse
      cases hx : tool x with
      | none => exact ⟨s, rfl, hs, ⟨[], rfl⟩, by simp⟩
      | some r =>
        obtain ⟨t, a, b, c, d⟩ := copyTool_spec hs (hl x (by simp) r hx)
        exact ⟨t, by simp only [a, bind, Except.bind], b, c, fun r' hr' => by cases hr'; exact d⟩
    obtain ⟨u, h2, hu, hg', hl'⟩ := ih ht fun y hy => hl y (by simp [hy])
    refine ⟨u, ?_, hu, hg.trans hg', ?_⟩
    · simp only [copyUses, h1, h2, bind, Except.bind, List.map_cons]
      congr 3
      unfold reuse
      cases hr : tool x with
      | none => rfl
      | some r => simp only [(Grows.keep hu hg' (hx r hr)).2]
    · intro y hy r hr
      rcases List.mem_cons.mp hy with rfl | hy
      · exact (Grows.keep hu hg' (hx r hr)).1
      · exact hl' y hy r hr

/-- The copied file, with the tools of `f` called by other names. -/
structure Copied (φ : ℕ → ℕ) (f g : XFile) : Prop where
  inj : Set.InjOn φ (drillTools f)
  tool : ∀ r ∈ drillTools f, f.heap.length ≤ φ r ∧ g.heap[φ r]? = f.heap[r]?
  old : ∀ r < f.heap.length, g.heap[r]? = f.heap[r]?
  statements : g.statements = f.statements.map (stmtRenamed φ)
  tools : g.tools = f.tools.map fun t => (t.1, φ t.2)
  hits : g.hits = f.hits.map (hitRenamed φ)
  cam : g.cam = f.cam

theorem reuse_stmt (φ : ℕ → ℕ) : reuse stmtTool setStmtTool φ = stmtRenamed φ := by
  funext x
  obtain ⟨u, k⟩ := x
  cases k <;> rfl

theorem reuse_hit (φ : ℕ → ℕ) : reuse Hit.tool setHitTool φ = hitRenamed φ := by
  funext x
  cases x with
  | hole t p => cases t <;> rfl
  | slot t a b k => cases t <;> rfl

theorem stmtTool_some {x : Stmt} {r : ℕ} : stmtTool x = some r ↔ x.kind = .tool r := by
  obtain ⟨u, k⟩ := x
  cases k <;> simp [stmtTool]

theorem copyDrill_spec {f : XFile} (hf : ∀ r ∈ drillTools f, r < f.heap.length) :
    ∃ g φ, copyDrill f = .ok g ∧ Copied φ f g := by
  have h0 : TInv f.heap ⟨f.heap, []⟩ := ⟨fun _ _ => rfl, le_rfl, by simp, List.nodup_nil, List.nodup_nil⟩
  obtain ⟨s1, e1, i1, g1, k1⟩ := copyUses_spec stmtTool setStmtTool (l := f.statements) h0
    fun x hx r hr => hf r (.inl ⟨x, hx, stmtTool_some.mp hr⟩)
  obtain ⟨s2, e2, i2, g2, k2⟩ := copyUses_spec (fun t : ℤ × ℕ => some t.2) (fun t j => (t.1, j)) (l := f.tools) i1
    fun x hx r hr => hf r (.inr (.inl ⟨x, hx, by simpa using hr⟩))
  obtain ⟨s3, e3, i3, g3, k3⟩ := copyUses_spec Hit.tool setHitTool (l := f.hits) i2
    fun x hx r hr => hf r (.inr (.inr ⟨x, hx, hr⟩))
  have hall : ∀ r ∈ drillTools f, (r, look s3.memo r) ∈ s3.memo := by
    rintro r (⟨x, hx, hr⟩ | ⟨x, hx, rfl⟩ | ⟨x, hx, hr⟩)
    · exact look_mem (Grows.keep i3 (g2.trans g3) (k1 x hx r (stmtTool_some.mpr hr))).1
    · exact look_mem (Grows.keep i3 g3 (k2 x hx _ rfl)).1
    · exact look_mem (k3 x hx r hr)
  refine ⟨⟨f.statements.map (reuse stmtTool setStmtTool (look s1.memo)), s3.heap, f.tools.map (reuse (fun t => some t.2)
    (fun t j => (t.1, j)) (look s2.memo)), f.hits.map (reuse Hit.tool setHitTool (look s3.memo)), f.cam⟩, look s3.memo,
    by simp only [copyDrill, e1, e2, e3, bind, Except.bind], ?_, ?_, i3.old, ?_, ?_, ?_, rfl⟩
  · intro r hr r' hr' h
    have := List.inj_on_of_nodup_map i3.vals (hall r hr) (hall r' hr') h
    exact congrArg Prod.fst this
  · exact fun r hr => (i3.range _ (hall r hr)).2
  · rw [← reuse_stmt]
    refine List.map_congr_left fun x hx => ?_
    unfold reuse
    cases hr : stmtTool x with
    | none => rfl
    | some r => simp only [(Grows.keep i3 (g2.trans g3) (k1 x hx r hr)).2]
  · refine List.map_congr_left fun x hx => ?_
    simp only [reuse, (Grows.keep i3 g3 (k2 x hx _ rfl)).2]
  · rw [← reuse_hit]

/-! ## Methods do the same to copies -/

theorem Rel.bind {α β γ δ : Type} {R : α → β → Prop} {S : γ → δ → Prop} {x : PyR α} {y : PyR β} {k : α → PyR γ}
    {l : β → PyR δ} (h : Rel R x y) (hk : ∀ a b, R a b → Rel S (k a) (l b)) : Rel S (x >>= k) (y >>= l) := by
  cases x <;> cases y <;> first | exact h.elim | exact hk _ _ h | exact h

/-- The tools `U` of memory `h` are copied in `h'`, beyond place `n`. -/
structure SimD (φ : ℕ → ℕ) (U : Set ℕ) (n : ℕ) (o h h' : List Tool) : Prop where
  inj : Set.InjOn φ U
  tool : ∀ r ∈ U, n ≤ φ r ∧ h'[φ r]? = h[r]?
  old : ∀ r < n, h'[r]? = o[r]?

theorem convertTool_sim {φ : ℕ → ℕ} {U : Set ℕ} {n : ℕ} {o h h' : List Tool} (hs : SimD φ U n o h h') {r : ℕ} (hr : r ∈ U)
    (u : String) (f : ℚ → ℚ) : Rel (SimD φ U n o) (convertTool u f h r) (convertTool u f h' (φ r)) := by
  obtain ⟨hn, e⟩ := hs.tool r hr
  unfold convertTool pyIdx
  rw [e]
  cases ht : h[r]? with
  | none => exact rfl
  | some t =>
    simp only [bind, Except.bind]
    cases t.convert u f with
    | error => exact rfl
    | ok t' =>
      refine ⟨hs.inj, fun k hk => ⟨(hs.tool k hk).1, ?_⟩, fun k hk => ?_⟩
      · have h1 := get_lt ht
        have h2 := get_lt (e.trans ht)
        by_cases hkr : k = r
        · subst hkr
          rw [List.getElem?_set_self h1, List.getElem?_set_self h2]
        · rw [List.getElem?_set_ne (fun e => hkr (hs.inj hk hr e.symm)), List.getElem?_set_ne (Ne.symm hkr)]
          exact (hs.tool k hk).2
      · rw [List.getElem?_set_ne (by omega)]
        exact hs.old k hk

theorem convert_stmtRenamed {φ : ℕ → ℕ} {x : Stmt} (h : ∀ r, x.kind ≠ .tool r) (a b : String) (f : ℚ → ℚ) :
    stmtRenamed φ (x.convert a b f) = x.convert a b f := by
  obtain ⟨u, k⟩ := x
  cases k <;> first
    | exact absurd rfl (h _)
    | rfl
    | (by_cases hu : u = a
       · simp only [Stmt.convert, hu, if_true, stmtRenamed]
       · simp only [Stmt.convert, hu, if_false, stmtRenamed])

theorem convertStmts_sim {φ : ℕ → ℕ} {U : Set ℕ} {n : ℕ} {o : List Tool} (a b : String) (f : ℚ → ℚ) {l : List Stmt} :
    ∀ {h h' : List Tool}, SimD φ U n o h h' → (∀ x ∈ l, ∀ r, x.kind = .tool r → r ∈ U) →
      Rel (fun x y => y.1 = x.1.map (stmtRenamed φ) ∧ SimD φ U n o x.2 y.2) (convertStmts a b f l h)
        (convertStmts a b f (l.map (stmtRenamed φ)) h') := by
  induction l with
  | nil => exact fun hs _ => ⟨rfl, hs⟩
  | cons x l ih =>
    intro h h' hs hl
    have hl' : ∀ y ∈ l, ∀ r, y.kind = .tool r → r ∈ U := fun y hy => hl y (by simp [hy])
    by_cases hx : ∃ r, x.kind = .tool r
    · obtain ⟨r, hr⟩ := hx
      have hr' : (stmtRenamed φ x).kind = .tool (φ r) := by unfold stmtRenamed; rw [hr]
      simp only [List.map_cons, convertStmts, hr, hr']
      refine Rel.bind (convertTool_sim hs (hl x (by simp) r hr) b f) fun h2 h2' hs2 => ?_
      refine Rel.bind (ih hs2 hl') fun p q hpq => ?_
      exact ⟨by rw [hpq.1, List.map_cons], hpq.2⟩
    · have hx' : ∀ r, x.kind ≠ .tool r := fun r hr => hx ⟨r, hr⟩
      have e : stmtRenamed φ x = x := by
        obtain ⟨u, k⟩ := x
        cases k <;> first | exact absurd rfl (hx' _) | rfl
      simp only [List.map_cons, convertStmts, e]
      simp only [bind, Except.bind]
      refine Rel.bind (ih hs hl') fun p q hpq => ?_
      exact ⟨by rw [hpq.1, List.map_cons, convert_stmtRenamed hx'], hpq.2⟩

theorem convertTools_sim {φ : ℕ → ℕ} {U : Set ℕ} {n : ℕ} {o : List Tool} (b : String) (f : ℚ → ℚ) {l : List (ℤ × ℕ)} :
    ∀ {h h' : List Tool}, SimD φ U n o h h' → (∀ t ∈ l, t.2 ∈ U) → Rel (SimD φ U n o)
      (l.foldlM (fun h t => convertTool b f h t.2) h) ((l.map fun t => (t.1, φ t.2)).foldlM (fun h t => convertTool b f h t.2) h') := by
  induction l with
  | nil => exact fun hs _ => hs
  | cons t l ih =>
    intro h h' hs hl
    rw [List.map_cons, List.foldlM_cons, List.foldlM_cons]
    exact Rel.bind (convertTool_sim hs (hl t (by simp)) b f) fun _ _ hs2 => ih hs2 fun x hx => hl x (by simp [hx])

theorem tool_renamed (φ : ℕ → ℕ) (x : Hit) : (hitRenamed φ x).tool = x.tool.map φ := by
  cases x <;> rfl

theorem convertHit_sim {φ : ℕ → ℕ} {U : Set ℕ} {n : ℕ} {o h h' : List Tool} (hs : SimD φ U n o h h') (a b : String)
    (f : ℚ → ℚ) {x : Hit} (hx : ∀ r, x.tool = some r → r ∈ U) :
    Rel (fun p q => q.1 = hitRenamed φ p.1 ∧ SimD φ U n o p.2 q.2) (convertHit a b f h x)
      (convertHit a b f h' (hitRenamed φ x)) := by
  unfold convertHit
  rw [tool_renamed]
  cases hr : x.tool with
  | none => exact rfl
  | some r =>
    have hU := hx r hr
    have e := (hs.tool r hU).2
    simp only [Option.map_some, bind, Except.bind, pyIdx, e]
    cases h[r]? with
    | none => exact rfl
    | some t =>
      dsimp only
      cases t.settings with
      | none => exact rfl
      | some st =>
        dsimp only
        split
        · have hc := convertTool_sim hs hU b f
          cases h1 : convertTool b f h r <;> cases h2 : convertTool b f h' (φ r) <;> rw [h1, h2] at hc
          · exact hc
          · exact hc.elim
          · exact hc.elim
          · cases x with
            | hole t p => exact ⟨rfl, hc⟩
            | slot t p q k =>
              obtain ⟨p1, p2⟩ := p
              obtain ⟨q1, q2⟩ := q
              cases p1 <;> cases p2 <;> cases q1 <;> cases q2 <;> first | exact rfl | exact ⟨rfl, hc⟩
        · exact ⟨rfl, hs⟩

theorem convertHits_sim {φ : ℕ → ℕ} {U : Set ℕ} {n : ℕ} {o : List Tool} (a b : String) (f : ℚ → ℚ) {l : List Hit} :
    ∀ {h h' : List Tool}, SimD φ U n o h h' → (∀ x ∈ l, ∀ r, x.tool = some r → r ∈ U) →
      Rel (fun x y => y.1 = x.1.map (hitRenamed φ) ∧ SimD φ U n o x.2 y.2) (convertHits a b f l h)
        (convertHits a b f (l.map (hitRenamed φ)) h') := by
  induction l with
  | nil => exact fun hs _ => ⟨rfl, hs⟩
  | cons x l ih =>
    intro h h' hs hl
    simp only [List.map_cons, convertHits]
    refine Rel.bind (convertHit_sim hs a b f (hl x (by simp))) fun p q hpq => ?_
    refine Rel.bind (ih hpq.2 fun y hy => hl y (by simp [hy])) fun p' q' hpq' => ?_
    exact ⟨by rw [List.map_cons, hpq.1, hpq'.1], hpq'.2⟩

/-- **C78**, drill files: `to_inch` of operations.py makes a copy that is what `to_inch()` would make of the file, with
its own tools, and raises when that would. -/
theorem C78_drill_inch {f : XFile} (hf : ∀ r ∈ drillTools f, r < f.heap.length) :
    Rel (DrillCopy f) f.toInch (drillToInch f) := by
  obtain ⟨g, φ, hg, hc⟩ := copyDrill_spec hf
  have hs : SimD φ (drillTools f) f.heap.length f.heap f.heap g.heap := ⟨hc.inj, hc.tool, hc.old⟩
  unfold drillToInch
  simp only [hg, bind, Except.bind]
  unfold XFile.toInch
  rw [hc.cam]
  split
  · rw [hc.statements, hc.tools]
    refine Rel.bind (convertStmts_sim "metric" "inch" inch hs fun x hx r hr => .inl ⟨x, hx, hr⟩) fun p q hpq => ?_
    refine Rel.bind (convertTools_sim "inch" inch hpq.2 fun t ht => .inr (.inl ⟨t, ht, rfl⟩)) fun h h' hs' => ?_
    exact ⟨φ, hc.inj, hs'.tool, hs'.old, hpq.1, rfl, hc.hits, rfl⟩
  · exact ⟨φ, hc.inj, hc.tool, hc.old, hc.statements, hc.tools, hc.hits, hc.cam⟩

/-- **C78**, drill files to millimetres. -/
theorem C78_drill_metric {f : XFile} (hf : ∀ r ∈ drillTools f, r < f.heap.length) :
    Rel (DrillCopy f) f.toMetric (drillToMetric f) := by
  obtain ⟨g, φ, hg, hc⟩ := copyDrill_spec hf
  have hs : SimD φ (drillTools f) f.heap.length f.heap f.heap g.heap := ⟨hc.inj, hc.tool, hc.old⟩
  unfold drillToMetric
  simp only [hg, bind, Except.bind]
  unfold XFile.toMetric
  rw [hc.cam]
  split
  · rw [hc.statements, hc.tools, hc.hits]
    refine Rel.bind (convertStmts_sim "inch" "metric" metric hs fun x hx r hr => .inl ⟨x, hx, hr⟩) fun p q hpq => ?_
    refine Rel.bind (convertTools_sim "metric" metric hpq.2 fun t ht => .inr (.inl ⟨t, ht, rfl⟩)) fun h h' hs' => ?_
    refine Rel.bind (convertHits_sim "inch" "metric" metric hs' fun x hx r hr => .inr (.inr ⟨x, hx, hr⟩)) fun p' q' hpq' => ?_
    exact ⟨φ, hc.inj, hpq'.2.tool, hpq'.2.old, hpq.1, rfl, hpq'.1, rfl⟩
  · exact ⟨φ, hc.inj, hc.tool, hc.old, hc.statements, hc.tools, hc.hits, hc.cam⟩

theorem offsetHits_sim (φ : ℕ → ℕ) (dx dy : ℚ) (l : List Hit) :
    Rel (fun x y => y = x.map (hitRenamed φ)) (l.mapM (Hit.offset dx dy)) ((l.map (hitRenamed φ)).mapM (Hit.offset dx dy)) := by
  induction l with
  | nil => exact rfl
  | cons x l ih =>
    rw [List.map_cons, List.mapM_cons, List.mapM_cons]
    refine Rel.bind (R := fun p q => q = hitRenamed φ p) ?_ fun p q hpq => Rel.bind ih fun p' q' hpq' => ?_
    · cases x with
      | hole t p => exact rfl
      | slot t p q k =>
        obtain ⟨p1, p2⟩ := p
        obtain ⟨q1, q2⟩ := q
        cases p1 <;> cases p2 <;> cases q1 <;> cases q2 <;> exact rfl
    · exact (by rw [hpq, hpq', List.map_cons] : q :: q' = (p :: p').map (hitRenamed φ))

theorem offset_stmtRenamed (φ : ℕ → ℕ) (dx dy : ℚ) (x : Stmt) :
    (stmtRenamed φ x).offset dx dy = stmtRenamed φ (x.offset dx dy) := by
  obtain ⟨u, k⟩ := x
  cases k <;> rfl

/-- **C78**, drill files moved. -/
theorem C78_drill_offset (dx dy : ℚ) {f : XFile} (hf : ∀ r ∈ drillTools f, r < f.heap.length) :
    Rel (DrillCopy f) (f.offset dx dy) (drillOffset dx dy f) := by
  obtain ⟨g, φ, hg, hc⟩ := copyDrill_spec hf
  unfold drillOffset
  simp only [hg, bind, Except.bind]
  unfold XFile.offset
  have hany : g.hits.any (fun h => h.tool.isNone) = f.hits.any fun h => h.tool.isNone := by
    rw [hc.hits, List.any_map]
    congr 1
    funext x
    simp [tool_renamed]
  rw [hany]
  split
  · exact rfl
  · rw [hc.hits]
    refine Rel.bind (offsetHits_sim φ dx dy f.hits) fun p q hpq => ?_
    refine ⟨φ, hc.inj, hc.tool, hc.old, ?_, hc.tools, hpq, hc.cam⟩
    show g.statements.map _ = (f.statements.map _).map _
    rw [hc.statements, List.map_map, List.map_map]
    exact List.map_congr_left fun x _ => offset_stmtRenamed φ dx dy x

/-- A file with a tool that is used by two holes and a slot. -/
example : ∃ f g, parseRaw none [] ("M48\nINCH,LZ\nT1C0.02\n%\nT01\nX001Y002\n" ++
      "X002Y002\nX001Y001G85X003Y001\nM30\n").toList = .ok f ∧
    (∀ r ∈ drillTools f, r < f.heap.length) ∧ f.hits.length = 3 ∧ f.toMetric = .ok g ∧ g.heap ≠ f.heap := by
  obtain ⟨f, g, h1, h2, h3, h4, h5, h6, h7, h8⟩ : ∃ f g, parseRaw none [] ("M48\nINCH,LZ\nT1C0.02\n%\nT01\nX001Y002\n" ++
      "X002Y002\nX001Y001G85X003Y001\nM30\n").toList = .ok f ∧ f.toMetric = .ok g ∧ f.heap.length = 1 ∧
      f.statements.filterMap stmtTool = [0] ∧ f.tools = [(1, 0)] ∧ f.hits.map Hit.tool = [some 0, some 0, some 0] ∧
      f.hits.length = 3 ∧ g.heap ≠ f.heap := by
    refine ⟨_, _, rfl, rfl, ?_⟩
    decide +kernel
  refine ⟨f, g, h1, ?_, h7, h2, h8⟩
  rintro r (⟨x, hx, hr⟩ | ⟨x, hx, rfl⟩ | ⟨x, hx, hr⟩)
  · have : r ∈ f.statements.filterMap stmtTool := List.mem_filterMap.mpr ⟨x, hx, stmtTool_some.mpr hr⟩
    rw [h4] at this
    simp_all
  · rw [h5] at hx
    simp_all
  · have : some r ∈ f.hits.map Hit.tool := List.mem_map.mpr ⟨x, hx, hr⟩
    rw [h6] at this
    simp_all

/-- **C78 fails** for netlists: they are not converted, and can not be moved. -/
theorem C78_netlist_violated (n : Ipc.Netlist) :
    (n.units = "inch" → ∃ g, netlistToMetric n = .ok g ∧ g.units = "inch") ∧
    (n.units = "metric" → ∃ g, netlistToInch n = .ok g ∧ g.units = "metric") ∧ ∀ dx dy g, netlistOffset dx dy n ≠ .ok g :=
  ⟨fun hu => ⟨n, rfl, hu⟩, fun hu => ⟨n, rfl, hu⟩, fun _ _ _ h => (by cases h)⟩

/-- Netlists in inches. -/
example : ∃ n : Ipc.Netlist, n.units = "inch" := ⟨⟨[], "inch", "degrees", []⟩, rfl⟩

end Verif.Operations
