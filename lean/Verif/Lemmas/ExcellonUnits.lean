import Mathlib.Tactic.FieldSimp
import Verif.Lemmas.Excellon

/-! # Unit conversion of drill files: closed forms -/

namespace Verif.Excellon
open Verif.Py Verif.Cam Verif.Utils

/-- The object a tool statement refers to. -/
def Stmt.toolRef (s : Stmt) : Option ℕ :=
  match s.kind with
  | .tool r => some r
  | _ => none

/-- The tools a file refers to in its statements and its tool table. -/
def XFile.refs (f : XFile) : List ℕ := f.statements.filterMap Stmt.toolRef ++ f.tools.map (·.2)

/-- A tool expressed in unit `u`, if it has another unit; `g` converts numbers. -/
def Tool.conv (u : String) (g : ℚ → ℚ) (t : Tool) : Tool :=
  match t.settings with
  | none => t
  | some st => if st.units ≠ u then
      { t with settings := some { st with units := u }, diameter := t.diameter.map g } else t

/-- Conversion of some of the objects. -/
def convHeap (u : String) (g : ℚ → ℚ) (rs : List ℕ) (heap : List Tool) : List Tool :=
  heap.mapIdx fun r t => if r ∈ rs then t.conv u g else t

/-- The object exists and has settings. -/
def HasSettings (heap : List Tool) (r : ℕ) : Prop := ∃ t, heap[r]? = some t ∧ t.settings.isSome

theorem Tool.convert_ok {u : String} {g : ℚ → ℚ} {t t' : Tool} (h : t.convert u g = .ok t') :
    t.settings.isSome ∧ t' = t.conv u g := by
  unfold Tool.convert at h
  unfold Tool.conv
  rcases hs : t.settings with _ | st
  · rw [hs] at h; cases h
  · rw [hs] at h
    simp only at h ⊢
    refine ⟨rfl, ?_⟩
    split_ifs at h ⊢ <;> cases h <;> rfl

theorem Tool.convert_some {u : String} {g : ℚ → ℚ} {t : Tool} (h : t.settings.isSome) :
    t.convert u g = .ok (t.conv u g) := by
  unfold Tool.convert Tool.conv
  rcases hs : t.settings with _ | st
  · rw [hs] at h; cases h
  · simp only
    split_ifs <;> rfl

theorem Tool.conv_conv (u : String) (g : ℚ → ℚ) (t : Tool) : (t.conv u g).conv u g = t.conv u g := by
  rcases hs : t.settings with _ | st
  · have : t.conv u g = t := by simp [Tool.conv, hs]
    rw [this, this]
  · by_cases hu : st.units = u
    · have : t.conv u g = t := by simp [Tool.conv, hs, hu]
      rw [this, this]
    · simp [Tool.conv, hs, hu]

theorem Tool.conv_isSome (u : String) (g : ℚ → ℚ) (t : Tool) :
    (t.conv u g).settings.isSome = t.settings.isSome := by
  rcases hs : t.settings with _ | st
  · simp [Tool.conv, hs]
  · by_cases hu : st.units = u <;> simp [Tool.conv, hs, hu]

theorem convHeap_get (u : String) (g : ℚ → ℚ) (rs : List ℕ) (heap : List Tool) (r : ℕ) :
    (convHeap u g rs heap)[r]? = (heap[r]?).map fun t => if r ∈ rs then t.conv u g else t := by
  unfold convHeap
  rw [List.getElem?_mapIdx]

theorem convHeap_nil (u : String) (g : ℚ → ℚ) (heap : List Tool) : convHeap u g [] heap = heap := by
  refine List.ext_getElem? fun r => ?_
  rw [convHeap_get]
  simp

theorem convHeap_comp (u : String) (g : ℚ → ℚ) (rs rs' : List ℕ) (heap : List Tool) :
    convHeap u g rs' (convHeap u g rs heap) = convHeap u g (rs ++ rs') heap := by
  refine List.ext_getElem? fun r => ?_
  rw [convHeap_get, convHeap_get, convHeap_get, Option.map_map]
  refine congrArg (fun f => Option.map f heap[r]?) (funext fun t => ?_)
  simp only [Function.comp, List.mem_append]
  by_cases h1 : r ∈ rs <;> by_cases h2 : r ∈ rs' <;> simp [h1, h2, Tool.conv_conv]

theorem HasSettings.convHeap (u : String) (g : ℚ → ℚ) (rs : List ℕ) (heap : List Tool) (r : ℕ) :
    HasSettings (convHeap u g rs heap) r ↔ HasSettings heap r := by
  unfold HasSettings
  rw [convHeap_get]
  rcases heap[r]? with _ | t
  · simp
  · simp only [Option.map_some, Option.some.injEq, exists_eq_left']
    split
    · rw [Tool.conv_isSome]
    · rfl

theorem pyIdx_ok {α : Type} {l : List α} {i : ℕ} {a : α} (h : pyIdx l i = .ok a) : l[i]? = some a := by
  unfold pyIdx at h
  rcases hh : l[i]? with _ | b
  · rw [hh] at h; cases h
  · rw [hh] at h; cases h; rfl

theorem pyIdx_some {α : Type} {l : List α} {i : ℕ} {a : α} (h : l[i]? = some a) : pyIdx l i = .ok a := by
  unfold pyIdx
  rw [h]

theorem set_conv {u : String} {g : ℚ → ℚ} {heap : List Tool} {r : ℕ} {t : Tool} (h : heap[r]? = some t) :
    heap.set r (t.conv u g) = convHeap u g [r] heap := by
  refine List.ext_getElem? fun k => ?_
  rw [convHeap_get, List.getElem?_set]
  obtain ⟨hr, hh⟩ := List.getElem?_eq_some_iff.1 h
  by_cases hk : r = k
  · subst hk
    simp [hr, hh]
  · have : k ∉ [r] := by simpa using Ne.symm hk
    simp only [if_neg hk, if_neg this]
    cases heap[k]? <;> rfl

theorem convertTool_ok {u : String} {g : ℚ → ℚ} {heap heap' : List Tool} {r : ℕ}
    (h : convertTool u g heap r = .ok heap') : HasSettings heap r ∧ heap' = convHeap u g [r] heap := by
  unfold convertTool at h
  rcases h1 : pyIdx heap r with e | t
  · rw [h1] at h; cases h
  · rw [h1] at h
    rcases h2 : t.convert u g with e | t'
    · change (t.convert u g >>= _) = _ at h
      rw [h2] at h; cases h
    · change (t.convert u g >>= _) = _ at h
      rw [h2] at h
      obtain ⟨h3, rfl⟩ := Tool.convert_ok h2
      cases h
      have := pyIdx_ok h1
      exact ⟨⟨t, this, h3⟩, set_conv this⟩

theorem convertTool_some {u : String} {g : ℚ → ℚ} {heap : List Tool} {r : ℕ}
    (h : HasSettings heap r) : convertTool u g heap r = .ok (convHeap u g [r] heap) := by
  obtain ⟨t, h1, h2⟩ := h
  unfold convertTool
  rw [pyIdx_some h1]
  show (t.convert u g >>= _) = _
  rw [Tool.convert_some h2]
  exact congrArg Except.ok (set_conv h1)

/-- Converting a list of tools one by one. -/
theorem convertTools_iff (u : String) (g : ℚ → ℚ) : ∀ (l : List (ℤ × ℕ)) (heap heap' : List Tool),
    (l.foldlM (fun h t => convertTool u g h t.2) heap = .ok heap' ↔
      (∀ r ∈ l.map (·.2), HasSettings heap r) ∧ heap' = convHeap u g (l.map (·.2)) heap)
  | [], heap, heap' => by
    simp only [List.foldlM_nil, List.map_nil, List.not_mem_nil, false_implies, implies_true, true_and,
      convHeap_nil]
    constructor
    · intro h; cases h; rfl
    · intro h; rw [h]; rfl
  | x :: l, heap, heap' => by
    rw [List.foldlM_cons]
    constructor
    · intro h
      rcases h1 : convertTool u g heap x.2 with e | h'
      · rw [h1] at h; cases h
      · rw [h1] at h
        obtain ⟨h2, rfl⟩ := convertTool_ok h1
        obtain ⟨h3, rfl⟩ := (convertTools_iff u g l _ _).1 h
        refine ⟨?_, convHeap_comp _ _ _ _ _⟩
        intro r hr
        rcases List.mem_cons.1 hr with rfl | hr
        · exact h2
        · exact (HasSettings.convHeap _ _ _ _ _).1 (h3 r hr)
    · rintro ⟨h1, rfl⟩
      rw [convertTool_some (h1 x.2 (by simp))]
      refine (convertTools_iff u g l _ _).2 ⟨fun r hr => (HasSettings.convHeap _ _ _ _ _).2
        (h1 r (List.mem_cons_of_mem _ hr)), (convHeap_comp u g [x.2] _ heap).symm⟩

/-- A converted statement; tool statements are references and stay. -/
def Stmt.conv (from_ to_ : String) (g : ℚ → ℚ) (s : Stmt) : Stmt :=
  match s.kind with
  | .tool _ => s
  | _ => s.convert from_ to_ g

theorem Stmt.conv_toolRef (a b : String) (g : ℚ → ℚ) (s : Stmt) : (s.conv a b g).toolRef = s.toolRef := by
  rcases s with ⟨u, k⟩
  cases k <;> simp only [Stmt.conv, Stmt.convert, Stmt.toolRef] <;> split_ifs <;> rfl

/-- Converting the statements of a file. -/
theorem convertStmts_iff (a b : String) (g : ℚ → ℚ) : ∀ (l : List Stmt) (heap : List Tool) (r : List Stmt × List Tool),
    (convertStmts a b g l heap = .ok r ↔
      (∀ r ∈ l.filterMap Stmt.toolRef, HasSettings heap r) ∧
        r = (l.map (Stmt.conv a b g), convHeap b g (l.filterMap Stmt.toolRef) heap))
  | [], heap, r => by
    simp only [convertStmts, List.filterMap_nil, List.not_mem_nil, false_implies, implies_true,
      true_and, List.map_nil, convHeap_nil, Except.ok.injEq]
    exact eq_comm
  | s :: l, heap, r => by
    have step : ∀ (h : List Tool) (s' : Stmt),
        ((do let (l, h) ← convertStmts a b g l h; .ok (s' :: l, h) : PyR (List Stmt × List Tool)) = .ok r ↔
        (∀ r ∈ l.filterMap Stmt.toolRef, HasSettings h r) ∧
          r = (s' :: l.map (Stmt.conv a b g), convHeap b g (l.filterMap Stmt.toolRef) h)) := by
      intro h s'
      constructor
      · intro hh
        rcases h1 : convertStmts a b g l h with e | x
        · rw [h1] at hh; cases hh
        · rw [h1] at hh
          obtain ⟨h2, rfl⟩ := (convertStmts_iff a b g l h x).1 h1
          cases hh
          exact ⟨h2, rfl⟩
      · rintro ⟨h1, rfl⟩
        rw [(convertStmts_iff a b g l h _).2 ⟨h1, rfl⟩]
        rfl
    by_cases hk : ∃ k, s.kind = .tool k
    · obtain ⟨k, hk⟩ := hk
      have e1 : s.toolRef = some k := by unfold Stmt.toolRef; rw [hk]
      have e2 : s.conv a b g = s := by unfold Stmt.conv; rw [hk]
      have e3 : convertStmts a b g (s :: l) heap =
          (convertTool b g heap k >>= fun h => do
            let (l, h) ← convertStmts a b g l h; .ok (s :: l, h)) := by
        rw [convertStmts, hk]
      rw [e3, List.filterMap_cons_some e1, List.map_cons, e2]
      constructor
      · intro hh
        rcases h1 : convertTool b g heap k with e | x
        · rw [h1] at hh; cases hh
        · rw [h1] at hh
          obtain ⟨h2, rfl⟩ := convertTool_ok h1
          obtain ⟨h3, rfl⟩ := (step _ _).1 hh
          refine ⟨?_, by rw [convHeap_comp]; rfl⟩
          intro r hr
          rcases List.mem_cons.1 hr with rfl | hr
          · exact h2
          · exact (HasSettings.convHeap _ _ _ _ _).1 (h3 r hr)
      · rintro ⟨h1, rfl⟩
        rw [convertTool_some (h1 k (by simp))]
        refine (step _ _).2 ⟨fun r hr => (HasSettings.convHeap _ _ _ _ _).2
          (h1 r (List.mem_cons_of_mem _ hr)), by rw [convHeap_comp]; rfl⟩
    · have e1 : s.toolRef = none := by
        unfold Stmt.toolRef
        split
        · rename_i k h; exact absurd ⟨k, h⟩ hk
        · rfl
      have e3 : convertStmts a b g (s :: l) heap =
          (do let (l, h) ← convertStmts a b g l heap; .ok (s.conv a b g :: l, h)) := by
        rw [convertStmts]
        rcases s with ⟨u, k⟩
        cases k <;> first | rfl | exact absurd ⟨_, rfl⟩ hk
      rw [e3, List.filterMap_cons_none e1, List.map_cons]
      exact step _ _

/-- Hits whose tool already has the new units are left alone. -/
theorem convertHits_done {a b : String} {g : ℚ → ℚ} (hab : a ≠ b) {heap : List Tool} :
    ∀ {l : List Hit}, (∀ x ∈ l, ∃ r t st, x.tool = some r ∧ heap[r]? = some t ∧ t.settings = some st ∧
      st.units = b) → convertHits a b g l heap = .ok (l, heap)
  | [], _ => rfl
  | x :: l, h => by
    obtain ⟨r, t, st, h1, h2, h3, h4⟩ := h x (by simp)
    have e : convertHit a b g heap x = .ok (x, heap) := by
      unfold convertHit
      rw [h1]
      show (pyIdx heap r >>= _) = _
      rw [pyIdx_some h2]
      show (match t.settings with | none => _ | some st => _) = _
      rw [h3]
      exact if_neg (by rw [h4]; exact Ne.symm hab)
    rw [convertHits, e]
    show (convertHits a b g l heap >>= _) = _
    rw [convertHits_done hab fun y hy => h y (List.mem_cons_of_mem _ hy)]
    rfl

/-- After conversion the tools of the list have the new unit. -/
theorem convHeap_units {u : String} {g : ℚ → ℚ} {rs : List ℕ} {heap : List Tool} {r : ℕ} (hr : r ∈ rs)
    (h : HasSettings heap r) : ∃ t st, (convHeap u g rs heap)[r]? = some t ∧ t.settings = some st ∧
      st.units = u := by
  obtain ⟨t, h1, h2⟩ := h
  obtain ⟨st, h3⟩ := Option.isSome_iff_exists.1 h2
  rw [convHeap_get, h1]
  refine ⟨t.conv u g, ?_⟩
  by_cases hu : st.units = u
  · exact ⟨st, by simp [hr], by simp [Tool.conv, h3, hu], hu⟩
  · exact ⟨{ st with units := u }, by simp [hr], by simp [Tool.conv, h3, hu], rfl⟩

/-- `to_inch` in closed form. -/
theorem toInch_iff {f f' : XFile} (hu : f.cam.units ≠ "inch") : f.toInch = .ok f' ↔
    (∀ r ∈ f.refs, HasSettings f.heap r) ∧
    f' = { f with
      statements := f.statements.map (Stmt.conv "metric" "inch" inch)
      heap := convHeap "inch" inch f.refs f.heap
      cam := { f.cam with units := "inch" } } := by
  unfold XFile.toInch
  rw [if_pos hu]
  constructor
  · intro h
    rcases h1 : convertStmts "metric" "inch" inch f.statements f.heap with e | x
    · rw [h1] at h; cases h
    · rw [h1] at h
      obtain ⟨h2, rfl⟩ := (convertStmts_iff _ _ _ _ _ _).1 h1
      change (f.tools.foldlM (fun h t => convertTool "inch" inch h t.2)
        (convHeap "inch" inch (f.statements.filterMap Stmt.toolRef) f.heap) >>= _) = _ at h
      rcases h3 : f.tools.foldlM (fun h t => convertTool "inch" inch h t.2)
        (convHeap "inch" inch (f.statements.filterMap Stmt.toolRef) f.heap) with e | x
      · rw [h3] at h; cases h
      · rw [h3] at h
        obtain ⟨h4, rfl⟩ := (convertTools_iff _ _ _ _ _).1 h3
        cases h
        refine ⟨?_, by rw [convHeap_comp]; rfl⟩
        intro r hr
        rcases List.mem_append.1 hr with hr | hr
        · exact h2 r hr
        · exact (HasSettings.convHeap _ _ _ _ _).1 (h4 r hr)
  · rintro ⟨h1, rfl⟩
    rw [(convertStmts_iff _ _ _ _ _ _).2 ⟨fun r hr => h1 r (List.mem_append_left _ hr), rfl⟩]
    show (f.tools.foldlM (fun h t => convertTool "inch" inch h t.2)
        (convHeap "inch" inch (f.statements.filterMap Stmt.toolRef) f.heap) >>= _) = _
    rw [(convertTools_iff _ _ _ _ _).2 ⟨fun r hr => (HasSettings.convHeap _ _ _ _ _).2
      (h1 r (List.mem_append_right _ hr)), rfl⟩, convHeap_comp]
    rfl

/-- Every hit was made with a tool of the file. -/
def XFile.Owned (f : XFile) : Prop := ∀ x ∈ f.hits, ∃ r ∈ f.refs, x.tool = some r

/-- `to_metric` in closed form, if every hit was made with a tool of the file. -/
theorem toMetric_iff {f f' : XFile} (hu : f.cam.units ≠ "metric") (ho : f.Owned) :
    f.toMetric = .ok f' ↔
    (∀ r ∈ f.refs, HasSettings f.heap r) ∧
    f' = { f with
      statements := f.statements.map (Stmt.conv "inch" "metric" metric)
      heap := convHeap "metric" metric f.refs f.heap
      cam := { f.cam with units := "metric" } } := by
  have hits : (∀ r ∈ f.refs, HasSettings f.heap r) →
      convertHits "inch" "metric" metric f.hits (convHeap "metric" metric f.refs f.heap) =
        .ok (f.hits, convHeap "metric" metric f.refs f.heap) := by
    intro h
    refine convertHits_done (by decide) fun x hx => ?_
    obtain ⟨r, hr, h1⟩ := ho x hx
    obtain ⟨t, st, h2⟩ := convHeap_units (g := metric) (u := "metric") hr (h r hr)
    exact ⟨r, t, st, h1, h2⟩
  unfold XFile.toMetric
  rw [if_pos hu]
  constructor
  · intro h
    rcases h1 : convertStmts "inch" "metric" metric f.statements f.heap with e | x
    · rw [h1] at h; cases h
    · rw [h1] at h
      obtain ⟨h2, rfl⟩ := (convertStmts_iff _ _ _ _ _ _).1 h1
      change (f.tools.foldlM (fun h t => convertTool "metric" metric h t.2)
        (convHeap "metric" metric (f.statements.filterMap Stmt.toolRef) f.heap) >>= _) = _ at h
      rcases h3 : f.tools.foldlM (fun h t => convertTool "metric" metric h t.2)
        (convHeap "metric" metric (f.statements.filterMap Stmt.toolRef) f.heap) with e | x
      · rw [h3] at h; cases h
      · rw [h3] at h
        obtain ⟨h4, rfl⟩ := (convertTools_iff _ _ _ _ _).1 h3
        have h5 : ∀ r ∈ f.refs, HasSettings f.heap r := by
          intro r hr
          rcases List.mem_append.1 hr with hr | hr
          · exact h2 r hr
          · exact (HasSettings.convHeap _ _ _ _ _).1 (h4 r hr)
        rw [convHeap_comp] at h
        change (convertHits "inch" "metric" metric f.hits (convHeap "metric" metric f.refs f.heap) >>= _) = _ at h
        rw [hits h5] at h
        cases h
        exact ⟨h5, rfl⟩
  · rintro ⟨h1, rfl⟩
    rw [(convertStmts_iff _ _ _ _ _ _).2 ⟨fun r hr => h1 r (List.mem_append_left _ hr), rfl⟩]
    show (f.tools.foldlM (fun h t => convertTool "metric" metric h t.2)
        (convHeap "metric" metric (f.statements.filterMap Stmt.toolRef) f.heap) >>= _) = _
    rw [(convertTools_iff _ _ _ _ _).2 ⟨fun r hr => (HasSettings.convHeap _ _ _ _ _).2
      (h1 r (List.mem_append_right _ hr)), rfl⟩, convHeap_comp]
    show (convertHits "inch" "metric" metric f.hits (convHeap "metric" metric f.refs f.heap) >>= _) = _
    rw [hits h1]
    rfl

/-- Converting hits converts some tools at most. -/
theorem convertHits_heap {a b : String} {g : ℚ → ℚ} : ∀ {l : List Hit} {heap : List Tool}
    {x : List Hit × List Tool}, convertHits a b g l heap = .ok x → ∃ rs, x.2 = convHeap b g rs heap
  | [], heap, x, h => by
    cases h
    exact ⟨[], (convHeap_nil _ _ _).symm⟩
  | y :: l, heap, x, h => by
    rw [convertHits] at h
    have one : ∀ {z}, convertHit a b g heap y = .ok z → ∃ rs, z.2 = convHeap b g rs heap := by
      intro z hz
      unfold convertHit at hz
      rcases hr : y.tool with _ | r
      · rw [hr] at hz; cases hz
      rw [hr] at hz
      change (pyIdx heap r >>= _) = _ at hz
      rcases hp : pyIdx heap r with e | t
      · rw [hp] at hz; cases hz
      rw [hp] at hz
      rcases hs : t.settings with _ | st
      · change (match t.settings with | none => _ | some st => _) = _ at hz
        rw [hs] at hz; cases hz
      · change (match t.settings with | none => _ | some st => _) = _ at hz
        rw [hs] at hz
        rcases iteOk hz with ⟨_, hz⟩ | ⟨_, hz⟩
        · rcases hc : convertTool b g heap r with e | h'
          · rw [hc] at hz; cases hz
          rw [hc] at hz
          obtain ⟨_, rfl⟩ := convertTool_ok hc
          rcases y with ⟨_, p⟩ | ⟨_, ⟨_ | _, _ | _⟩, ⟨_ | _, _ | _⟩, _⟩ <;> cases hz <;> exact ⟨[r], rfl⟩
        · cases hz
          exact ⟨[], (convHeap_nil _ _ _).symm⟩
    rcases h1 : convertHit a b g heap y with e | z
    · rw [h1] at h; cases h
    rw [h1] at h
    obtain ⟨rs, h2⟩ := one h1
    change (convertHits a b g l z.2 >>= _) = _ at h
    rcases h3 : convertHits a b g l z.2 with e | w
    · rw [h3] at h; cases h
    rw [h3] at h
    obtain ⟨rs', h4⟩ := convertHits_heap h3
    cases h
    exact ⟨rs ++ rs', by rw [h4, h2, convHeap_comp]⟩

/-- `to_metric` converts the tools of the file and maybe others. -/
theorem toMetric_heap {f f' : XFile} (hu : f.cam.units ≠ "metric") (h : f.toMetric = .ok f') :
    (∀ r ∈ f.refs, HasSettings f.heap r) ∧ f'.cam = { f.cam with units := "metric" } ∧
      f'.tools = f.tools ∧ f'.statements = f.statements.map (Stmt.conv "inch" "metric" metric) ∧
      ∃ rs, f'.heap = convHeap "metric" metric (f.refs ++ rs) f.heap := by
  unfold XFile.toMetric at h
  rw [if_pos hu] at h
  rcases h1 : convertStmts "inch" "metric" metric f.statements f.heap with e | x
  · rw [h1] at h; cases h
  · rw [h1] at h
    obtain ⟨h2, rfl⟩ := (convertStmts_iff _ _ _ _ _ _).1 h1
    change (f.tools.foldlM (fun h t => convertTool "metric" metric h t.2)
      (convHeap "metric" metric (f.statements.filterMap Stmt.toolRef) f.heap) >>= _) = _ at h
    rcases h3 : f.tools.foldlM (fun h t => convertTool "metric" metric h t.2)
      (convHeap "metric" metric (f.statements.filterMap Stmt.toolRef) f.heap) with e | x
    · rw [h3] at h; cases h
    · rw [h3] at h
      obtain ⟨h4, rfl⟩ := (convertTools_iff _ _ _ _ _).1 h3
      have h5 : ∀ r ∈ f.refs, HasSettings f.heap r := by
        intro r hr
        rcases List.mem_append.1 hr with hr | hr
        · exact h2 r hr
        · exact (HasSettings.convHeap _ _ _ _ _).1 (h4 r hr)
      rw [convHeap_comp] at h
      change (convertHits "inch" "metric" metric f.hits (convHeap "metric" metric f.refs f.heap) >>= _) = _ at h
      rcases h6 : convertHits "inch" "metric" metric f.hits (convHeap "metric" metric f.refs f.heap) with e | y
      · rw [h6] at h; cases h
      · rw [h6] at h
        obtain ⟨rs, h7⟩ := convertHits_heap h6
        cases h
        exact ⟨h5, rfl, rfl, rfl, rs, by rw [← convHeap_comp, ← h7]⟩

end Verif.Excellon
