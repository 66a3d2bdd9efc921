import Verif.Props.DrillWords

/-! # C99: the numbers of the tools of a drill file do not matter -/

namespace Verif.Excellon
open Verif.Py Verif.Cam Verif.Utils Verif.Excellon.Spec

/-! ## Specification -/

/-- The tool with another number. -/
def Tool.renumber (σ : ℤ → ℤ) (t : Tool) : Tool := { t with number := σ t.number }

/-- The statement with other numbers of tools. -/
def Stmt.renumber (σ : ℤ → ℤ) (x : Stmt) : Stmt :=
  match x with
  | ⟨u, .toolSel n c⟩ => ⟨u, .toolSel (σ n) c⟩
  | x => x

/-- The table with other numbers. -/
def renumbered {α : Type} (σ : ℤ → ℤ) (d : List (ℤ × α)) : List (ℤ × α) := d.map fun x => (σ x.1, x.2)

/-- The file with other numbers of tools: the same holes and slots of the same tools in the same order, and the same
settings. -/
def XFile.renumber (σ : ℤ → ℤ) (f : XFile) : XFile :=
  { f with statements := f.statements.map (Stmt.renumber σ), heap := f.heap.map (Tool.renumber σ), tools := renumbered σ f.tools }

/-- The same line but for the number of the tool it selects or defines. -/
inductive Renumbered (σ : ℤ → ℤ) : Bool → Str → Str → Prop
  | same (waiting : Bool) {l : Str} : l.head? ≠ some 'T' → Renumbered σ waiting l l
  | select {n n' : Str} : n ≠ [] → n.all isDig = true → n.length ≤ 3 → n' ≠ [] → n'.all isDig = true → n'.length ≤ 3 →
      (natVal n' : ℤ) = σ (natVal n) → Renumbered σ false ('T' :: n) ('T' :: n')
  | define {n n' : Str} {l : List (Char × Str)} : n ≠ [] → n.all isDig = true → n' ≠ [] → n'.all isDig = true →
      (natVal n' : ℤ) = σ (natVal n) → l ≠ [] → (∀ x ∈ l, x.1 ∈ ['B', 'C', 'F', 'H', 'S', 'Z'] ∧ x.2.all isVal = true) →
      Renumbered σ false ('T' :: (n ++ segText l)) ('T' :: (n' ++ segText l))

/-- The same lines but for the numbers of the tools, with other white space around them. -/
inductive RenumberedLines (σ : ℤ → ℤ) : Bool → List Str → List Str → Prop
  | nil (b : Bool) : RenumberedLines σ b [] []
  | cons {b : Bool} {l l' : Str} {a a' : List Str} : Renumbered σ b (strip l) (strip l') →
      RenumberedLines σ (waits b l) a a' → RenumberedLines σ b (l :: a) (l' :: a')

/-- The line uses no tool but by its number: there is no `M00` while drilling, nothing is drilled before a tool is
selected, and every selected tool is defined. -/
structure Named (s : PState) (line : Str) : Prop where
  next : s.state = "DRILL" → startsWith "M00".toList line = false
  drill : s.active = none → ∀ w ∈ ["X", "Y", "G01"], startsWith w.toList line = false
  known : startsWith "T".toList line = true → s.state ≠ "HEADER" → ∀ n c, toolSelFrom line = .ok (.toolSel n c) → n = 0 ∨
    n ∈ (s.tools ++ s.comments ++ s.ext).map (·.1)

/-- Every line of the file uses its tools by their numbers only, in the state in which it is read. -/
def AllNamed (s : PState) (lines : List Str) : Prop :=
  ∀ before line after t, lines = before ++ line :: after → s.run before = .ok t → Named t (t.prev ++ strip line)

/-! ## Proofs -/

variable {σ : ℤ → ℤ}

/-- The state with other numbers of tools. -/
def PState.renumber (σ : ℤ → ℤ) (s : PState) : PState :=
  { s with statements := s.statements.map (Stmt.renumber σ), heap := s.heap.map (Tool.renumber σ),
           tools := renumbered σ s.tools, ext := renumbered σ s.ext, comments := renumbered σ s.comments }

theorem dictGet_renumbered {α : Type} (hσ : Function.Injective σ) (d : List (ℤ × α)) (n : ℤ) :
    dictGet (renumbered σ d) (σ n) = dictGet d n := by
  induction d with
  | nil => rfl
  | cons x d ih =>
    change (if σ x.1 = σ n then some x.2 else dictGet (renumbered σ d) (σ n)) = if x.1 = n then some x.2 else dictGet d n
    rw [ih]
    simp only [hσ.eq_iff]

theorem dictSet_renumbered {α : Type} (hσ : Function.Injective σ) (d : List (ℤ × α)) (n : ℤ) (v : α) :
    dictSet (renumbered σ d) (σ n) v = renumbered σ (dictSet d n v) := by
  induction d with
  | nil => rfl
  | cons x d ih =>
    change (if σ x.1 = σ n then (σ n, v) :: renumbered σ d else (σ x.1, x.2) :: dictSet (renumbered σ d) (σ n) v) = _
    rw [ih]
    simp only [hσ.eq_iff, dictSet]
    split <;> rfl

theorem dictGet_known {α : Type} {d : List (ℤ × α)} {n : ℤ} (h : n ∈ d.map (·.1)) : dictGet d n ≠ none := by
  induction d with
  | nil => cases h
  | cons x d ih =>
    simp only [dictGet]
    split
    · simp
    · rename_i hx
      simp only [List.map_cons, List.mem_cons] at h
      rcases h with rfl | h
      · exact absurd rfl hx
      · exact ih h

theorem modify_renumber (h : List Tool) (r : ℕ) (g : Tool → Tool) (hg : ∀ t, (g t).renumber σ = g (t.renumber σ)) :
    (h.map (Tool.renumber σ)).modify r g = (h.modify r g).map (Tool.renumber σ) := by
  induction h generalizing r with
  | nil => simp
  | cons t h ih =>
    cases r with
    | zero => simp [hg]
    | succ r => simp [ih]

theorem bind_renumber {x' x : PyR PState} {f' f : PState → PyR PState} (hx : x' = x.map (PState.renumber σ))
    (hf : ∀ s, x = .ok s → f' (s.renumber σ) = (f s).map (PState.renumber σ)) :
    (x' >>= f') = (x >>= f).map (PState.renumber σ) := by
  subst hx
  cases x with
  | error e => rfl
  | ok s => exact hf s rfl

theorem bind_value {α : Type} {x : PyR α} {f' f : α → PyR PState} (h : ∀ a, f' a = (f a).map (PState.renumber σ)) :
    (x >>= f') = (x >>= f).map (PState.renumber σ) := by
  cases x with
  | error e => rfl
  | ok a => exact h a

theorem ite_renumber {c c' : Prop} [Decidable c] [Decidable c'] {a b a' b' : PyR PState} (h : c' ↔ c)
    (ha : c → a' = a.map (PState.renumber σ)) (hb : ¬c → b' = b.map (PState.renumber σ)) :
    (if c' then a' else b') = (if c then a else b).map (PState.renumber σ) := by
  by_cases hc : c
  · rw [if_pos hc, if_pos (h.2 hc), ha hc]
  · rw [if_neg hc, if_neg fun x => hc (h.1 x), hb hc]

theorem settings_renumber (s : PState) : (s.renumber σ).settings = s.settings := rfl

theorem add_renumber (s : PState) {k : Kind} (hk : ∀ n c, k ≠ .toolSel n c) :
    (s.renumber σ).add k = (s.add k).renumber σ := by
  have : Stmt.renumber σ ⟨"inch", k⟩ = ⟨"inch", k⟩ := by
    cases k <;> first | rfl | exact absurd rfl (hk _ _)
  simp only [PState.add, PState.renumber, List.map_append, List.map_cons, List.map_nil, this]

theorem getTool_renumber (hσ : Function.Injective σ) (s : PState) (n : ℤ) :
    (s.renumber σ).getTool (σ n) = (s.getTool n).map fun x => (x.1, x.2.renumber σ) := by
  have hm : ∀ r st, setToolSettings (s.heap.map (Tool.renumber σ)) r st = (setToolSettings s.heap r st).map (Tool.renumber σ) :=
    fun r st => modify_renumber _ _ _ fun t => rfl
  unfold PState.getTool
  rw [settings_renumber]
  simp only [PState.renumber, dictGet_renumbered hσ]
  cases dictGet s.tools n with
  | some r => rfl
  | none =>
    cases dictGet s.comments n with
    | some r =>
      cases s.settings with
      | error e => rfl
      | ok st => simp [bind, Except.bind, Except.map, hm, dictSet_renumbered hσ]
    | none =>
      cases dictGet s.ext n with
      | none => rfl
      | some r =>
        cases s.settings with
        | error e => rfl
        | ok st => simp [bind, Except.bind, Except.map, hm, dictSet_renumbered hσ]

theorem countHit_renumber (s : PState) : (s.renumber σ).countHit = s.countHit.map (PState.renumber σ) := by
  unfold PState.countHit
  cases h : s.active with
  | none => simp [PState.renumber, h, Except.map]
  | some r =>
    simp only [PState.renumber, h, Except.map]
    rw [modify_renumber (σ := σ) _ _ (fun t => { t with hitCount := t.hitCount + 1 }) fun t => rfl]

theorem needTool_active {s : PState} (h : s.active ≠ none) : s.needTool = .ok s := by
  unfold PState.needTool
  cases e : s.active with
  | none => exact absurd e h
  | some r => rfl

theorem commentLineFormat_renumber (s : PState) (l : Str) :
    (s.renumber σ).commentLineFormat l = (s.commentLineFormat l).map (PState.renumber σ) := by
  unfold PState.commentLineFormat
  split
  · refine bind_value fun f => ?_
    split <;> rfl
  · rfl

theorem commentLine_renumber (s : PState) (l : Str) :
    (s.renumber σ).commentLine l = (s.commentLine l).map (PState.renumber σ) := by
  unfold PState.commentLine
  simp only [add_renumber s (k := .comment _) (by simp)]
  refine bind_renumber (commentLineFormat_renumber _ _) fun s _ => ?_
  split
  · refine bind_value (x := PState.settings _) fun st => bind_value fun ts => ?_
    split <;> rfl
  · rfl

theorem rout_renumber (s : PState) (l : Str) : (s.renumber σ).rout l = (s.rout l).map (PState.renumber σ) := by
  unfold PState.rout
  rw [add_renumber s (by simp)]
  refine bind_value (x := PState.settings _) fun st => bind_value fun xy => ?_
  simp [PState.renumber, PState.add, Stmt.renumber, Except.map]

theorem repeatHole_renumber (dx dy : ℚ) (n : ℕ) : ∀ s : PState,
    (s.renumber σ).repeatHole dx dy n = (s.repeatHole dx dy n).map (PState.renumber σ) := by
  induction n with
  | zero => intro s; rfl
  | succ n ih =>
    intro s
    unfold PState.repeatHole
    exact bind_renumber (countHit_renumber (PState.addHit { s with pos := (s.pos.1 + dx, s.pos.2 + dy) }
      (.hole s.active (s.pos.1 + dx, s.pos.2 + dy)))) fun s _ => ih s

theorem repeatLine_renumber (s : PState) (l : Str) : (s.renumber σ).repeatLine l = (s.repeatLine l).map (PState.renumber σ) := by
  unfold PState.repeatLine
  refine bind_value (x := PState.settings _) fun st => bind_value fun k => ?_
  cases k <;> first | rfl | skip
  simp only [add_renumber s (k := .rep _ _ _) (by simp)]
  exact repeatHole_renumber _ _ _ _

theorem linear_renumber {s : PState} (h : s.active ≠ none) (l : Str) :
    (s.renumber σ).linear l = (s.linear l).map (PState.renumber σ) := by
  unfold PState.linear
  rw [add_renumber s (by simp)]
  refine bind_value (x := PState.settings _) fun st => bind_value fun xy => ?_
  have e := add_renumber (σ := σ) { s.add .routeMode with state := "LINEAR" } (k := .coord xy.1 xy.2 (some "LINEAR")) (by simp)
  have e2 : PState.add { (s.add .routeMode).renumber σ with state := "LINEAR" } (.coord xy.1 xy.2 (some "LINEAR")) = _ := e
  simp only [e2]
  refine ite_renumber Iff.rfl (fun _ => ?_) fun _ => rfl
  · rw [needTool_active (by exact h), needTool_active (by exact h)]
    exact countHit_renumber (PState.addHit { PState.add { s.add .routeMode with state := "LINEAR" }
      (.coord xy.1 xy.2 (some "LINEAR")) with pos := move s.notation_ s.pos xy.1 xy.2 }
      (.slot s.active (both s.pos) (both (move s.notation_ s.pos xy.1 xy.2)) false))

theorem slotLine_renumber {s : PState} (h : s.active ≠ none) (l : Str) :
    (s.renumber σ).slotLine l = (s.slotLine l).map (PState.renumber σ) := by
  unfold PState.slotLine
  refine bind_value (x := PState.settings _) fun st => bind_value fun k => ?_
  cases k <;> first | rfl | skip
  rename_i x1 y1 x2 y2
  simp only [add_renumber s (k := .slot _ _ _ _) (by simp)]
  refine ite_renumber Iff.rfl (fun _ => ?_) fun _ => rfl
  · rw [needTool_active (by exact h), needTool_active (by exact h)]
    exact countHit_renumber (PState.addHit { s.add (.slot x1 y1 x2 y2) with pos := move s.notation_ s.pos x2 y2 }
      (.slot s.active (x1, y1) (x2, y2) true))

theorem coordLine_renumber {s : PState} (h : s.active ≠ none) (l : Str) :
    (s.renumber σ).coordLine l = (s.coordLine l).map (PState.renumber σ) := by
  unfold PState.coordLine
  refine bind_value (x := PState.settings _) fun st => bind_value fun xy => ?_
  simp only [add_renumber s (k := .coord _ _ _) (by simp)]
  refine ite_renumber Iff.rfl (fun _ => ?_) fun _ => ite_renumber Iff.rfl (fun _ => ?_) fun _ => rfl
  · rw [needTool_active (by exact h), needTool_active (by exact h)]
    rfl
  · rw [needTool_active (by exact h), needTool_active (by exact h)]
    exact countHit_renumber (PState.addHit { s.add (.coord xy.1 xy.2 none) with pos := move s.notation_ s.pos xy.1 xy.2 }
      (.hole s.active (move s.notation_ s.pos xy.1 xy.2)))

/-! ## Lines without tools -/

theorem ok_add (s : PState) {k : Kind} (hk : ∀ n c, k ≠ .toolSel n c) (g g' : PState → PState)
    (hg : ∀ t : PState, g' (t.renumber σ) = (g t).renumber σ) :
    (.ok (g' ((s.renumber σ).add k)) : PyR PState) = Except.map (PState.renumber σ) (.ok (g (s.add k))) := by
  rw [add_renumber s hk, hg]
  rfl

theorem dispatchTools_renumber {s : PState} {l : Str} (hd : s.active = none → ∀ w ∈ ["X", "Y", "G01"], startsWith w.toList l = false)
    (hT : startsWith "T".toList l = false) : (s.renumber σ).dispatchTools l = (s.dispatchTools l).map (PState.renumber σ) := by
  unfold PState.dispatchTools
  simp only [hT, Bool.false_and, Bool.false_eq_true, if_false]
  refine ite_renumber Iff.rfl (fun _ => repeatLine_renumber s l) fun _ => ite_renumber Iff.rfl (fun h => ?_) fun _ => ?_
  · have ha : s.active ≠ none := by
      intro e
      have h1 := hd e "X" (by simp)
      have h2 := hd e "Y" (by simp)
      rw [h1, h2] at h
      cases h
    exact ite_renumber Iff.rfl (fun _ => slotLine_renumber ha l) fun _ => coordLine_renumber ha l
  · exact ok_add s (by simp) id id fun _ => rfl

theorem versionFrom_kind {l : Str} {k : Kind} (h : versionFrom l = .ok k) : ∀ n c, k ≠ .toolSel n c := by
  unfold versionFrom at h
  cases e : oneOrTwo l with
  | error _ => rw [e] at h; cases h
  | ok v => rw [e] at h; cases h; simp

theorem infeedFrom_kind {l : Str} {k : Kind} (h : infeedFrom l = .ok k) : ∀ n c, k ≠ .toolSel n c := by
  unfold infeedFrom at h
  cases e : pyInt (l.drop 1) with
  | error _ => rw [e] at h; cases h
  | ok v => rw [e] at h; cases h; simp

theorem bind_kind {α : Type} {x : PyR α} {f' f : α → PyR PState} (h : ∀ a, x = .ok a → f' a = (f a).map (PState.renumber σ)) :
    (x >>= f') = (x >>= f).map (PState.renumber σ) := by
  cases x with
  | error e => rfl
  | ok a => exact h a rfl

theorem measuringFrom_kind {l : Str} {k : Stmt} (h : measuringFrom l = .ok k) : k.renumber σ = k := by
  unfold measuringFrom at h
  split at h
  · cases h
  · cases h; rfl

theorem dispatchSettings_renumber {s : PState} {l : Str}
    (hd : s.active = none → ∀ w ∈ ["X", "Y", "G01"], startsWith w.toList l = false)
    (hT : startsWith "T".toList l = false) :
    (s.renumber σ).dispatchSettings l = (s.dispatchSettings l).map (PState.renumber σ) := by
  unfold PState.dispatchSettings
  refine ite_renumber Iff.rfl (fun _ => ?_) fun _ => ite_renumber Iff.rfl (fun _ => ?_) fun _ =>
    ite_renumber Iff.rfl (fun _ => ?_) fun _ => ite_renumber Iff.rfl (fun _ => ?_) fun _ =>
    ite_renumber Iff.rfl (fun _ => ?_) fun _ => ite_renumber Iff.rfl (fun _ => ok_add s (by simp) id id fun _ => rfl) fun _ =>
    ite_renumber Iff.rfl (fun _ => ok_add s (by simp) id id fun _ => rfl) fun _ =>
    ite_renumber Iff.rfl (fun _ => ok_add s (by simp) id id fun _ => rfl) fun _ =>
    ite_renumber Iff.rfl (fun _ => ok_add s (by simp) (fun t => { t with notation_ := "absolute" })
      (fun t => { t with notation_ := "absolute" }) fun _ => rfl) fun _ =>
    ite_renumber Iff.rfl (fun _ => ?_) fun _ => dispatchTools_renumber hd hT
  · unfold PState.unitLine
    generalize unitFrom l = u
    obtain ⟨u, k⟩ := u
    cases k <;> first
      | rfl
      | simp [PState.renumber, Except.map, Stmt.renumber]
  · refine bind_kind fun m hm => ?_
    simp [PState.renumber, Except.map, measuringFrom_kind hm]
  · generalize incrFrom l = k
    cases k <;> first
      | rfl
      | exact ok_add s (by simp) (fun t => { t with notation_ := _ }) (fun t => { t with notation_ := _ }) fun _ => rfl
  · exact bind_kind fun k hk => ok_add s (versionFrom_kind hk) id id fun _ => rfl
  · exact bind_value fun f => ok_add s (by simp) (fun t => { t with format := _ }) (fun t => { t with format := _ }) fun _ => rfl
  · exact bind_kind fun k hk => ok_add s (infeedFrom_kind hk) id id fun _ => rfl

theorem endFrom_kind {l : Str} {st : FileSettings} {k : Kind} (h : endFrom l st = .ok k) : ∀ n c, k ≠ .toolSel n c := by
  unfold endFrom at h
  cases e : reEnd.pyMatch l with
  | none => rw [e] at h; cases h
  | some r =>
    rw [e] at h
    obtain ⟨x, -, h⟩ := bindOk h
    obtain ⟨y, -, h⟩ := bindOk h
    cases h
    simp

theorem dispatch_renumber {s : PState} {l : Str} (hn : Named s l) (hT : startsWith "T".toList l = false) :
    (s.renumber σ).dispatch l = (s.dispatch l).map (PState.renumber σ) := by
  unfold PState.dispatch
  refine ite_renumber Iff.rfl (fun _ => commentLine_renumber s l) fun _ =>
    ite_renumber Iff.rfl (fun _ => ok_add s (by simp) (fun t => { t with state := _ }) (fun t => { t with state := _ }) fun _ => rfl)
    fun _ => ite_renumber Iff.rfl (fun _ => ok_add s (by simp) (fun t => { t with state := _ }) (fun t => { t with state := _ })
      fun _ => rfl) fun _ => ite_renumber Iff.rfl (fun h => ?_) fun _ =>
    ite_renumber Iff.rfl (fun _ => ok_add s (by simp) (fun t => { t with state := _ }) (fun t => { t with state := _ }) fun _ => rfl)
    fun _ => ite_renumber Iff.rfl (fun _ => ok_add s (by simp) (fun t => { t with down := _ }) (fun t => { t with down := _ })
      fun _ => rfl) fun _ =>
    ite_renumber Iff.rfl (fun _ => ok_add s (by simp) (fun t => { t with down := _ }) (fun t => { t with down := _ })
      fun _ => rfl) fun _ =>
    ite_renumber Iff.rfl (fun _ => ok_add s (by simp) (fun t => { t with down := _ }) (fun t => { t with down := _ })
      fun _ => rfl) fun _ => ite_renumber Iff.rfl (fun _ => ?_) fun _ =>
    ite_renumber Iff.rfl (fun _ => ite_renumber Iff.rfl (fun _ => rfl) fun _ => rout_renumber s l) fun _ =>
    ite_renumber Iff.rfl (fun h => ite_renumber Iff.rfl (fun _ => rfl) fun _ => linear_renumber ?_ l) fun _ =>
    ite_renumber Iff.rfl (fun _ => ok_add s (by simp) (fun t => { t with down := _, state := _ })
      (fun t => { t with down := _, state := _ }) fun _ => rfl) fun _ => dispatchSettings_renumber hn.drill hT
  · simp only [Bool.and_eq_true, decide_eq_true_eq] at h
    rw [hn.next h.2] at h
    exact absurd h.1 (by simp)
  · exact bind_value (x := s.settings) fun st => bind_kind fun k hk => ok_add s (endFrom_kind hk) id id fun _ => rfl
  · intro e
    have h : startsWith "G01".toList l = true := h
    rw [hn.drill e "G01" (by simp)] at h
    cases h

/-! ## Lines with tools -/

theorem command_renumber (st : FileSettings) (t : Tool) {cv : Char × Str} (h : cv.1 ≠ 'T') :
    Tool.command st (t.renumber σ) cv = (Tool.command st t cv).map (Tool.renumber σ) := by
  unfold Tool.command
  rw [if_neg h]
  split_ifs <;> first
    | rfl
    | (cases value st cv.2 <;> rfl)

theorem commands_renumber (st : FileSettings) {l : List (Char × Str)} (h : ∀ x ∈ l, x.1 ≠ 'T') : ∀ t : Tool,
    l.foldlM (fun (t : Tool) cv => t.command st cv) (t.renumber σ) = (l.foldlM (fun (t : Tool) cv => t.command st cv) t).map (Tool.renumber σ) := by
  induction l with
  | nil => intro t; rfl
  | cons x l ih =>
    intro t
    rw [List.foldlM_cons, List.foldlM_cons, command_renumber st t (h x (by simp))]
    cases Tool.command st t x with
    | error e => rfl
    | ok u => exact ih (fun y hy => h y (by simp [hy])) u

theorem fromExcellon_renumber {n n' : Str} {l : List (Char × Str)} (h1 : n ≠ []) (h2 : n.all isDig = true) (h1' : n' ≠ [])
    (h2' : n'.all isDig = true) (hv : (natVal n' : ℤ) = σ (natVal n))
    (hl : ∀ x ∈ l, x.1 ∈ ['B', 'C', 'F', 'H', 'S', 'Z'] ∧ x.2.all isVal = true) (st : FileSettings) (p : Option String) :
    Tool.fromExcellon ('T' :: (n' ++ segText l)) st p =
      (Tool.fromExcellon ('T' :: (n ++ segText l)) st p).map (Tool.renumber σ) := by
  unfold Tool.fromExcellon
  rw [commands_line h2 hl, commands_line h2' hl, List.foldlM_cons, List.foldlM_cons]
  have e : ∀ {m : Str}, m ≠ [] → m.all isDig = true → Tool.command st { settings := some st, number := 0, plated := p } ('T', m) =
      .ok { settings := some st, number := natVal m, plated := p } := by
    intro m hm hd
    simp only [Tool.command, Char.reduceEq, if_true, if_false]
    rw [pyInt_digits' hd hm]
    rfl
  rw [e h1 h2, e h1' h2']
  change List.foldlM _ _ l = Except.map _ (List.foldlM _ _ l)
  rw [← commands_renumber st (fun x hx => ?_), Tool.renumber, hv]
  intro e
  have := (hl x hx).1
  rw [e] at this
  revert this
  decide

theorem mergeProperties_renumber (hσ : Function.Injective σ) (s : PState) (t : Tool) :
    (s.renumber σ).mergeProperties (t.renumber σ) = (s.mergeProperties t).renumber σ := by
  unfold PState.mergeProperties
  have e : dictGet (s.renumber σ).ext (t.renumber σ).number = dictGet s.ext t.number := dictGet_renumbered hσ _ _
  rw [e]
  by_cases hp : t.plated = none
  · rw [if_pos hp, if_pos (show (t.renumber σ).plated = none from hp)]
    cases dictGet s.ext t.number with
    | none => rfl
    | some r =>
      have e2 : (s.renumber σ).heap[r]? = (s.heap[r]?).map (Tool.renumber σ) := by simp [PState.renumber]
      simp only [e2]
      cases s.heap[r]? <;> rfl
  · rw [if_neg hp, if_neg (show (t.renumber σ).plated ≠ none from hp)]

theorem defineTool_renumber (hσ : Function.Injective σ) {s : PState} {t t' : Str} (ht : ('T' :: t).all toolCh = true)
    (ht' : ('T' :: t').all toolCh = true)
    (h : ∀ st p, Tool.fromExcellon ('T' :: t') st p = (Tool.fromExcellon ('T' :: t) st p).map (Tool.renumber σ)) :
    (s.renumber σ).defineTool ('T' :: t') = (s.defineTool ('T' :: t)).map (PState.renumber σ) := by
  obtain ⟨_, _, h1, h2⟩ := toolLine_dispatch ht s
  obtain ⟨_, _, h3, h4⟩ := toolLine_dispatch ht' s
  unfold PState.defineTool
  simp only [h1, h2, h3, h4, h, Bool.not_false, Bool.and_self, if_true]
  refine bind_value (x := s.settings) fun st => ?_
  have e : (s.renumber σ).plated = s.plated := rfl
  rw [e]
  cases Tool.fromExcellon ('T' :: t) st s.plated with
  | error e => rfl
  | ok u =>
    have e1 := mergeProperties_renumber hσ s u
    have e3 := dictSet_renumbered hσ s.tools (s.mergeProperties u).number s.heap.length
    simp only [bind, Except.bind, Except.map, e1, PState.add]
    simp [PState.renumber, Stmt.renumber, ← e3]
    simp [Tool.renumber]

theorem selectTool_renumber (hσ : Function.Injective σ) (h0 : σ 0 = 0) {s : PState} {n n' : Str} (h1 : n ≠ [])
    (h2 : n.all isDig = true) (h3 : n.length ≤ 3) (h1' : n' ≠ []) (h2' : n'.all isDig = true) (h3' : n'.length ≤ 3)
    (hv : (natVal n' : ℤ) = σ (natVal n)) (hk : (natVal n : ℤ) = 0 ∨ (natVal n : ℤ) ∈ (s.tools ++ s.comments ++ s.ext).map (·.1)) :
    (s.renumber σ).selectTool ('T' :: n') = (s.selectTool ('T' :: n)).map (PState.renumber σ) := by
  have sel : ∀ {m : Str}, m ≠ [] → m.all isDig = true → m.length ≤ 3 → toolSelFrom ('T' :: m) = .ok (.toolSel (natVal m) none) := by
    intro m hm hd hl
    unfold toolSelFrom
    simp only [List.drop_succ_cons, List.drop_zero, if_pos hl, pyInt_digits' hd hm]
    rfl
  unfold PState.selectTool
  rw [sel h1 h2 h3, sel h1' h2' h3', hv]
  have ea : (s.renumber σ).add (.toolSel (σ (natVal n)) none) = (s.add (.toolSel (natVal n) none)).renumber σ := by
    simp [PState.renumber, PState.add, Stmt.renumber]
  simp only [bind, Except.bind, ea]
  have hz : σ (natVal n) = 0 ↔ (natVal n : ℤ) = 0 := ⟨fun e => hσ (e.trans h0.symm), fun e => by rw [e, h0]⟩
  refine ite_renumber hz (fun _ => rfl) fun hne => ?_
  have hk := hk.resolve_left hne
  rw [getTool_renumber hσ]
  have hs : ∀ r t, PState.getTool (s.add (.toolSel (natVal n) none)) (natVal n) = .ok (r, t) → r ≠ none := by
    intro r t h
    unfold PState.getTool at h
    have e1 : ∀ k, (s.add k).tools = s.tools := fun _ => rfl
    have e2 : ∀ k, (s.add k).comments = s.comments := fun _ => rfl
    have e3 : ∀ k, (s.add k).ext = s.ext := fun _ => rfl
    rw [e1, e2, e3] at h
    rw [List.map_append, List.map_append, List.mem_append, List.mem_append] at hk
    cases f1 : dictGet s.tools (natVal n : ℤ) with
    | some r => rw [f1] at h; cases h; simp
    | none =>
      rw [f1] at h
      cases f2 : dictGet s.comments (natVal n : ℤ) with
      | some r =>
        rw [f2] at h
        obtain ⟨_, -, h⟩ := bindOk h
        cases h; simp
      | none =>
        rw [f2] at h
        cases f3 : dictGet s.ext (natVal n : ℤ) with
        | some r =>
          rw [f3] at h
          obtain ⟨_, -, h⟩ := bindOk h
          cases h; simp
        | none =>
          rcases hk with (hk | hk) | hk
          · exact absurd f1 (dictGet_known hk)
          · exact absurd f2 (dictGet_known hk)
          · exact absurd f3 (dictGet_known hk)
  cases e : PState.getTool (s.add (.toolSel (natVal n) none)) (natVal n) with
  | error _ => rfl
  | ok x =>
    obtain ⟨r, t⟩ := x
    cases r with
    | none => exact absurd rfl (hs _ _ e)
    | some r => rfl

/-! ## All lines -/

theorem parseLine_renumber (hσ : Function.Injective σ) (h0 : σ 0 = 0) {b : Bool} {l l' : Str} (h : Renumbered σ b l l')
    {s : PState} (hk : Kept b s) (hn : Named s (s.prev ++ l)) :
    (s.renumber σ).parseLine l' = (s.parseLine l).map (PState.renumber σ) := by
  have hn' : Named { s with prev := [] } (s.prev ++ l) := ⟨hn.next, hn.drill, hn.known⟩
  have tools : ∀ {t t' : Str}, s.prev = [] → ('T' :: t).all toolCh = true → ('T' :: t').all toolCh = true →
      (∀ st p, Tool.fromExcellon ('T' :: t') st p = (Tool.fromExcellon ('T' :: t) st p).map (Tool.renumber σ)) →
      (s.state ≠ "HEADER" → (PState.renumber σ { s with prev := [] }).selectTool ('T' :: t') =
        (PState.selectTool { s with prev := [] } ('T' :: t)).map (PState.renumber σ)) →
      (s.renumber σ).parseLine ('T' :: t') = (s.parseLine ('T' :: t)).map (PState.renumber σ) := by
    intro t t' hp ht ht' hf hs
    have e : (s.renumber σ).prev = s.prev := rfl
    unfold PState.parseLine
    simp only [e, hp, List.nil_append]
    rw [(toolLine_dispatch ht s).2.1, (toolLine_dispatch ht' s).2.1, if_neg (by simp), if_neg (by simp),
      (toolLine_dispatch ht _).1, (toolLine_dispatch ht' _).1]
    exact ite_renumber Iff.rfl (fun _ => defineTool_renumber (s := { s with prev := [] }) hσ ht ht' hf) hs
  cases h with
  | same _ hT =>
    unfold PState.parseLine
    have e : (s.renumber σ).prev = s.prev := rfl
    rw [e]
    refine ite_renumber Iff.rfl (fun _ => rfl) fun _ => dispatch_renumber (s := { s with prev := [] }) hn' ?_
    unfold Kept at hk
    cases b with
    | false =>
      have hk : s.prev = [] := hk
      rw [hk, List.nil_append]
      cases l with
      | nil => rfl
      | cons c l =>
        have : c ≠ 'T' := by simpa using hT
        change (('T' == c) && List.isPrefixOf [] l) = false
        simp [Ne.symm this]
    | true =>
      have hk : s.prev = "G00".toList ∨ s.prev = "G01".toList := hk
      rcases hk with hk | hk <;> rw [hk] <;> rfl
  | @select n n' h1 h2 h3 h1' h2' h3' hv =>
    have hk : s.prev = [] := hk
    have e : ∀ n : Str, n = n ++ segText [] := fun n => by simp [segText]
    have a : ∀ {n : Str}, n.all isDig = true → ('T' :: n).all toolCh = true := by
      intro n hn
      have := toolLine_all (l := []) hn (by simp)
      rwa [← e] at this
    refine tools hk (a h2) (a h2') (fun st p => ?_) fun hs => ?_
    · have := fromExcellon_renumber (l := []) h1 h2 h1' h2' hv (by simp) st p
      rwa [← e, ← e] at this
    · refine selectTool_renumber (s := { s with prev := [] }) hσ h0 h1 h2 h3 h1' h2' h3' hv ?_
      refine hn.known (by rw [hk]; rfl) hs (natVal n) none ?_
      rw [hk]
      unfold toolSelFrom
      simp only [List.nil_append, List.drop_succ_cons, List.drop_zero, if_pos h3, pyInt_digits' h2 h1]
      rfl
  | @define n n' l h1 h2 h1' h2' hv hne hl =>
    have hk : s.prev = [] := hk
    refine tools hk (toolLine_all h2 hl) (toolLine_all h2' hl) (fun st p => fromExcellon_renumber h1 h2 h1' h2' hv hl st p)
      fun _ => ?_
    have key : ∀ {n : Str}, toolSelFrom ('T' :: (n ++ segText l)) = .error .valueError := by
      intro n
      cases l with
      | nil => exact absurd rfl hne
      | cons x l =>
        refine select_letter (isCmd_of_mem (hl x (by simp)).1) ?_
        simp [segText]
    unfold PState.selectTool
    rw [key, key]
    rfl

theorem run_renumber (hσ : Function.Injective σ) (h0 : σ 0 = 0) {b : Bool} {a a' : List Str} (h : RenumberedLines σ b a a') :
    ∀ s : PState, Kept b s → AllNamed s a → (s.renumber σ).run a' = (s.run a).map (PState.renumber σ) := by
  induction h with
  | nil => intro s _ _; rfl
  | @cons b l l' a a' hl _ ih =>
    intro s hk hn
    have e := parseLine_renumber hσ h0 hl hk (hn [] l a s rfl rfl)
    unfold PState.run at ih ⊢
    rw [List.foldlM_cons, List.foldlM_cons, e]
    cases hp : s.parseLine (strip l) with
    | error _ => rfl
    | ok t =>
      refine ih t (kept_line hk hp) fun before line after u hu hr => ?_
      refine hn (l :: before) line after u (by rw [hu]; rfl) ?_
      unfold PState.run at hr ⊢
      rw [List.foldlM_cons, hp]
      exact hr

/-- **C99.**  A drill file whose tools have other numbers, in all definitions, selections and tables of external tools,
reads as the same file with other numbers, or fails with the same error, if it has no `M00` while drilling, drills with
selected tools only and selects defined tools only. -/
theorem C99_numbers_partial (hσ : Function.Injective σ) (h0 : σ 0 = 0) {settings : Option FileSettings} {ext : List (ℤ × Tool)}
    {a a' : List Str} (ha : ∀ l ∈ a, '\n' ∉ l) (ha' : ∀ l ∈ a', '\n' ∉ l) (h : RenumberedLines σ false a a')
    (hn : AllNamed (.init settings ext) a) :
    parseRaw settings (ext.map fun x => (σ x.1, x.2.renumber σ)) (unlines a') =
      (parseRaw settings ext (unlines a)).map (XFile.renumber σ) := by
  have hi : PState.init settings (ext.map fun x => (σ x.1, x.2.renumber σ)) = (PState.init settings ext).renumber σ := by
    simp only [PState.init, PState.renumber, renumbered, List.map_nil, List.map_map, PState.mk.injEq, true_and, and_true]
    refine ⟨?_, ?_⟩
    · exact List.map_congr_left fun x _ => rfl
    · apply List.ext_getElem <;> simp
  unfold parseRaw
  rw [pyLines_unlines ha, pyLines_unlines ha', hi, run_renumber hσ h0 h (.init settings ext) rfl hn]
  cases (PState.init settings ext).run a with
  | error _ => rfl
  | ok s =>
    change (s.renumber σ).finish = Except.map _ s.finish
    unfold PState.finish
    rw [settings_renumber]
    cases s.settings with
    | error _ => rfl
    | ok st =>
      simp only [bind, Except.bind, Except.map, XFile.renumber, PState.renumber, List.map_map, Except.ok.injEq,
        XFile.mk.injEq, and_true]
      refine List.map_congr_left fun x _ => ?_
      obtain ⟨u, k⟩ := x
      cases k <;> rfl

/-- **C99** (holes).  Such files have the same holes and slots in the same order with tools that differ in their numbers
only, the same settings and the same number of tools. -/
theorem C99_holes_partial (hσ : Function.Injective σ) (h0 : σ 0 = 0) {settings : Option FileSettings} {a a' : List Str}
    (ha : ∀ l ∈ a, '\n' ∉ l) (ha' : ∀ l ∈ a', '\n' ∉ l) (h : RenumberedLines σ false a a')
    (hn : AllNamed (.init settings []) a) {f : XFile} (hf : parseRaw settings [] (unlines a) = .ok f) :
    ∃ g, parseRaw settings [] (unlines a') = .ok g ∧ g.hits = f.hits ∧ g.cam = f.cam ∧
      (∀ r : ℕ, g.heap[r]? = (f.heap[r]?).map fun t => { t with number := σ t.number }) ∧
      ∀ n : ℤ, dictGet g.tools (σ n) = dictGet f.tools n := by
  refine ⟨f.renumber σ, ?_, rfl, rfl, fun r => ?_, fun n => dictGet_renumbered hσ _ _⟩
  · have := C99_numbers_partial hσ h0 (ext := []) ha ha' h hn
    rw [hf] at this
    exact this
  · simp only [XFile.renumber, List.getElem?_map]
    rfl

/-! ## A test for the hypothesis -/

/-- The test for `Named`. -/
def isNamed (s : PState) (line : Str) : Bool :=
  !(decide (s.state = "DRILL") && startsWith "M00".toList line) &&
  !(decide (s.active = none) && (startsWith "X".toList line || startsWith "Y".toList line || startsWith "G01".toList line)) &&
  !(startsWith "T".toList line && decide (s.state ≠ "HEADER") && match toolSelFrom line with
    | .ok (.toolSel n _) => decide (n ≠ 0) && !((s.tools ++ s.comments ++ s.ext).map (·.1)).contains n
    | _ => false)

/-- The test for `AllNamed`. -/
def areNamed (s : PState) : List Str → Bool
  | [] => true
  | l :: a => isNamed s (s.prev ++ strip l) && match s.parseLine (strip l) with
    | .ok t => areNamed t a
    | .error _ => true

theorem isNamed_sound {s : PState} {l : Str} (h : isNamed s l = true) : Named s l := by
  simp only [isNamed, Bool.and_eq_true, Bool.not_eq_true', Bool.and_eq_false_iff, Bool.or_eq_false_iff,
    decide_eq_false_iff_not] at h
  obtain ⟨⟨h1, h2⟩, h3⟩ := h
  refine ⟨fun e => h1.resolve_left fun x => x e, fun e w hw => ?_, fun hT hs n c hsel => ?_⟩
  · obtain ⟨⟨a, b⟩, c⟩ := h2.resolve_left fun x => x e
    simp only [List.mem_cons, List.not_mem_nil, or_false] at hw
    rcases hw with rfl | rfl | rfl
    · exact a
    · exact b
    · exact c
  · rw [hT, hsel] at h3
    simp only [Bool.true_eq_false, false_or, ne_eq, not_not, hs, Bool.and_eq_false_iff, decide_eq_false_iff_not,
      Bool.not_eq_false', List.contains_iff_mem] at h3
    exact h3

theorem areNamed_sound : ∀ {a : List Str} {s : PState}, areNamed s a = true → AllNamed s a := by
  intro a
  induction a with
  | nil =>
    intro s _ before line after t h
    simp at h
  | cons l a ih =>
    intro s h before line after t e hr
    simp only [areNamed, Bool.and_eq_true] at h
    cases before with
    | nil =>
      simp only [List.nil_append, List.cons.injEq] at e
      cases hr
      rw [← e.1]
      exact isNamed_sound h.1
    | cons b before =>
      simp only [List.cons_append, List.cons.injEq] at e
      obtain ⟨rfl, e⟩ := e
      unfold PState.run at hr
      rw [List.foldlM_cons] at hr
      obtain ⟨u, hu, hr⟩ := bindOk hr
      rw [hu] at h
      exact ih h.2 before line after t e hr

/-! ## Examples and violations -/

/-- The numbers of the tools 1 and 2 are exchanged. -/
def exchanged (n : ℤ) : ℤ := if n = 1 then 2 else if n = 2 then 1 else n

example : Function.Injective exchanged ∧ exchanged 0 = 0 := by
  refine ⟨fun a b h => ?_, rfl⟩
  unfold exchanged at h
  split_ifs at h <;> omega

-- the hypotheses of C99_numbers_partial
example : RenumberedLines exchanged false (["M48", "INCH,LZ", "T1C0.02", "T2C0.03", "%", "T2", "X01Y02"].map String.toList)
    (["M48", "INCH,LZ", "T02C0.02", "T1C0.03", "%", " T01", "X01Y02"].map String.toList) := by
  have d1 : Renumbered exchanged false ('T' :: (['1'] ++ segText [('C', "0.02".toList)]))
      ('T' :: (['0', '2'] ++ segText [('C', "0.02".toList)])) :=
    .define (by decide) (by decide) (by decide) (by decide) (by decide) (by decide) (by decide)
  have d2 : Renumbered exchanged false ('T' :: (['2'] ++ segText [('C', "0.03".toList)]))
      ('T' :: (['1'] ++ segText [('C', "0.03".toList)])) :=
    .define (by decide) (by decide) (by decide) (by decide) (by decide) (by decide) (by decide)
  have d3 : Renumbered exchanged false ('T' :: ['2']) ('T' :: ['0', '1']) :=
    .select (by decide) (by decide) (by decide) (by decide) (by decide) (by decide) (by decide)
  exact .cons (.same _ (by decide)) (.cons (.same _ (by decide)) (.cons d1 (.cons d2 (.cons (.same _ (by decide)) (.cons d3
    (.cons (.same _ (by decide)) (.nil _)))))))

example : AllNamed (.init none []) (["M48", "INCH,LZ", "T1C0.02", "T2C0.03", "%", "T2", "X01Y02"].map String.toList) :=
  areNamed_sound (by decide +kernel)

/-- The positions and the diameters of the holes of a file. -/
def drilledBy (l : List String) : Option (List (ℚ × ℚ) × List (Option ℚ)) :=
  match parseRaw none [] (prog l) with
  | .ok f => some (f.hits.filterMap fun h => match h with | .hole _ p => some p | _ => none,
      f.hits.map fun h => (h.tool.bind fun r => f.heap[r]?).bind (·.diameter))
  | .error _ => none

-- the files of the example make the same holes
example : drilledBy ["M48", "INCH,LZ", "T1C0.02", "T2C0.03", "%", "T2", "X01Y02"] = some ([(1, 2)], [some (3 / 100)]) ∧
    drilledBy ["M48", "INCH,LZ", "T02C0.02", "T1C0.03", "%", " T01", "X01Y02"] = some ([(1, 2)], [some (3 / 100)]) := by decide +kernel

/-- **C99 fails** for a tool that is never defined: its diameter depends on its number. -/
theorem C99_undefined_violated : drilledBy ["M48", "INCH,LZ", "%", "T1", "X01Y02"] = some ([(1, 2)], [some (24 / 1000)]) ∧
    drilledBy ["M48", "INCH,LZ", "%", "T2", "X01Y02"] = some ([(1, 2)], [some (32 / 1000)]) := by decide +kernel

/-- **C99 fails** for a file that drills before it selects a tool: it drills with the tool of the number 1. -/
theorem C99_first_violated : drilledBy ["M48", "INCH,LZ", "T1C0.02", "T2C0.03", "%", "X01Y02"] = some ([(1, 2)], [some (2 / 100)]) ∧
    drilledBy ["M48", "INCH,LZ", "T2C0.02", "T1C0.03", "%", "X01Y02"] = some ([(1, 2)], [some (3 / 100)]) := by decide +kernel

/-- **C99 fails** for `M00`, which selects the tool with the next number, if there is one. -/
theorem C99_next_violated : drilledBy ["M48", "INCH,LZ", "T1C0.02", "T2C0.03", "%", "T1", "X01Y02", "M00", "X02Y02"] =
      some ([(1, 2), (2, 2)], [some (2 / 100), some (3 / 100)]) ∧
    drilledBy ["M48", "INCH,LZ", "T1C0.02", "T3C0.03", "%", "T1", "X01Y02", "M00", "X02Y02"] =
      some ([(1, 2), (2, 2)], [some (2 / 100), some (2 / 100)]) := by decide +kernel

end Verif.Excellon
