import Verif.Model.IpcLists
import Verif.Props.IpcRecord

/-! # C97: the records of a netlist are those of its lines, and remarks make no difference -/

namespace Verif.Ipc
open Verif.Py

/-! ## Specification -/

/-- A line with a remark. -/
def isRemark (l : Str) : Bool := l.head? == some 'C'

/-- A line with a parameter. -/
def isParam (l : Str) : Bool := l.head? == some 'P'

/-- A line that begins with one of the codes, and so with a digit. -/
def hasCode (codes : List String) (l : Str) : Bool := codes.any fun c => c.toList.isPrefixOf l

/-- The unit behind a line: a parameter `UNITS` sets it. -/
def unitOf (u : String) (l : Str) : String :=
  if isParam l then
    match paramFromLine l with
    | .ok (name, v) =>
      if name = "UNITS".toList ∧ v ∈ ["CUST".toList, "CUST 0".toList, "CUST 2".toList] then "inch"
      else if name = "UNITS".toList ∧ v = "CUST 1".toList then "metric"
      else u
    | .error _ => u
  else u

/-- The outlines of the lines, each read in the unit that was last set before it. -/
def outlinesFrom : String → List Str → PyR (List Rec)
  | _, [] => .ok []
  | u, l :: ls =>
    if hasCode ["389"] l then do
      let o ← outlineFromLine l u
      let r ← outlinesFrom u ls
      .ok (o :: r)
    else outlinesFrom (unitOf u l) ls

/-- All that can be asked of a netlist, apart from its remarks. -/
structure Views where
  params : List (Str × Str)
  tests : List TestRec
  nets : PyR (List (Str × List Str))
  components : List Str
  vias : List Str
  outlines : List (Str × List (ℚ × ℚ))
  adjacency : List (Str × List Str)
  units : String
  angle : String
  primitives : List ((ℚ × ℚ) × Str × String)

/-- What can be asked of a netlist. -/
def views (n : Netlist) : Views :=
  ⟨parameters n.statements, testRecords n.statements, nets n.statements, components n.statements, vias n.statements,
    outlines n.statements, adjacencyRecords n.statements, n.units, n.angle, n.primitives⟩

/-! ## Remarks -/

/-- A record that is no remark. -/
def notComment : Rec → Bool
  | .comment _ => false
  | _ => true

/-- The parser without the remarks. -/
def Parser.bare (p : Parser) : Parser := { p with statements := p.statements.filter notComment }

/-- The netlist without the remarks. -/
def Netlist.bare (n : Netlist) : Netlist := { n with statements := n.statements.filter notComment }

theorem add_bare (p : Parser) (r : Rec) : (p.add r).bare = (p.bare.add r).bare := by
  simp [Parser.add, Parser.bare]

theorem setUnits_bare (p : Parser) (a b : Str) : (p.setUnits a b).bare = p.bare.setUnits a b := by
  unfold Parser.setUnits
  split
  · split
    · rfl
    · split
      · rfl
      · split <;> rfl
  · rfl

theorem param_bare (p : Parser) (a b : Str) : (p.param a b).bare = (p.bare.param a b).bare := by
  unfold Parser.param
  simp only
  rw [← setUnits_bare]
  have h : (Parser.add (p.setUnits a b).bare (.param a b)).nnames = (Parser.add (p.setUnits a b) (.param a b)).nnames := rfl
  split
  · simp [Parser.add, Parser.bare]
  · exact add_bare _ _

theorem parseLine_bare (p : Parser) (l : Str) : (p.parseLine l).map Parser.bare = (p.bare.parseLine l).map Parser.bare := by
  have hs : ∀ r, p.bare.substNet r = p.substNet r := fun _ => rfl
  unfold Parser.parseLine
  split
  · simp [Except.map, Parser.bare]
  · rename_i c t
    have hu : p.bare.units = p.units := rfl
    have ha : p.bare.angle = p.angle := rfl
    simp only [hs, hu, ha]
    repeat' split
    all_goals simp only [bind, Except.bind, Except.map]
    · rw [add_bare]
    · cases paramFromLine (c :: t) with
      | error e => rfl
      | ok v => simp only; rw [param_bare]
    · rw [add_bare]
    · cases TestRec.fromLine (c :: t) p.units p.angle with
      | error e => rfl
      | ok v => simp only; rw [add_bare]
    · cases conductorFromLine (c :: t) p.units with
      | error e => rfl
      | ok v => simp only; rw [add_bare]
    · cases adjacencyFromLine (c :: t) with
      | error e => rfl
      | ok v => simp only; rw [add_bare]
    · cases outlineFromLine (c :: t) p.units with
      | error e => rfl
      | ok v => simp only; rw [add_bare]
    · simp [Parser.bare]

theorem parseLine_remark (p : Parser) {l : Str} (h : isRemark l = true) :
    p.parseLine l = .ok (p.add (.comment (strip (l.drop 2)))) := by
  cases l with
  | nil => simp [isRemark] at h
  | cons c t =>
    simp only [isRemark, List.head?_cons, beq_iff_eq, Option.some.injEq] at h
    subst h
    rfl

theorem fold_bare (ls : List Str) : ∀ p q : Parser, p.bare = q.bare →
    (ls.foldlM Parser.parseLine p).map Parser.bare =
      ((ls.filter fun l => !isRemark l).foldlM Parser.parseLine q).map Parser.bare := by
  induction ls with
  | nil => intro p q h; simp [pure, Except.pure, Except.map, h]
  | cons l ls ih =>
    intro p q h
    rw [List.foldlM_cons]
    by_cases hr : isRemark l = true
    · rw [parseLine_remark p hr, List.filter_cons_of_neg (by simpa using hr)]
      exact ih _ _ (by rw [← h]; simp [Parser.add, Parser.bare, notComment])
    · rw [List.filter_cons_of_pos (by simpa using hr), List.foldlM_cons]
      have e := parseLine_bare p l
      rw [h, ← parseLine_bare q l] at e
      cases hp : p.parseLine l with
      | error x =>
        cases hq : q.parseLine l with
        | error y => rw [hp, hq] at e; cases e; rfl
        | ok y => rw [hp, hq] at e; cases e
      | ok x =>
        cases hq : q.parseLine l with
        | error y => rw [hp, hq] at e; cases e
        | ok y =>
          rw [hp, hq] at e
          simp only [Except.map, Except.ok.injEq] at e
          exact ih _ _ e

theorem testRecords_bare (ss : List Rec) : testRecords (ss.filter notComment) = testRecords ss := by
  unfold testRecords
  rw [List.filterMap_filter]
  congr 1
  funext r
  cases r <;> rfl

theorem finish_bare (p : Parser) : (p.finish).map Netlist.bare = (p.bare.finish).map Netlist.bare := by
  unfold Parser.finish
  have : testRecords p.bare.statements = testRecords p.statements := testRecords_bare _
  rw [this]
  cases (testRecords p.statements).mapM testPrimitive with
  | error e => rfl
  | ok v => simp [bind, Except.bind, Except.map, Netlist.bare, Parser.bare]

theorem views_bare (n : Netlist) : views n.bare = views n := by
  have h1 : ∀ ss, parameters (ss.filter notComment) = parameters ss := by
    intro ss
    unfold parameters
    rw [List.filterMap_filter]
    congr 1
    funext r
    cases r <;> rfl
  have h2 : ∀ ss, outlines (ss.filter notComment) = outlines ss := by
    intro ss
    unfold outlines
    rw [List.filterMap_filter]
    congr 1
    funext r
    cases r <;> rfl
  have h3 : ∀ ss, adjacencyRecords (ss.filter notComment) = adjacencyRecords ss := by
    intro ss
    unfold adjacencyRecords
    rw [List.filterMap_filter]
    congr 1
    funext r
    cases r <;> rfl
  simp only [views, Netlist.bare, nets, adjacentNets, components, vias, h1, h2, h3, testRecords_bare]

/-- **C97** (remarks).  Two netlist texts whose lines are the same apart from remarks answer every question the same, or fail
with the same error; it makes no difference where the lines were cut. -/
theorem C97_remarks_partial {eol eol' : Str} (he : IsEol eol) (he' : IsEol eol') {ls ls' : List Logical}
    (h : ∀ l ∈ ls, l.Good) (h' : ∀ l ∈ ls', l.Good)
    (hr : (ls.map Logical.whole).filter (fun l => !isRemark l) = (ls'.map Logical.whole).filter fun l => !isRemark l) :
    (parseRaw (text eol (ls.flatMap Logical.physical))).map views =
      (parseRaw (text eol' (ls'.flatMap Logical.physical))).map views := by
  rw [parseRaw_physical he ls h, parseRaw_physical he' ls' h']
  have e1 := fold_bare (ls.map Logical.whole) {} {} rfl
  have e2 := fold_bare (ls'.map Logical.whole) {} {} rfl
  rw [hr, ← e2] at e1
  have fin : ∀ p : Parser, p.finish.map views = (p.bare.finish).map views := by
    intro p
    have := congrArg (Except.map views) (finish_bare p)
    have hv : ∀ x : PyR Netlist, (x.map Netlist.bare).map views = x.map views := by
      intro x
      cases x with
      | error e => rfl
      | ok n => simp [Except.map, views_bare]
    rwa [hv, hv] at this
  cases h1 : (ls.map Logical.whole).foldlM Parser.parseLine {} with
  | error e =>
    cases h2 : (ls'.map Logical.whole).foldlM Parser.parseLine {} with
    | error e' => rw [h1, h2] at e1; cases e1; rfl
    | ok q => rw [h1, h2] at e1; cases e1
  | ok p =>
    cases h2 : (ls'.map Logical.whole).foldlM Parser.parseLine {} with
    | error e' => rw [h1, h2] at e1; cases e1
    | ok q =>
      rw [h1, h2] at e1
      simp only [Except.map, Except.ok.injEq] at e1
      simp only [Except.bind]
      rw [fin p, fin q, e1]

/-! ## The records of the lines -/

/-- What a line adds to the lists of remarks, parameters, test records, outlines and adjacencies. -/
structure Adds (p q : Parser) (l : Str) : Prop where
  remarks : comments q.statements = comments p.statements ++ if isRemark l then [strip (l.drop 2)] else []
  params : (isParam l = false ∧ parameters q.statements = parameters p.statements) ∨
    (isParam l = true ∧ ∃ nv, paramFromLine l = .ok nv ∧ parameters q.statements = parameters p.statements ++ [nv])
  tests : (testRecords q.statements).length = (testRecords p.statements).length +
    if hasCode ["317", "327", "367"] l then 1 else 0
  outlines : (hasCode ["389"] l = false ∧ outlines q.statements = Ipc.outlines p.statements) ∨
    (hasCode ["389"] l = true ∧ ∃ o, outlineFromLine l p.units = .ok (.outline o.1 o.2) ∧
      Ipc.outlines q.statements = Ipc.outlines p.statements ++ [o])
  adjacency : (hasCode ["379"] l = false ∧ adjacencyRecords q.statements = adjacencyRecords p.statements) ∨
    (hasCode ["379"] l = true ∧ ∃ a, adjacencyFromLine l = .ok (.adjacency a.1 a.2) ∧
      adjacencyRecords q.statements = adjacencyRecords p.statements ++ [a])

theorem slice3 {l : Str} {a b c : Char} : slice 0 3 l = [a, b, c] ↔ [a, b, c].isPrefixOf l = true := by
  unfold slice
  rw [List.isPrefixOf_iff_prefix, List.prefix_iff_eq_take, List.drop_zero]
  exact ⟨fun h => h.symm, fun h => h.symm⟩

theorem code_test (l : Str) : hasCode ["317", "327", "367"] l = true ↔
    slice 0 3 l ∈ [['3', '1', '7'], ['3', '2', '7'], ['3', '6', '7']] := by
  simp only [List.mem_cons, List.not_mem_nil, or_false, slice3, hasCode, List.any_cons, List.any_nil, Bool.or_false,
    Bool.or_eq_true]
  exact Iff.rfl

theorem code_one {a b c : Char} (l : Str) : hasCode [String.ofList [a, b, c]] l = true ↔ slice 0 3 l = [a, b, c] := by
  simp only [slice3, hasCode, List.any_cons, List.any_nil, Bool.or_false, String.toList_ofList]

theorem parameters_add (p : Parser) (r : Rec) : parameters (p.add r).statements = parameters p.statements ++ parameters [r] := by
  simp [parameters, Parser.add]

theorem comments_add (p : Parser) (r : Rec) : comments (p.add r).statements = comments p.statements ++ comments [r] := by
  simp [comments, Parser.add]

theorem testRecords_add (p : Parser) (r : Rec) :
    testRecords (p.add r).statements = testRecords p.statements ++ testRecords [r] := by
  simp [testRecords, Parser.add]

theorem outlines_add (p : Parser) (r : Rec) : outlines (p.add r).statements = outlines p.statements ++ outlines [r] := by
  simp [outlines, Parser.add]

theorem adjacencyRecords_add (p : Parser) (r : Rec) :
    adjacencyRecords (p.add r).statements = adjacencyRecords p.statements ++ adjacencyRecords [r] := by
  simp [adjacencyRecords, Parser.add]

theorem param_statements (p : Parser) (a b : Str) : (p.param a b).statements = p.statements ++ [.param a b] := by
  have : (p.setUnits a b).statements = p.statements := by
    unfold Parser.setUnits
    repeat' split
    all_goals rfl
  unfold Parser.param
  simp only
  split <;> simp [Parser.add, this]

theorem outline_kind {l : Str} {u : String} {r : Rec} (h : outlineFromLine l u = .ok r) : ∃ t ps, r = .outline t ps := by
  unfold outlineFromLine at h
  simp only [bind, Except.bind] at h
  split at h
  · cases h
  · cases h; exact ⟨_, _, rfl⟩

theorem conductor_kind {l : Str} {u : String} {r : Rec} (h : conductorFromLine l u = .ok r) :
    ∃ n y a s, r = .conductor n y a s := by
  unfold conductorFromLine at h
  simp only [bind, Except.bind] at h
  repeat' split at h
  all_goals first | (cases h; done) | (cases h; exact ⟨_, _, _, _, rfl⟩)

theorem adjacency_kind {l : Str} {r : Rec} (h : adjacencyFromLine l = .ok r) : ∃ n a, r = .adjacency n a := by
  unfold adjacencyFromLine at h
  simp only [bind, Except.bind] at h
  repeat' split at h
  all_goals first | (cases h; done) | (cases h; exact ⟨_, _, rfl⟩)

/-- A line that adds one record. -/
theorem adds_one {p q : Parser} {l : Str} {r : Rec} (hq : q.statements = p.statements ++ [r])
    (h1 : comments [r] = if isRemark l then [strip (l.drop 2)] else [])
    (h2 : (isParam l = false ∧ parameters [r] = []) ∨ (isParam l = true ∧ ∃ nv, paramFromLine l = .ok nv ∧ parameters [r] = [nv]))
    (h3 : (testRecords [r]).length = if hasCode ["317", "327", "367"] l then 1 else 0)
    (h4 : (hasCode ["389"] l = false ∧ outlines [r] = []) ∨
      (hasCode ["389"] l = true ∧ ∃ o, outlineFromLine l p.units = .ok (.outline o.1 o.2) ∧ outlines [r] = [o]))
    (h5 : (hasCode ["379"] l = false ∧ adjacencyRecords [r] = []) ∨
      (hasCode ["379"] l = true ∧ ∃ a, adjacencyFromLine l = .ok (.adjacency a.1 a.2) ∧ adjacencyRecords [r] = [a])) :
    Adds p q l := by
  have e : q.statements = (p.add r).statements := hq
  refine ⟨?_, ?_, ?_, ?_, ?_⟩
  · rw [e, comments_add, h1]
  · rw [e, parameters_add]
    rcases h2 with ⟨h2, h6⟩ | ⟨h2, nv, h6, h7⟩
    · exact Or.inl ⟨h2, by rw [h6, List.append_nil]⟩
    · exact Or.inr ⟨h2, nv, h6, by rw [h7]⟩
  · rw [e, testRecords_add, List.length_append, h3]
  · rw [e, outlines_add]
    rcases h4 with ⟨h2, h6⟩ | ⟨h2, nv, h6, h7⟩
    · exact Or.inl ⟨h2, by rw [h6, List.append_nil]⟩
    · exact Or.inr ⟨h2, nv, h6, by rw [h7]⟩
  · rw [e, adjacencyRecords_add]
    rcases h5 with ⟨h2, h6⟩ | ⟨h2, nv, h6, h7⟩
    · exact Or.inl ⟨h2, by rw [h6, List.append_nil]⟩
    · exact Or.inr ⟨h2, nv, h6, by rw [h7]⟩

theorem parseLine_adds {p q : Parser} {l : Str} (h : p.parseLine l = .ok q) : Adds p q l := by
  have k9 : hasCode ["389"] l = true ↔ slice 0 3 l = ['3', '8', '9'] := code_one l
  have k7 : hasCode ["379"] l = true ↔ slice 0 3 l = ['3', '7', '9'] := code_one l
  have kt := code_test l
  cases l with
  | nil =>
    cases h
    exact ⟨by simp [isRemark], Or.inl ⟨rfl, rfl⟩, by simp [hasCode], Or.inl ⟨by simp [hasCode], rfl⟩, Or.inl ⟨by simp [hasCode], rfl⟩⟩
  | cons c t =>
    have hh : ∀ d w, slice 0 3 (c :: t) = d :: w → c = d := by
      intro d w hw
      simp only [slice, List.take_succ_cons, List.drop_zero, List.cons.injEq] at hw
      exact hw.1
    have hr : isRemark (c :: t) = decide (c = 'C') := by simp [isRemark]; rfl
    have hp : isParam (c :: t) = decide (c = 'P') := by simp [isParam]; rfl
    have no : c ≠ '3' → hasCode ["317", "327", "367"] (c :: t) = false ∧ hasCode ["389"] (c :: t) = false ∧
        hasCode ["379"] (c :: t) = false := by
      intro hc
      refine ⟨?_, ?_, ?_⟩ <;> rw [Bool.eq_false_iff] <;> intro hx
      · rw [kt] at hx
        simp only [List.mem_cons, List.not_mem_nil, or_false] at hx
        rcases hx with hx | hx | hx <;> exact hc (hh _ _ hx)
      · exact hc (hh _ _ (k9.1 hx))
      · exact hc (hh _ _ (k7.1 hx))
    unfold Parser.parseLine at h
    simp only [bind, Except.bind] at h
    by_cases c1 : c = 'C'
    · rw [if_pos c1] at h
      cases h
      obtain ⟨n1, n2, n3⟩ := no (by rw [c1]; decide)
      refine adds_one rfl ?_ (Or.inl ⟨by rw [hp, c1]; decide, rfl⟩) (by rw [n1]; rfl) (Or.inl ⟨n2, rfl⟩) (Or.inl ⟨n3, rfl⟩)
      rw [hr, c1]
      rfl
    rw [if_neg c1] at h
    by_cases c2 : c = 'P'
    · rw [if_pos c2] at h
      obtain ⟨n1, n2, n3⟩ := no (by rw [c2]; decide)
      cases hv : paramFromLine (c :: t) with
      | error e => rw [hv] at h; cases h
      | ok nv =>
        rw [hv] at h
        cases h
        refine adds_one (param_statements p nv.1 nv.2) ?_ (Or.inr ⟨by rw [hp, c2]; decide, nv, hv, rfl⟩) (by rw [n1]; rfl)
          (Or.inl ⟨n2, rfl⟩) (Or.inl ⟨n3, rfl⟩)
        rw [hr, c2]
        rfl
    rw [if_neg c2] at h
    have r0 : isRemark (c :: t) = false := by rw [hr]; simp [c1]
    have p0 : isParam (c :: t) = false := by rw [hp]; simp [c2]
    by_cases c3 : c = '9'
    · rw [if_pos c3] at h
      cases h
      obtain ⟨n1, n2, n3⟩ := no (by rw [c3]; decide)
      exact adds_one (r := .eof) rfl (by rw [r0]; rfl) (Or.inl ⟨p0, rfl⟩) (by rw [n1]; rfl) (Or.inl ⟨n2, rfl⟩) (Or.inl ⟨n3, rfl⟩)
    rw [if_neg c3] at h
    by_cases c4 : slice 0 3 (c :: t) ∈ [['3', '1', '7'], ['3', '2', '7'], ['3', '6', '7']]
    · rw [if_pos c4] at h
      have n1 := kt.2 c4
      have n2 : hasCode ["389"] (c :: t) = false := by
        rw [Bool.eq_false_iff]
        intro hx
        rw [k9.1 hx] at c4
        revert c4
        decide
      have n3 : hasCode ["379"] (c :: t) = false := by
        rw [Bool.eq_false_iff]
        intro hx
        rw [k7.1 hx] at c4
        revert c4
        decide
      cases hv : TestRec.fromLine (c :: t) p.units p.angle with
      | error e => rw [hv] at h; cases h
      | ok r =>
        rw [hv] at h
        cases h
        exact adds_one (r := .test (p.substNet r)) rfl (by rw [r0]; rfl) (Or.inl ⟨p0, rfl⟩) (by rw [n1]; rfl) (Or.inl ⟨n2, rfl⟩)
          (Or.inl ⟨n3, rfl⟩)
    rw [if_neg c4] at h
    have n1 : hasCode ["317", "327", "367"] (c :: t) = false := by
      rw [Bool.eq_false_iff]
      exact fun hx => c4 (kt.1 hx)
    by_cases c5 : slice 0 3 (c :: t) = ['3', '7', '8']
    · rw [if_pos c5] at h
      have n2 : hasCode ["389"] (c :: t) = false := by
        rw [Bool.eq_false_iff]
        intro hx
        rw [k9.1 hx] at c5
        revert c5
        decide
      have n3 : hasCode ["379"] (c :: t) = false := by
        rw [Bool.eq_false_iff]
        intro hx
        rw [k7.1 hx] at c5
        revert c5
        decide
      cases hv : conductorFromLine (c :: t) p.units with
      | error e => rw [hv] at h; cases h
      | ok r =>
        rw [hv] at h
        cases h
        obtain ⟨n, y, a, s, rfl⟩ := conductor_kind hv
        exact adds_one (r := .conductor n y a s) rfl (by rw [r0]; rfl) (Or.inl ⟨p0, rfl⟩) (by rw [n1]; rfl) (Or.inl ⟨n2, rfl⟩)
          (Or.inl ⟨n3, rfl⟩)
    rw [if_neg c5] at h
    by_cases c6 : slice 0 3 (c :: t) = ['3', '7', '9']
    · rw [if_pos c6] at h
      have n2 : hasCode ["389"] (c :: t) = false := by
        rw [Bool.eq_false_iff]
        intro hx
        rw [k9.1 hx] at c6
        revert c6
        decide
      have n3 := k7.2 c6
      cases hv : adjacencyFromLine (c :: t) with
      | error e => rw [hv] at h; cases h
      | ok r =>
        rw [hv] at h
        cases h
        obtain ⟨n, a, rfl⟩ := adjacency_kind hv
        exact adds_one (r := .adjacency n a) rfl (by rw [r0]; rfl) (Or.inl ⟨p0, rfl⟩) (by rw [n1]; rfl) (Or.inl ⟨n2, rfl⟩)
          (Or.inr ⟨n3, (n, a), hv, rfl⟩)
    rw [if_neg c6] at h
    have n3 : hasCode ["379"] (c :: t) = false := by
      rw [Bool.eq_false_iff]
      exact fun hx => c6 (k7.1 hx)
    by_cases c7 : slice 0 3 (c :: t) = ['3', '8', '9']
    · rw [if_pos c7] at h
      have n2 := k9.2 c7
      cases hv : outlineFromLine (c :: t) p.units with
      | error e => rw [hv] at h; cases h
      | ok r =>
        rw [hv] at h
        cases h
        obtain ⟨ty, ps, rfl⟩ := outline_kind hv
        exact adds_one (r := .outline ty ps) rfl (by rw [r0]; rfl) (Or.inl ⟨p0, rfl⟩) (by rw [n1]; rfl) (Or.inr ⟨n2, (ty, ps), hv, rfl⟩)
          (Or.inl ⟨n3, rfl⟩)
    rw [if_neg c7] at h
    cases h
    have n2 : hasCode ["389"] (c :: t) = false := by
      rw [Bool.eq_false_iff]
      exact fun hx => c7 (k9.1 hx)
    exact ⟨by rw [r0]; simp, Or.inl ⟨p0, rfl⟩, by rw [n1]; simp, Or.inl ⟨n2, rfl⟩, Or.inl ⟨n3, rfl⟩⟩

theorem parseLine_units {p q : Parser} {l : Str} (h : p.parseLine l = .ok q) : q.units = unitOf p.units l := by
  cases l with
  | nil => cases h; rfl
  | cons c t =>
    unfold Parser.parseLine at h
    simp only [bind, Except.bind] at h
    have hp : isParam (c :: t) = decide (c = 'P') := by simp [isParam]; rfl
    unfold unitOf
    rw [hp]
    by_cases c1 : c = 'C'
    · rw [if_pos c1] at h
      cases h
      subst c1
      rfl
    rw [if_neg c1] at h
    by_cases c2 : c = 'P'
    · rw [if_pos c2] at h
      simp only [c2, decide_true, if_true]
      rw [← c2]
      cases hv : paramFromLine (c :: t) with
      | error e => rw [hv] at h; cases h
      | ok nv =>
        rw [hv] at h
        cases h
        have : (p.param nv.1 nv.2).units = (p.setUnits nv.1 nv.2).units := by
          unfold Parser.param
          simp only
          split <;> rfl
        simp only
        rw [this]
        unfold Parser.setUnits
        by_cases hn : nv.1 = "UNITS".toList
        · rw [if_pos hn]
          simp only [hn, true_and, List.mem_cons, List.not_mem_nil, or_false]
          by_cases h1 : nv.2 = "CUST".toList ∨ nv.2 = "CUST 0".toList
          · rw [if_pos h1, if_pos (by rcases h1 with h1 | h1 <;> simp [h1])]
          · rw [if_neg h1]
            by_cases h2 : nv.2 = "CUST 1".toList
            · rw [if_pos h2, if_neg (by rw [h2]; decide), if_pos h2]
            · rw [if_neg h2]
              by_cases h3 : nv.2 = "CUST 2".toList
              · rw [if_pos h3, if_pos (by simp [h3])]
              · rw [if_neg h3, if_neg (by tauto), if_neg h2]
        · rw [if_neg hn, if_neg fun k => hn k.1, if_neg fun k => hn k.1]
    rw [if_neg c2] at h
    simp only [c2, decide_false, Bool.false_eq_true, if_false]
    repeat' split at h
    all_goals first | (cases h; done) | (cases h; rfl)

theorem fold_adds {ls : List Str} : ∀ {p q : Parser}, ls.foldlM Parser.parseLine p = .ok q →
    comments q.statements = comments p.statements ++ (ls.filter isRemark).map (fun l => strip (l.drop 2)) ∧
    (∃ ps, (ls.filter isParam).mapM paramFromLine = .ok ps ∧ parameters q.statements = parameters p.statements ++ ps) ∧
    (testRecords q.statements).length = (testRecords p.statements).length + (ls.filter (hasCode ["317", "327", "367"])).length ∧
    (∃ os, outlinesFrom p.units ls = .ok (os.map fun o => .outline o.1 o.2) ∧
      outlines q.statements = outlines p.statements ++ os) ∧
    ∃ as, (ls.filter (hasCode ["379"])).mapM adjacencyFromLine = .ok (as.map fun a => .adjacency a.1 a.2) ∧
      adjacencyRecords q.statements = adjacencyRecords p.statements ++ as := by
  induction ls with
  | nil =>
    intro p q h
    cases h
    exact ⟨by simp, ⟨[], rfl, by simp⟩, rfl, ⟨[], rfl, by simp⟩, ⟨[], rfl, by simp⟩⟩
  | cons l ls ih =>
    intro p q h
    rw [List.foldlM_cons] at h
    cases hp : p.parseLine l with
    | error e => rw [hp] at h; cases h
    | ok m =>
      rw [hp] at h
      obtain ⟨i1, ⟨ps, i2, i3⟩, i4, ⟨os, i5, i7⟩, as, i6, i8⟩ := ih h
      have hu := parseLine_units hp
      obtain ⟨a1, a2, a3, a4, a5⟩ := parseLine_adds hp
      have len : ∀ f : Str → Bool, ((l :: ls).filter f).length = (if f l then 1 else 0) + (ls.filter f).length := by
        intro f
        rw [List.filter_cons]
        split
        · rw [List.length_cons]; omega
        · omega
      refine ⟨?_, ?_, ?_, ?_, ?_⟩
      · rw [i1, a1, List.filter_cons]
        split <;> simp
      · rcases a2 with ⟨b1, b2⟩ | ⟨b1, nv, b2, b3⟩
        · exact ⟨ps, by rw [List.filter_cons_of_neg (by simp [b1])]; exact i2, by rw [i3, b2]⟩
        · refine ⟨nv :: ps, ?_, by rw [i3, b3]; simp⟩
          rw [List.filter_cons_of_pos b1, List.mapM_cons, b2, i2]
          rfl
      · rw [i4, a3, len, Nat.add_assoc]
      · unfold outlinesFrom
        rcases a4 with ⟨b1, b2⟩ | ⟨b1, o, b2, b3⟩
        · rw [if_neg (by simp [b1]), ← hu]
          exact ⟨os, i5, by rw [i7, b2]⟩
        · have hm : m.units = p.units := by
            rw [hu]
            unfold unitOf
            rw [if_neg]
            cases l with
            | nil => simp [isParam]
            | cons c t =>
              simp only [hasCode, List.any_cons, List.any_nil, Bool.or_false] at b1
              rw [show "389".toList = ['3', '8', '9'] from rfl, List.isPrefixOf_iff_prefix, List.cons_prefix_cons] at b1
              simp [isParam, ← b1.1]
          rw [hm] at i5
          rw [if_pos b1, b2, i5]
          exact ⟨o :: os, rfl, by rw [i7, b3]; simp⟩
      · rcases a5 with ⟨b1, b2⟩ | ⟨b1, nv, b2, b3⟩
        · exact ⟨as, by rw [List.filter_cons_of_neg (by simp [b1])]; exact i6, by rw [i8, b2]⟩
        · refine ⟨nv :: as, ?_, by rw [i8, b3]; simp⟩
          rw [List.filter_cons_of_pos b1, List.mapM_cons, b2, i6]
          rfl

/-- **C97** (records).  The netlist of a text has the remarks and the parameters of its lines, its outlines in the unit that was
last set before them and its adjacencies, in order, and a test record for each line with its code; it makes no difference where
the lines were cut. -/
theorem C97_records_partial {eol : Str} (he : IsEol eol) {ls : List Logical} (h : ∀ l ∈ ls, l.Good) {n : Netlist}
    (hn : parseRaw (text eol (ls.flatMap Logical.physical)) = .ok n) :
    let lines := ls.map Logical.whole
    comments n.statements = (lines.filter isRemark).map (fun l => strip (l.drop 2)) ∧
    (lines.filter isParam).mapM paramFromLine = .ok (parameters n.statements) ∧
    (testRecords n.statements).length = (lines.filter (hasCode ["317", "327", "367"])).length ∧
    outlinesFrom "inch" lines = .ok ((outlines n.statements).map fun o => .outline o.1 o.2) ∧
    (lines.filter (hasCode ["379"])).mapM adjacencyFromLine =
      .ok ((adjacencyRecords n.statements).map fun a => .adjacency a.1 a.2) ∧
    n.primitives.length = (testRecords n.statements).length := by
  rw [parseRaw_physical he ls h] at hn
  cases hf : (ls.map Logical.whole).foldlM Parser.parseLine {} with
  | error e => rw [hf] at hn; cases hn
  | ok q =>
    rw [hf] at hn
    simp only [Except.bind, Parser.finish, bind] at hn
    cases hm : (testRecords q.statements).mapM testPrimitive with
    | error e => rw [hm] at hn; cases hn
    | ok prims =>
      rw [hm] at hn
      cases hn
      obtain ⟨i1, ⟨ps, i2, i3⟩, i4, ⟨os, i5, i7⟩, as, i6, i8⟩ := fold_adds hf
      have z3 : outlines ({} : Parser).statements = [] := rfl
      have z4 : adjacencyRecords ({} : Parser).statements = [] := rfl
      rw [z3, List.nil_append] at i7
      rw [z4, List.nil_append] at i8
      have z1 : comments ({} : Parser).statements = [] := rfl
      have z2 : parameters ({} : Parser).statements = [] := rfl
      rw [z1, List.nil_append] at i1
      rw [z2, List.nil_append] at i3
      refine ⟨i1, by rw [i3]; exact i2, i4.trans (Nat.zero_add _), by rw [i7]; exact i5, by rw [i8]; exact i6, ?_⟩
      have : ∀ {l : List TestRec} {r}, l.mapM testPrimitive = .ok r → r.length = l.length := by
        intro l
        induction l with
        | nil => intro r hr; cases hr; rfl
        | cons a l ih =>
          intro r hr
          rw [List.mapM_cons] at hr
          cases ha : testPrimitive a with
          | error e => rw [ha] at hr; cases hr
          | ok b =>
            rw [ha] at hr
            cases hl : l.mapM testPrimitive with
            | error e => rw [hl] at hr; cases hr
            | ok bs =>
              rw [hl] at hr
              cases hr
              simp [ih hl]
      exact this hm

/-- Conductors are in none of the lists: no question that can be asked of a netlist shows them. -/
theorem C97_conductor_violated (a b : List Rec) (net : Str) (layer : ℤ) (ap : Option ℚ × Option ℚ)
    (shapes : List (List (ℚ × ℚ))) (u v : String) (prims : List ((ℚ × ℚ) × Str × String)) :
    views ⟨a ++ .conductor net layer ap shapes :: b, u, v, prims⟩ = views ⟨a ++ b, u, v, prims⟩ ∧
      comments (a ++ .conductor net layer ap shapes :: b) = comments (a ++ b) := by
  simp [views, parameters, testRecords, nets, adjacentNets, components, vias, outlines, adjacencyRecords, comments]

/-- A unit that is set behind a test record is that of the netlist, although the record was read in inches. -/
theorem C97_late_unit_violated :
    (parseRaw "317GND              VIA         D  24PA00X  14900Y   1450X 396Y 396\nP  UNITS CUST 1\n".toList).map
      (fun n => (n.units, n.primitives.map (·.1))) = .ok ("metric", [(149 / 100, 29 / 200)]) ∧
    (parseRaw "P  UNITS CUST 1\n317GND              VIA         D  24PA00X  14900Y   1450X 396Y 396\n".toList).map
      (fun n => (n.units, n.primitives.map (·.1))) = .ok ("metric", [(149 / 10, 29 / 20)]) := by decide +kernel

/-- Lines behind the end of the netlist are read. -/
theorem C97_after_end_violated : (parseRaw "999\nP  JOB LATE\n".toList).map (fun n => parameters n.statements) =
    .ok [("JOB".toList, "LATE".toList)] := by decide +kernel

/-- A remark inside of a line that is cut takes the rest of the line. -/
theorem C97_remark_inside_violated :
    (parseRaw "379A B\nC remark\n079 C\n".toList).map (·.statements) =
      .ok [.adjacency "A".toList ["B".toList], .comment "remark C".toList] ∧
    (parseRaw "379A B\n079 C\n".toList).map (·.statements) = .ok [.adjacency "A".toList ["B".toList, "C".toList]] := by
  decide +kernel

/-! ## Examples -/

/-- A netlist with remarks. -/
def remarkedLines : List Logical :=
  [⟨"C  made by hand".toList, []⟩, ⟨"P  UNITS CUST 1".toList, []⟩, ⟨"P  JOB A B".toList, []⟩, ⟨"C".toList, []⟩,
   ⟨"317GND              VIA         D  24PA00X  14900Y   1450X 396Y 396".toList, []⟩,
   ⟨"389BOARD          X0Y0".toList, [(('8', '9'), " X100 Y100".toList)]⟩, ⟨"379A B".toList, []⟩, ⟨"999".toList, []⟩]

/-- The same without remarks. -/
def plainLines : List Logical := remarkedLines.filter fun l => !isRemark l.whole

example : (∀ l ∈ remarkedLines, l.Good) ∧ (∀ l ∈ plainLines, l.Good) ∧
    (remarkedLines.map Logical.whole).filter (fun l => !isRemark l) =
      (plainLines.map Logical.whole).filter fun l => !isRemark l :=
  ⟨fun l hl => Logical.good_of (by revert l; decide +kernel), fun l hl => Logical.good_of (by revert l; decide +kernel),
    by decide +kernel⟩

example : ∃ n, parseRaw (text ['\n'] (remarkedLines.flatMap Logical.physical)) = .ok n ∧
    comments n.statements = ["made by hand".toList, []] ∧
    parameters n.statements = [("UNITS".toList, "CUST 1".toList), ("JOB".toList, "A B".toList)] ∧
    outlines n.statements = [("BOARD".toList, [(0, 0), (1 / 10, 0), (1 / 10, 1 / 10)])] ∧
    n.primitives.map (·.1) = [(149 / 10, 29 / 20)] := by
  have h : ((parseRaw (text ['\n'] (remarkedLines.flatMap Logical.physical))).toOption.map fun n =>
      decide (comments n.statements = ["made by hand".toList, []]) &&
      decide (parameters n.statements = [("UNITS".toList, "CUST 1".toList), ("JOB".toList, "A B".toList)]) &&
      decide (outlines n.statements = [("BOARD".toList, [(0, 0), (1 / 10, 0), (1 / 10, 1 / 10)])]) &&
      decide (n.primitives.map (·.1) = [(149 / 10, 29 / 20)])) = some true := by decide +kernel
  cases hn : parseRaw (text ['\n'] (remarkedLines.flatMap Logical.physical)) with
  | error e => rw [hn] at h; cases h
  | ok n =>
    rw [hn] at h
    simp only [Except.toOption, Option.map_some, Option.some.injEq, Bool.and_eq_true, decide_eq_true_eq] at h
    exact ⟨n, rfl, h.1.1.1, h.1.1.2, h.1.2, h.2⟩

end Verif.Ipc
