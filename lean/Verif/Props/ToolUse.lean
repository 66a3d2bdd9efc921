import Verif.Lemmas.ToolUse
import Verif.Props.ExcellonHoles

/-! # The tool of every hole (C73) -/

namespace Verif.Excellon
open Verif.Py Verif.Cam Verif.Excellon.Spec

/-- Positions in a table. -/
theorem dictGet_mapIdx (ext : List (ℤ × Tool)) (n : ℤ) (k : ℕ) :
    dictGet (ext.mapIdx fun i x => (x.1, i + k)) n = (ext.findIdx? fun x => x.1 == n).map (· + k) := by
  induction ext generalizing k with
  | nil => rfl
  | cons x l ih =>
    rw [List.mapIdx_cons, List.findIdx?_cons, dictGet]
    by_cases hx : x.1 = n
    · simp [hx]
    · have e := ih (k + 1)
      simp only [hx, if_false, beq_iff_eq, Option.map_map]
      rw [show (fun (i : ℕ) (x : ℤ × Tool) => (x.1, i + 1 + k)) = fun i x => (x.1, i + (k + 1)) by
        funext i x; rw [Nat.add_right_comm, Nat.add_assoc], e]
      congr 1
      funext i
      simp only [Function.comp_apply]
      omega

theorem numbers_spec (heap : List Tool) : Numbers (numbers heap) heap := by
  intro r t ht
  simp [numbers, ht]

/-- **C73.** For every text, every settings and every tool table: when everything is made with some tool and every
`M00` finds a next tool, the tools of the holes and slots of the parsed file are, in order, exactly those that a
machine uses that executes the statements of the file with a rack of tools (`Spec.Rack`): a definition puts a tool in
the rack, a selection takes one, `M00` takes the one with the next number, and a machine that has not been given a
tool takes tool 1. -/
theorem C73_tools_follow_statements_partial {settings : Option FileSettings} {ext : List (ℤ × Tool)} {data : Str} {f : XFile}
    (h : parseRaw settings ext data = .ok f) (hits : ∀ x ∈ f.hits, x.tool ≠ none)
    (next : ∀ k ∈ f.statements.map (·.kind), noNext k = false) :
    f.hits.map (·.tool) = Rack.used (numbers f.heap) (Mach.start (startsIncremental settings)) (Rack.start ext)
      (f.statements.map (·.kind)) := by
  unfold parseRaw at h
  obtain ⟨s, h1, h⟩ := bindOk h
  unfold PState.finish at h
  obtain ⟨st, _, h⟩ := bindOk h
  cases h
  have hi : Sim (Mach.start (startsIncremental settings)) s ∧
      Racked (Mach.start (startsIncremental settings)) (Rack.start ext) s := by
    refine run_invariant (P := fun s => Sim _ s ∧ Racked _ _ s)
      (fun a b l ha hb => ⟨ha.1.parseLine hb, ha.2.parseLine ha.1 hb⟩) ⟨⟨?_, rfl⟩, rfl, .inr ?_⟩ h1
    · cases settings <;> rfl
    · intro num _
      refine ⟨?_, rfl⟩
      show Rack.start ext = _
      simp only [Rack.start, PState.rack, PState.init, Rack.mk.injEq, and_true]
      funext n
      have e := dictGet_mapIdx ext n 0
      simp only [Nat.add_zero] at e
      rw [e]
      simp [dictGet]
  have hk : (s.statements.map fun x => (⟨s.units, x.kind⟩ : Stmt)).map (·.kind) = s.kinds := by simp [PState.kinds]
  simp only [hk] at next ⊢
  rcases hi.2.agree with (⟨x, hx, e⟩ | ⟨a, ha⟩) | hi2
  · exact absurd e (hits x hx)
  · exact absurd (next _ ha) (by simp [noNext])
  · exact (hi2 _ (numbers_spec _)).2.symm

/-! ## What that means between two selections -/

theorem step_keeps {num : ℕ → Option ℤ} {m : Mach} {R : Rack} {k : Kind} {r : ℕ} (hk : keepsTool k = true)
    (hr : R.cur = some r) : R.step num m k = R := by
  unfold Rack.step
  split
  · cases k <;> first | rfl | simp [keepsTool] at hk
  · simp [Rack.need, hr]

theorem used_keeps {num : ℕ → Option ℤ} {r : ℕ} (l : List Kind) : ∀ (m : Mach) (R : Rack), (∀ k ∈ l, keepsTool k = true) →
    R.cur = some r → Rack.used num m R l = List.replicate (m.all l).length (some r) := by
  induction l with
  | nil => intros; rfl
  | cons k l ih =>
    intro m R hk hr
    have e := step_keeps (num := num) (m := m) (hk k (by simp)) hr
    rw [Rack.used, e, hr, ih _ _ (fun x hx => hk x (by simp [hx])) hr, Mach.all, List.length_append,
      List.replicate_add]

/-- A tool stays in the rack until another one with its number is defined. -/
theorem table_step {num : ℕ → Option ℤ} {m : Mach} {R : Rack} {k : Kind} {n : ℤ} (hk : definesNumber num n k = false) :
    (R.step num m k).table n = R.table n := by
  unfold Rack.step
  split
  · cases k with
    | tool r =>
      simp only [Rack.next]
      cases e : num r with
      | none => rfl
      | some i =>
        simp only [Rack.define]
        rw [if_neg]
        rintro rfl
        simp [definesNumber, e] at hk
    | toolSel i c =>
      simp only [Rack.next]
      split <;> rfl
    | nextTool a b =>
      simp only [Rack.next]
      split <;> rfl
    | _ => rfl
  · unfold Rack.need
    split <;> rfl

theorem table_after {num : ℕ → Option ℤ} {n : ℤ} (l : List Kind) : ∀ (m : Mach) (R : Rack),
    (∀ k ∈ l, definesNumber num n k = false) → (Rack.after num m R l).table n = R.table n := by
  induction l with
  | nil => intros; rfl
  | cons k l ih =>
    intro m R hk
    rw [Rack.after, ih _ _ (fun x hx => hk x (by simp [hx])), table_step (hk k (by simp))]

theorem mach_all_append (l l' : List Kind) : ∀ m : Mach, m.all (l ++ l') = m.all l ++ (m.after l).all l' := by
  induction l with
  | nil => intro m; rfl
  | cons k l ih => intro m; simp [Mach.all, Mach.after, ih]

theorem used_length {num : ℕ → Option ℤ} (l : List Kind) : ∀ (m : Mach) (R : Rack),
    (Rack.used num m R l).length = (m.all l).length := by
  induction l with
  | nil => intros; rfl
  | cons k l ih => intro m R; simp [Rack.used, Mach.all, ih]

/-- **C73.** Between two selections: when a file defines tool `n` (object `r`, the last definition of that number
before the selection), selects it, and then has statements that neither define nor select tools, everything made by
these statements is made with that tool — whatever else the file contains. -/
theorem C73_selected_tool_partial {settings : Option FileSettings} {ext : List (ℤ × Tool)} {data : Str} {f : XFile}
    (h : parseRaw settings ext data = .ok f) (hits : ∀ x ∈ f.hits, x.tool ≠ none)
    (next : ∀ k ∈ f.statements.map (·.kind), noNext k = false)
    {a b body rest : List Kind} {r : ℕ} {n : ℤ} {c : Option ℤ}
    (hf : f.statements.map (·.kind) = (a ++ .tool r :: b ++ [.toolSel n c]) ++ (body ++ rest))
    (hr : numbers f.heap r = some n) (hn : n ≠ 0) (hb : ∀ k ∈ b, definesNumber (numbers f.heap) n k = false)
    (hbody : ∀ k ∈ body, keepsTool k = true) :
    ∃ before here after : List Hit, f.hits = before ++ here ++ after ∧
      (let m := (Mach.start (startsIncremental settings)).after (a ++ .tool r :: b ++ [.toolSel n c])
       here.map Hit.feature = m.all body) ∧ ∀ x ∈ here, x.tool = some r := by
  have e1 := C73_tools_follow_statements_partial h hits next
  have e2 := C24_holes_follow_statements h
  rw [hf] at e1 e2
  generalize hp : a ++ Kind.tool r :: b ++ [.toolSel n c] = pre at *
  set m0 := Mach.start (startsIncremental settings) with hm0
  rw [rackUsed_append, rackUsed_append] at e1
  rw [mach_all_append, mach_all_append] at e2
  set num := numbers f.heap with hnum
  have hcur : (Rack.after num m0 (Rack.start ext) pre).cur = some r := by
    have c1 : ∀ (m : Mach) (R : Rack), R.step num m (.tool r) = R.define n r := by
      intro m R
      have : m.makes (.tool r) = [] := rfl
      simp only [Rack.step, this, if_true, Rack.next, hr]
    rw [← hp, rackAfter_append]
    have c2 : ∀ m : Mach, m.makes (.toolSel n c) = [] := fun _ => rfl
    simp only [Rack.after, Rack.step, c2, if_true, Rack.next, hn, if_false, Rack.take]
    rw [rackAfter_append, Rack.after, table_after b _ _ hb, c1]
    simp [Rack.define]
  rw [used_keeps body _ _ hbody hcur] at e1
  refine ⟨f.hits.take (m0.all pre).length, (f.hits.drop (m0.all pre).length).take ((m0.after pre).all body).length,
    (f.hits.drop (m0.all pre).length).drop ((m0.after pre).all body).length, ?_, ?_, ?_⟩
  · rw [List.append_assoc, List.take_append_drop, List.take_append_drop]
  · simp only [List.map_take, List.map_drop, e2]
    simp
  · have e3 : ((f.hits.drop (m0.all pre).length).take ((m0.after pre).all body).length).map (·.tool) =
        List.replicate ((m0.after pre).all body).length (some r) := by
      simp only [List.map_take, List.map_drop, e1]
      rw [← used_length (num := num) pre m0 (Rack.start ext)]
      simp
    intro x hx
    have : x.tool ∈ List.replicate ((m0.after pre).all body).length (some r) := by
      rw [← e3]; exact List.mem_map_of_mem hx
    exact List.eq_of_mem_replicate this

/-- **C73.** The same for the size: when that definition gives the diameter `d`, everything made by these statements
has the diameter `d`. -/
theorem C73_selected_diameter_partial {settings : Option FileSettings} {ext : List (ℤ × Tool)} {data : Str} {f : XFile}
    (h : parseRaw settings ext data = .ok f) (hits : ∀ x ∈ f.hits, x.tool ≠ none)
    (next : ∀ k ∈ f.statements.map (·.kind), noNext k = false)
    {a b body rest : List Kind} {r : ℕ} {t : Tool} {d : ℚ} {c : Option ℤ}
    (hf : f.statements.map (·.kind) = (a ++ .tool r :: b ++ [.toolSel t.number c]) ++ (body ++ rest))
    (hr : f.heap[r]? = some t) (hd : t.diameter = some d) (hn : t.number ≠ 0)
    (hb : ∀ k ∈ b, definesNumber (numbers f.heap) t.number k = false) (hbody : ∀ k ∈ body, keepsTool k = true) :
    ∃ before here after : List Hit, f.hits = before ++ here ++ after ∧
      (let m := (Mach.start (startsIncremental settings)).after (a ++ .tool r :: b ++ [.toolSel t.number c])
       here.map Hit.feature = m.all body) ∧ ∀ x ∈ here, (x.tool.bind (f.heap[·]?)).bind (·.diameter) = some d := by
  obtain ⟨l1, l2, l3, h1, h2, h3⟩ := C73_selected_tool_partial h hits next hf (by simp [numbers, hr]) hn hb hbody
  refine ⟨l1, l2, l3, h1, h2, fun x hx => ?_⟩
  simp [h3 x hx, hr, hd]

/-! ## Examples and violations -/

/-- What is made, with the diameters. -/
def sizesOf (l : List String) : Option (List (Feature × Option ℚ)) :=
  match parseRaw none [] (prog l) with
  | .ok f => some (f.hits.map fun x => (x.feature, (x.tool.bind (f.heap[·]?)).bind (·.diameter)))
  | .error _ => none

-- two tools, a redefinition, `M00`, repeated holes and slots; the hypotheses of C73 hold
example : ∃ f, parseRaw none [] (prog ["M48", "INCH,LZ", "T01C0.020", "T02C0.030", "T01C0.040", "%", "T01", "X01Y01",
      "R2X01", "M00", "X02Y02", "T01", "X01Y01G85X02Y02", "M30"]) = .ok f ∧ (∀ x ∈ f.hits, x.tool ≠ none) ∧
    (∀ k ∈ f.statements.map (·.kind), noNext k = false) ∧
    f.hits.map (·.tool) = [some 2, some 2, some 2, some 1, some 2] := by
  refine ⟨_, rfl, ?_, ?_, by decide +kernel⟩ <;> decide +kernel

-- the hypotheses of C73_selected_tool_partial and C73_selected_diameter_partial: tool 1 is defined twice, the second definition counts
example : ∃ f t, parseRaw none [] (prog ["M48", "INCH,LZ", "T01C0.020", "T01C0.040", "T02C0.030", "%", "T01", "X01Y01",
      "R2X01", "T02", "X02Y02", "M30"]) = .ok f ∧ (∀ x ∈ f.hits, x.tool ≠ none) ∧
    (∀ k ∈ f.statements.map (·.kind), noNext k = false) ∧
    (f.statements.map (·.kind) = ([.headerBegin, .unit "leading" none, .tool 0] ++ .tool 1 ::
        [.tool 2, .rewindStop] ++ [.toolSel 1 none]) ++
      ([.coord (some 1) (some 1) none, .rep 2 (some 1) none] ++ [.toolSel 2 none, .coord (some 2) (some 2) none,
        .endProg none none])) ∧
    f.heap[1]? = some t ∧ t.diameter = some (40 / 1000) ∧ t.number = 1 := by
  refine ⟨_, _, rfl, ?_, ?_, ?_, rfl, ?_, ?_⟩ <;> decide +kernel

/-- **C73 fails** for a tool that is not defined: the hole is made with a size computed from the number of the tool
(`16 + 8 n` thousandths of an inch), and the file is not rejected. -/
theorem C73_undefined_tool_violated :
    sizesOf ["M48", "INCH,LZ", "T01C0.020", "%", "T05", "X01Y01", "M30"] =
      some [(.hole (1, 1), some (56 / 1000))] := by
  decide +kernel

/-- **C73 fails** for `M00` without a next tool: the hole behind it is made with tool 1. -/
theorem C73_no_next_tool_violated :
    sizesOf ["M48", "INCH,LZ", "T01C0.020", "T02C0.030", "%", "T02", "X01Y01", "M00", "X02Y02", "M30"] =
      some [(.hole (1, 1), some (30 / 1000)), (.hole (2, 2), some (20 / 1000))] := by
  decide +kernel

end Verif.Excellon
