import Verif.Lemmas.Capture
import Verif.Props.Codec
import Verif.Model.GerberEval
import Verif.Spec.GerberEval

/-! # What can be said of statements read from text -/

namespace Verif.Gerber
open Verif.Py Verif.Cam Verif.Utils

/-- Small coordinates, known operation codes and region modes. -/
def Stmt.Sound : Stmt → Prop
  | .coord c => (∀ v, c.x = some v ∨ c.y = some v ∨ c.i = some v ∨ c.j = some v → |v| < 10 ^ 6) ∧
      (∀ o, c.op = some o → (actionOf o).isSome)
  | .region m => m = "on" ∨ m = "off"
  | _ => True

theorem Stmt.Sound.modeOK {s : Stmt} (h : s.Sound) : s.ModeOK := by
  cases s with
  | region m => exact h
  | _ => trivial

/-- How a statement changes the settings used for reading. -/
def applySetting (st : FileSettings) : Stmt → FileSettings
  | .fs z n f => { (st.setZeroSuppression z) with format := f, notation_ := n }
  | .mo m => { st with units := m }
  | _ => st

/-- A property of the value of a computation that does not raise. -/
def Post {α : Type} (x : PyR α) (P : α → Prop) : Prop := ∀ a, x = .ok a → P a

theorem Post.ok {α : Type} {P : α → Prop} {a : α} (h : P a) : Post (.ok a) P := by
  rintro _ ⟨⟩; exact h

theorem Post.error {α : Type} {P : α → Prop} {e : PyErr} : Post (.error e) P := by
  rintro _ ⟨⟩

theorem Post.bind {α β : Type} {P : α → Prop} {Q : β → Prop} {x : PyR α} {f : α → PyR β}
    (hx : Post x P) (hf : ∀ a, P a → Post (f a) Q) : Post (x >>= f) Q := by
  intro b hb
  cases x with
  | error e => cases hb
  | ok a => exact hf a (hx a rfl) b hb

theorem Post.bind' {α β : Type} {Q : β → Prop} {x : PyR α} {f : α → PyR β}
    (hf : ∀ a, Post (f a) Q) : Post (x >>= f) Q :=
  Post.bind (P := fun _ => True) (fun _ _ => trivial) fun a _ => hf a

theorem Post.ite {α : Type} {P : α → Prop} {p : Prop} [Decidable p] {x y : PyR α} (hx : Post x P)
    (hy : Post y P) : Post (if p then x else y) P := by
  split <;> assumption

theorem lang_number {s : Str} (h : (Re.cat reNumber).Lang s) : ∃ sign d : Str,
    s = sign ++ d ∧ (sign = [] ∨ sign = ['+'] ∨ sign = ['-']) ∧ d ≠ [] ∧ d.all isDig = true := by
  obtain ⟨u, v, rfl, hu, hv⟩ := h
  obtain ⟨h1, h2⟩ := Re.lang_plus hv
  refine ⟨u, v, rfl, ?_, h1, h2⟩
  rcases Re.lang_opt hu with ⟨c, hc, rfl⟩ | rfl
  · simp [oneOf] at hc
    rcases hc with rfl | rfl <;> simp
  · simp

theorem number_bound {s : Str} (h : (Re.cat reNumber).Lang s) (fmt : ℕ × ℕ) (zs : String) :
    Post (parseGerberValue s fmt zs) (fun v => |v| < 10 ^ 6) := by
  obtain ⟨sign, d, rfl, hs, hne, hd⟩ := lang_number h
  obtain ⟨i, f⟩ := fmt
  intro v hv
  by_cases hb : 6 < i ∨ 7 < f ∨ 13 < i + f
  · obtain ⟨e, he⟩ := (C06_parse_rejects_iff hd hne sign hs i f zs).2 hb
    rw [hv] at he; cases he
  · obtain ⟨r, h1, h0, -, h2⟩ := C05_parse_bounded hd hne (i := i) (d := f) (by omega) (by omega) zs
    obtain ⟨r', h3, h4, h5⟩ := C05_parse_sign hd hne (i := i) (d := f) (by omega) (by omega) zs
    rw [h1] at h3
    cases h3
    rcases hs with rfl | rfl | rfl
    · rw [List.nil_append, h1] at hv; cases hv
      rw [abs_of_nonneg h0]; exact h2
    · rw [List.singleton_append, h5] at hv; cases hv
      rw [abs_of_nonneg h0]; exact h2
    · rw [List.singleton_append, h4] at hv; cases hv
      rw [abs_neg, abs_of_nonneg h0]; exact h2

theorem word_group {g : Re} {n : String} (hn : n ∈ ["x", "y", "i", "j"])
    (h : (n, g) ∈ reCoord.groups) : g = Re.cat reNumber := by
  simp only [reCoord, reWord, Re.cat, Re.opt, Re.groups, Re.lit, reNumber, Re.plus, List.append_nil,
    List.nil_append, List.cons_append, List.mem_cons, List.not_mem_nil, or_false, Prod.mk.injEq] at h hn ⊢
  rcases hn with rfl | rfl | rfl | rfl <;> simp at h <;> exact h

theorem op_group {g : Re} (h : ("op", g) ∈ reCoord.groups) :
    g = Re.cat [Re.lit 'D', Re.opt (Re.lit '0'), .chr (oneOf ['1', '2', '3'])] := by
  simp only [reCoord, reWord, Re.cat, Re.opt, Re.groups, Re.lit, reNumber, Re.plus, List.append_nil,
    List.nil_append, List.cons_append, List.mem_cons, List.not_mem_nil, or_false, Prod.mk.injEq] at h ⊢
  simp at h
  exact h

theorem optValue_bound (st : FileSettings) {line r : Str} {m : Caps}
    (hm : reCoord.pyMatch line = some (m, r)) {n : String} (hn : n ∈ ["x", "y", "i", "j"]) :
    Post (optValue st (m.get n)) (fun o => ∀ v, o = some v → |v| < 10 ^ 6) := by
  cases hg : m.get n with
  | none => exact Post.ok (by simp)
  | some s =>
    obtain ⟨g, h1, h2⟩ := Re.pyMatch_get hm hg
    rw [word_group hn h1] at h2
    have hb := number_bound h2 st.format st.zeroSuppression
    unfold optValue
    intro o ho
    dsimp only at ho
    cases hp : parseGerberValue s st.format st.zeroSuppression with
    | error e => rw [hp] at ho; cases ho
    | ok v => rw [hp] at ho; cases ho; rintro _ ⟨⟩; exact hb v hp

theorem coord_sound (st : FileSettings) {line r : Str} {m : Caps}
    (hm : reCoord.pyMatch line = some (m, r)) :
    Post (coordFromDict st m) (fun c => Stmt.Sound (.coord c)) := by
  unfold coordFromDict
  refine Post.bind (optValue_bound st hm (n := "x") (by simp)) fun x hx => ?_
  refine Post.bind (optValue_bound st hm (n := "y") (by simp)) fun y hy => ?_
  refine Post.bind (optValue_bound st hm (n := "i") (by simp)) fun i hi => ?_
  refine Post.bind (optValue_bound st hm (n := "j") (by simp)) fun j hj => ?_
  refine Post.ok ⟨?_, ?_⟩
  · rintro v (h | h | h | h)
    · exact hx v h
    · exact hy v h
    · exact hi v h
    · exact hj v h
  · intro o ho
    obtain ⟨g, h1, h2⟩ := Re.pyMatch_get hm ho
    rw [op_group h1] at h2
    obtain ⟨u, v, rfl, hu, u', v', rfl, hu', c, hc, rfl⟩ := h2
    rw [Re.lang_lit hu]
    simp [oneOf] at hc
    rcases Re.lang_opt hu' with h | rfl
    · rw [Re.lang_lit h]
      rcases hc with rfl | rfl | rfl <;> decide
    · rcases hc with rfl | rfl | rfl <;> decide

/-- What a step yields is sound, and the settings change as the statement says. -/
def StepRes.Sound (st : FileSettings) : StepRes → Prop
  | .yield s st' _ => s.Sound ∧ st' = applySetting st s
  | _ => True

def ParamAct.Sound (st : FileSettings) : ParamAct → Prop
  | .stmt s st' => s.Sound ∧ st' = applySetting st s
  | _ => True

theorem param_sound (st : FileSettings) (line : Str) (m : Caps) :
    Post (paramStmt st line m) (ParamAct.Sound st) := by
  unfold paramStmt
  dsimp only
  repeat' apply Post.ite
  all_goals first
    | exact Post.ok ⟨trivial, rfl⟩
    | exact Post.ok trivial
    | exact Post.bind' fun _ => Post.ok ⟨trivial, rfl⟩
    | exact Post.bind' fun _ => Post.bind' fun _ => Post.ok ⟨trivial, rfl⟩

theorem step_sound (st : FileSettings) (line : Str) : Post (step st line) (StepRes.Sound st) := by
  unfold step
  split
  · exact Post.ok trivial
  split
  · rename_i hm
    exact (coord_sound st hm).bind fun c hc => Post.ok ⟨hc, rfl⟩
  repeat' split
  all_goals first
    | exact Post.ok ⟨trivial, rfl⟩
    | exact Post.ok trivial
    | exact Post.bind' fun _ => Post.ok ⟨trivial, rfl⟩
    | exact (param_sound _ _ _).bind fun a ha => by
        cases a
        · exact Post.ok ha
        · exact Post.ok trivial
    | exact Post.ok ⟨.inl rfl, rfl⟩
    | exact Post.ok ⟨.inr rfl, rfl⟩

/-- Statements read with settings `st` to `st'`. -/
def Reads (st : FileSettings) (l : List Stmt) (st' : FileSettings) : Prop :=
  (∀ s ∈ l, s.Sound) ∧ st' = l.foldl applySetting st

theorem Reads.append {st st' st'' : FileSettings} {l l' : List Stmt} (h : Reads st l st')
    (h' : Reads st' l' st'') : Reads st (l ++ l') st'' := by
  refine ⟨?_, ?_⟩
  · intro s hs
    rcases List.mem_append.1 hs with hs | hs
    · exact h.1 s hs
    · exact h'.1 s hs
  · rw [List.foldl_append, ← h.2, h'.2]

theorem reads_parseLine {inc : Includer}
    (hi : ∀ f st, Post (inc f st) (fun r => Reads st r.1 r.2)) (n : ℕ) (st : FileSettings)
    (line : Str) : Post (parseLine inc n st line) (fun r => Reads st r.1 r.2.1) := by
  induction n generalizing st line with
  | zero => exact Post.ok ⟨by simp, rfl⟩
  | succ n ih =>
    unfold parseLine
    split
    · exact Post.ok ⟨by simp, rfl⟩
    have hs := step_sound st line
    split
    · exact Post.error
    · exact Post.ok ⟨by simp, rfl⟩
    · exact ih _ _
    · rename_i s st' r h
      obtain ⟨h1, h2⟩ := hs _ h
      refine (ih _ _).bind fun a ha => Post.ok ?_
      have h0 : Reads st [s] st' := ⟨by simpa using h1, by simpa using h2⟩
      exact h0.append ha
    · exact (hi _ _).bind fun a ha => (ih _ _).bind fun b hb => Post.ok (ha.append hb)

theorem reads_parseBlocks {inc : Includer}
    (hi : ∀ f st, Post (inc f st) (fun r => Reads st r.1 r.2)) (st : FileSettings) (old : Str)
    (bs : List Str) : Post (parseBlocks inc st old bs) (fun r => Reads st r.1 r.2) := by
  induction bs generalizing st old with
  | nil => exact Post.ok ⟨by simp, rfl⟩
  | cons b bs ih =>
    unfold parseBlocks
    dsimp only
    split
    · exact ih _ _
    split
    · exact ih _ _
    · exact (reads_parseLine hi _ _ _).bind fun a ha => (ih _ _).bind fun b hb =>
        Post.ok (ha.append hb)

theorem reads_parseData (fs : Str → Option Str) (k depth : ℕ) (st : FileSettings) (data : Str) :
    Post (parseData fs k depth st data) (fun r => Reads st r.1 r.2) := by
  induction k generalizing depth st data with
  | zero => exact Post.error
  | succ k ih =>
    unfold parseData
    apply reads_parseBlocks
    intro f st'
    split
    · split
      · exact Post.error
      · exact ih _ _ _
    · exact Post.error

/-- Statements read from text are sound; the settings are those the statements say. -/
theorem reads_parseText (fs : Str → Option Str) (data : Str) :
    Post (parseText fs data) (fun r => Reads defaultSettings r.1 r.2) :=
  reads_parseData fs 11 0 defaultSettings data

end Verif.Gerber
