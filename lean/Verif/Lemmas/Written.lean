import Verif.Lemmas.Parsed
import Verif.Props.Split
import Verif.Spec.GerberStmt

/-! # What is read from text has a text again, apart from its numbers -/

namespace Verif.Py.Re

/-- What is captured and what remains are parts of the text. -/
theorem run_parts (a : Re) (s : Str) : ∀ m ∈ a.run s, (∀ x ∈ m.2.1, ∀ c ∈ x.2, c ∈ m.1) := by
  induction a generalizing s with
  | chr p =>
    cases s with
    | nil => simp [Re.run]
    | cons c s =>
      intro m hm
      simp only [Re.run] at hm
      split at hm <;> simp at hm
      subst hm; simp
  | eps => intro m hm; simp [Re.run] at hm; subst hm; simp
  | seq a b iha ihb =>
    intro m hm x hx c hc
    simp only [Re.run, List.mem_flatMap, List.mem_map] at hm
    obtain ⟨y, hy, z, hz, rfl⟩ := hm
    simp only [List.mem_append] at hx ⊢
    exact hx.imp (fun hx => iha s y hy x hx c hc) (fun hx => ihb _ z hz x hx c hc)
  | alt a b iha ihb =>
    intro m hm x hx c hc
    simp only [Re.run, List.mem_append] at hm
    exact hm.elim (fun hm => iha s m hm x hx c hc) (fun hm => ihb s m hm x hx c hc)
  | star p =>
    intro m hm x hx
    simp only [Re.run, List.mem_map] at hm
    obtain ⟨y, hy, rfl⟩ := hm
    simp at hx
  | grp n a ih =>
    intro m hm x hx c hc
    simp only [Re.run, List.mem_map] at hm
    obtain ⟨y, hy, rfl⟩ := hm
    simp only [List.mem_cons] at hx
    rcases hx with rfl | hx
    · exact hc
    · exact ih s y hy x hx c hc

theorem pyMatch_run {a : Re} {s r : Str} {cs : Caps} (hm : a.pyMatch s = some (cs, r)) :
    ∃ u, (u, cs, r) ∈ a.run s := by
  unfold pyMatch at hm
  cases hr : a.run s with
  | nil => rw [hr] at hm; simp at hm
  | cons m l =>
    rw [hr] at hm
    simp only [List.head?_cons, Option.map_some, Option.some.injEq] at hm
    exact ⟨m.1, by rw [← hm]; simp⟩

theorem pyMatch_rest {a : Re} {s r : Str} {cs : Caps} (hm : a.pyMatch s = some (cs, r)) : ∀ c ∈ r, c ∈ s := by
  obtain ⟨u, hu⟩ := pyMatch_run hm
  intro c hc
  rw [run_split a s _ hu]
  simp [hc]

theorem pyMatch_part {a : Re} {s r v : Str} {cs : Caps} {n : String} (hm : a.pyMatch s = some (cs, r))
    (hv : cs.get n = some v) : ∀ c ∈ v, c ∈ s := by
  obtain ⟨u, hu⟩ := pyMatch_run hm
  intro c hc
  rw [run_split a s _ hu]
  exact List.mem_append_left _ (run_parts a s _ hu (n, v) (mem_of_lookup hv) c hc)

/-- Groups that always take part. -/
def always : Re → List String
  | .chr _ | .eps | .star _ => []
  | .seq a b => a.always ++ b.always
  | .alt _ _ => []
  | .grp n a => n :: a.always

theorem run_always (a : Re) (s : Str) : ∀ m ∈ a.run s, ∀ n ∈ a.always, ∃ v, (n, v) ∈ m.2.1 := by
  induction a generalizing s with
  | chr p => intro m _ n hn; cases hn
  | eps => intro m _ n hn; cases hn
  | star p => intro m _ n hn; cases hn
  | alt a b => intro m _ n hn; cases hn
  | seq a b iha ihb =>
    intro m hm n hn
    simp only [Re.run, List.mem_flatMap, List.mem_map] at hm
    obtain ⟨y, hy, z, hz, rfl⟩ := hm
    simp only [always, List.mem_append] at hn ⊢
    rcases hn with hn | hn
    · obtain ⟨v, hv⟩ := iha s y hy n hn
      exact ⟨v, .inl hv⟩
    · obtain ⟨v, hv⟩ := ihb _ z hz n hn
      exact ⟨v, .inr hv⟩
  | grp k a ih =>
    intro m hm n hn
    simp only [Re.run, List.mem_map] at hm
    obtain ⟨y, hy, rfl⟩ := hm
    simp only [always, List.mem_cons] at hn
    rcases hn with rfl | hn
    · exact ⟨y.1, by simp⟩
    · obtain ⟨v, hv⟩ := ih s y hy n hn
      exact ⟨v, by simp [hv]⟩

theorem get_of_mem {cs : Caps} {n : String} {v : Str} (h : (n, v) ∈ cs) : ∃ w, cs.get n = some w := by
  induction cs with
  | nil => cases h
  | cons x cs ih =>
    obtain ⟨k, w⟩ := x
    unfold Caps.get at ih ⊢
    rw [List.lookup_cons]
    split
    · exact ⟨w, rfl⟩
    · rename_i hk
      rcases List.mem_cons.1 h with h | h
      · cases h; simp at hk
      · exact ih h

theorem pyMatch_always {a : Re} {s r : Str} {cs : Caps} {n : String} (hm : a.pyMatch s = some (cs, r))
    (hn : n ∈ a.always) : ∃ v, cs.get n = some v := by
  obtain ⟨u, hu⟩ := pyMatch_run hm
  obtain ⟨v, hv⟩ := run_always a s _ hu n hn
  exact get_of_mem hv

end Verif.Py.Re

namespace Verif.Gerber
open Verif.Py Verif.Cam Verif.Utils

/-- No line break. -/
def OneLine (s : Str) : Prop := ∀ c ∈ s, c ≠ '\r' ∧ c ≠ '\n'

theorem OneLine.part {s t : Str} (h : OneLine s) (ht : ∀ c ∈ t, c ∈ s) : OneLine t := fun c hc => h c (ht c hc)

theorem OneLine.append {s t : Str} (h : OneLine s) (ht : OneLine t) : OneLine (s ++ t) := by
  intro c hc
  exact (List.mem_append.1 hc).elim (h c) (ht c)

/-- What holds of every statement that was read from text, apart from the values of numbers. -/
def Stmt.Legible : Stmt → Prop
  | .mo mode => mode = "metric" ∨ mode = "inch"
  | .lp pol => pol = "clear" ∨ pol = "dark"
  | .ad _ shape _ => shape = ['C'] ∨ shape = ['R'] ∨ shape = ['O'] ∨ shape = ['P'] ∨ MacroName shape
  | .am name body _ => MacroName name ∧ Plain body
  | .as_ mode => mode = ['A', 'X', 'B', 'Y'] ∨ mode = ['A', 'Y', 'B', 'X']
  | .in_ name => OneLine name
  | .ip pol => pol = "positive" ∨ pol = "negative"
  | .mi a b => (a = 0 ∨ a = 1) ∧ (b = 0 ∨ b = 1)
  | .sf a b => a = 1 ∧ b = 1
  | .ln name => OneLine name
  | .coord c => CodeOf 'G' c.function ∧ CodeOf 'D' c.op ∧ c ≠ {}
  | .comment text => OneLine text ∧ '*' ∉ text
  | .quad mode => mode = "single-quadrant" ∨ mode = "multi-quadrant"
  | .region mode => mode = "on" ∨ mode = "off"
  | .deprecated line => OneLine line
  | .unknown line => OneLine line
  | _ => True

theorem lang_code {g : Char} {s : Str} (h : (Re.cat [Re.lit g, Re.opt (Re.lit '0'), .chr (oneOf ['1', '2', '3'])]).Lang s) :
    ∃ c ∈ ['1', '2', '3'], s = [g, '0', c] ∨ s = [g, c] := by
  obtain ⟨u, v, rfl, hu, u', v', rfl, hu', c, hc, rfl⟩ := h
  rw [Re.lang_lit hu]
  refine ⟨c, by simpa [oneOf] using hc, ?_⟩
  rcases Re.lang_opt hu' with h | rfl
  · rw [Re.lang_lit h]; simp
  · simp

theorem function_group {g : Re} (h : ("function", g) ∈ reCoord.groups) :
    g = Re.cat [Re.lit 'G', Re.opt (Re.lit '0'), .chr (oneOf ['1', '2', '3'])] := by
  simp only [reCoord, reWord, Re.cat, Re.opt, Re.groups, Re.lit, reNumber, Re.plus, List.append_nil,
    List.nil_append, List.cons_append, List.mem_cons, List.not_mem_nil, or_false, Prod.mk.injEq] at h ⊢
  simp at h
  exact h

theorem optValue_none {st : FileSettings} {o : Option Str} (h : optValue st o = .ok none) : o = none := by
  cases o with
  | none => rfl
  | some s =>
    unfold optValue at h
    dsimp only at h
    split at h <;> cases h

/-- A word that is left out leaves no capture and no text. -/
theorem run_optGrp {a : Re} {n : String} {s : Str} {m : M} (hm : m ∈ (Re.opt (.grp n a)).run s) :
    (∃ v, (n, v) ∈ m.2.1) ∨ (m.1 = [] ∧ m.2.1 = [] ∧ m.2.2 = s) := by
  simp only [Re.opt, Re.run, List.mem_append, List.mem_map, List.mem_singleton] at hm
  rcases hm with ⟨y, hy, rfl⟩ | rfl
  · exact .inl ⟨y.1, by simp⟩
  · exact .inr ⟨rfl, rfl, rfl⟩

theorem run_word {c : Char} {n : String} {s : Str} {m : M} (hm : m ∈ (reWord c n).run s) :
    (∃ v, (n, v) ∈ m.2.1) ∨ (m.1 = [] ∧ m.2.1 = [] ∧ m.2.2 = s) := by
  simp only [reWord, Re.opt, Re.run, List.mem_append, List.mem_flatMap, List.mem_map, List.mem_singleton] at hm
  rcases hm with ⟨y, hy, z, ⟨w, hw, rfl⟩, rfl⟩ | rfl
  · exact .inl ⟨w.1, by simp⟩
  · exact .inr ⟨rfl, rfl, rfl⟩

theorem coord_nonempty {line r : Str} {m : Caps} (hl : line.head? ≠ some '*')
    (hm : reCoord.pyMatch line = some (m, r)) : ∃ n ∈ ["function", "x", "y", "i", "j", "op"], ∃ v, m.get n = some v := by
  obtain ⟨u, hu⟩ := Re.pyMatch_run hm
  by_contra hne
  push Not at hne
  have key : ∀ n ∈ ["function", "x", "y", "i", "j", "op"], ∀ v, (n, v) ∉ m := fun n hn v hv => by
    obtain ⟨w, hw⟩ := Re.get_of_mem hv
    exact hne n hn w hw
  simp only [reCoord, Re.cat] at hu
  simp only [Re.run.eq_4, List.mem_flatMap, List.mem_map, Prod.mk.injEq] at hu
  obtain ⟨a, ha, a', ⟨b, hb, b', ⟨c, hc, c', ⟨d, hd, d', ⟨e, he, e', ⟨f, hf, f', hf', rfl⟩, rfl⟩, rfl⟩, rfl⟩, rfl⟩, -, rfl, -⟩ := hu
  have k1 := (run_optGrp ha).resolve_left (fun ⟨v, hv⟩ => key "function" (by simp) v (by simp [hv]))
  have k2 := (run_word hb).resolve_left (fun ⟨v, hv⟩ => key "x" (by simp) v (by simp [hv]))
  have k3 := (run_word hc).resolve_left (fun ⟨v, hv⟩ => key "y" (by simp) v (by simp [hv]))
  have k4 := (run_word hd).resolve_left (fun ⟨v, hv⟩ => key "i" (by simp) v (by simp [hv]))
  have k5 := (run_word he).resolve_left (fun ⟨v, hv⟩ => key "j" (by simp) v (by simp [hv]))
  have k6 := (run_optGrp hf).resolve_left (fun ⟨v, hv⟩ => key "op" (by simp) v (by simp [hv]))
  rw [k6.2.2, k5.2.2, k4.2.2, k3.2.2, k2.2.2, k1.2.2] at hf'
  apply hl
  cases line with
  | nil => simp [Re.lit, Re.run] at hf'
  | cons x t =>
    simp only [Re.lit, Re.run] at hf'
    split at hf'
    · rename_i h; simpa using h
    · cases hf'

theorem coord_legible (st : FileSettings) {line r : Str} {m : Caps} (hl : line.head? ≠ some '*')
    (hm : reCoord.pyMatch line = some (m, r)) : Post (coordFromDict st m) (fun c => Stmt.Legible (.coord c)) := by
  intro c hc
  unfold coordFromDict at hc
  simp only [bind, Except.bind] at hc
  split at hc
  · cases hc
  rename_i x hx
  split at hc
  · cases hc
  rename_i y hy
  split at hc
  · cases hc
  rename_i i hi
  split at hc
  · cases hc
  rename_i j hj
  cases hc
  refine ⟨?_, ?_, ?_⟩
  · cases hf : m.get "function" with
    | none => exact .inl rfl
    | some s =>
      obtain ⟨g, h1, h2⟩ := Re.pyMatch_get hm hf
      rw [function_group h1] at h2
      obtain ⟨c, hc, h⟩ := lang_code h2
      exact .inr ⟨c, hc, h.imp (congrArg some) (congrArg some)⟩
  · cases hf : m.get "op" with
    | none => exact .inl rfl
    | some s =>
      obtain ⟨g, h1, h2⟩ := Re.pyMatch_get hm hf
      rw [op_group h1] at h2
      obtain ⟨c, hc, h⟩ := lang_code h2
      exact .inr ⟨c, hc, h.imp (congrArg some) (congrArg some)⟩
  · intro he
    rw [Coord.mk.injEq] at he
    obtain ⟨e1, e2, e3, e4, e5, e6⟩ := he
    subst e2 e3 e4 e5
    obtain ⟨n, hn, v, hv⟩ := coord_nonempty hl hm
    simp only [List.mem_cons, List.not_mem_nil, or_false] at hn
    rcases hn with rfl | rfl | rfl | rfl | rfl | rfl
    · rw [hv] at e1; cases e1
    · rw [optValue_none hx] at hv; cases hv
    · rw [optValue_none hy] at hv; cases hv
    · rw [optValue_none hi] at hv; cases hv
    · rw [optValue_none hj] at hv; cases hv
    · rw [hv] at e6; cases e6

theorem lang_str {t s : Str} (h : (Re.str t).Lang s) : s = t := by
  induction t generalizing s with
  | nil => exact h
  | cons c t ih =>
    cases t with
    | nil => exact Re.lang_lit h
    | cons d t =>
      obtain ⟨u, v, rfl, hu, hv⟩ := h
      rw [Re.lang_lit hu, ih hv]; rfl

theorem matchMany_mem {l : List Re} {line r : Str} {m : Caps} (h : matchMany l line = some (m, r)) :
    ∃ a ∈ l, a.pyMatch line = some (m, r) := List.exists_of_findSome?_eq_some h

/-- What a parameter expression captures. -/
theorem caught {a : Re} {line r : Str} {m : Caps} (hm : a.pyMatch line = some (m, r)) {n : String}
    (hn : n ∈ a.always) : ∃ g, (n, g) ∈ a.groups ∧ g.Lang (reqGroup m n) ∧ m.get n = some (reqGroup m n) ∧
      ∀ c ∈ reqGroup m n, c ∈ line := by
  obtain ⟨v, hv⟩ := Re.pyMatch_always hm hn
  obtain ⟨g, h1, h2⟩ := Re.pyMatch_get hm hv
  have : reqGroup m n = v := by simp [reqGroup, hv]
  rw [this]
  exact ⟨g, h1, h2, hv, Re.pyMatch_part hm hv⟩

theorem caught_code {l : List Re} {line r : Str} {m : Caps} {t : Str}
    (hm : (wrap (pcode t :: l)).pyMatch line = some (m, r))
    (hn : ∀ g, ("param", g) ∈ (wrap (pcode t :: l)).groups → g = Re.str t) : reqGroup m "param" = t := by
  obtain ⟨g, h1, h2, -, -⟩ := caught hm (n := "param") (by simp [wrap, pcode, Re.cat, Re.always])
  rw [hn g h1] at h2
  exact lang_str h2

theorem isAlpha_letter {c : Char} (h : isAlpha c = true) : asciiLetter c := by
  simpa [isAlpha, asciiLetter] using h

theorem lang_name {s : Str} (h : (Re.seq (.chr isName1) (Re.plus isNameCh)).Lang s) : MacroName s := by
  obtain ⟨u, v, rfl, ⟨c, hc, rfl⟩, hv⟩ := h
  obtain ⟨hv1, hv2⟩ := Re.lang_plus hv
  refine ⟨c, v, rfl, hv1, ?_, ?_⟩
  · simp only [isName1, Bool.or_eq_true] at hc
    exact hc.imp isAlpha_letter (by simp [oneOf])
  · intro d hd
    have := List.all_eq_true.1 hv2 d hd
    simp only [isNameCh, isName1, Bool.or_eq_true] at this
    rcases this with ((h | h) | h) | h
    · exact .inl (isAlpha_letter h)
    · refine .inr (.inr ?_); simp [oneOf] at h; aesop
    · exact .inr (.inl h)
    · refine .inr (.inr ?_); simp [oneOf] at h; aesop

/-- What a parameter does: a legible statement. -/
def ParamAct.Legible : ParamAct → Prop
  | .stmt s _ => s.Legible
  | _ => True

theorem param_legible (st : FileSettings) {line r : Str} {m : Caps} (hl : OneLine line)
    (hm : matchMany paramStmts line = some (m, r)) : Post (paramStmt st line m) ParamAct.Legible := by
  obtain ⟨a, ha, hm⟩ := matchMany_mem hm
  have hg : ∀ n ∈ a.always, OneLine (reqGroup m n) := fun n hn => by
    obtain ⟨-, -, -, -, h⟩ := caught hm hn
    exact hl.part h
  simp only [paramStmts, List.mem_cons, List.not_mem_nil, or_false] at ha
  have sh : ∀ sh : Char, a = reADShape sh → sh ∈ ['R', 'O', 'P'] → Post (paramStmt st line m) ParamAct.Legible := by
    rintro sh rfl hs
    have hp : reqGroup m "param" = ['A', 'D'] := caught_code hm (by
      intro g hg
      simpa [reADShape, wrap, pcode, Re.cat, Re.opt, Re.groups, Re.lit, Re.plus, Re.str] using hg)
    unfold paramStmt
    rw [hp]
    refine Post.bind' fun d => Post.bind' fun mods => Post.ok ?_
    obtain ⟨g, h1, h2, -, -⟩ := caught hm (n := "shape") (by
      simp [reADShape, wrap, pcode, Re.cat, Re.opt, Re.always, Re.lit, Re.plus, Re.str])
    have : g = Re.lit sh := by
      simpa [reADShape, wrap, pcode, Re.cat, Re.opt, Re.groups, Re.lit, Re.plus, Re.str] using h1
    rw [this] at h2
    rw [Re.lang_lit h2]
    simp only [List.mem_cons, List.not_mem_nil, or_false] at hs
    rcases hs with rfl | rfl | rfl <;> simp [ParamAct.Legible, Stmt.Legible]
  rcases ha with rfl | rfl | rfl | rfl | h | h | h | rfl | rfl | rfl | rfl | rfl | rfl | rfl | rfl | rfl | rfl | rfl
  · have hp : reqGroup m "param" = ['F', 'S'] := caught_code hm (by
      intro g hg
      simpa [reFS, wrap, pcode, Re.cat, Re.opt, Re.groups, Re.lit, Re.plus, Re.str] using hg)
    unfold paramStmt
    rw [hp]
    exact Post.bind' fun _ => Post.ok trivial
  · have hp : reqGroup m "param" = ['M', 'O'] := caught_code hm (by
      intro g hg
      simpa [reMO, wrap, pcode, Re.cat, Re.opt, Re.groups, Re.lit, Re.plus, Re.str] using hg)
    unfold paramStmt
    rw [hp]
    refine Post.ok ?_
    show _ ∨ _
    split <;> simp
  · have hp : reqGroup m "param" = ['L', 'P'] := caught_code hm (by
      intro g hg
      simpa [reLP, wrap, pcode, Re.cat, Re.opt, Re.groups, Re.lit, Re.plus, Re.str] using hg)
    unfold paramStmt
    rw [hp]
    refine Post.ok ?_
    show _ ∨ _
    split <;> simp
  · have hp : reqGroup m "param" = ['A', 'D'] := caught_code hm (by
      intro g hg
      simpa [reADC, wrap, pcode, Re.cat, Re.opt, Re.groups, Re.lit, Re.plus, Re.str] using hg)
    unfold paramStmt
    rw [hp]
    refine Post.bind' fun d => Post.bind' fun mods => Post.ok ?_
    obtain ⟨g, h1, h2, -, -⟩ := caught hm (n := "shape") (by
      simp [reADC, wrap, pcode, Re.cat, Re.opt, Re.always, Re.lit, Re.plus, Re.str])
    have : g = Re.lit 'C' := by
      simpa [reADC, wrap, pcode, Re.cat, Re.opt, Re.groups, Re.lit, Re.plus, Re.str] using h1
    rw [this] at h2
    exact .inl (Re.lang_lit h2)
  · exact sh _ h (by simp)
  · exact sh _ h (by simp)
  · exact sh _ h (by simp)
  · have hp : reqGroup m "param" = ['A', 'D'] := caught_code hm (by
      intro g hg
      simpa [reADM, wrap, pcode, Re.cat, Re.opt, Re.groups, Re.lit, Re.plus, Re.str] using hg)
    unfold paramStmt
    rw [hp]
    refine Post.bind' fun d => Post.bind' fun mods => Post.ok ?_
    obtain ⟨g, h1, h2, -, -⟩ := caught hm (n := "shape") (by
      simp [reADM, wrap, pcode, Re.cat, Re.opt, Re.always, Re.lit, Re.plus, Re.str])
    have : g = Re.seq (.chr isName1) (Re.plus isNameCh) := by
      simpa [reADM, wrap, pcode, Re.cat, Re.opt, Re.groups, Re.lit, Re.plus, Re.str] using h1
    rw [this] at h2
    exact .inr (.inr (.inr (.inr (lang_name h2))))
  · have hp : reqGroup m "param" = ['A', 'M'] := caught_code hm (by
      intro g hg
      simpa [reAM, wrap, pcode, Re.cat, Re.opt, Re.groups, Re.lit, Re.plus, Re.str] using hg)
    unfold paramStmt
    rw [hp]
    refine Post.bind' fun d => Post.ok ?_
    obtain ⟨g, h1, h2, -, -⟩ := caught hm (n := "name") (by
      simp [reAM, wrap, pcode, Re.cat, Re.opt, Re.always, Re.lit, Re.plus, Re.str])
    obtain ⟨g', h1', h2', -, -⟩ := caught hm (n := "macro") (by
      simp [reAM, wrap, pcode, Re.cat, Re.opt, Re.always, Re.lit, Re.plus, Re.str])
    have : g = Re.seq (.chr isName1) (Re.plus isNameCh) := by
      simpa [reAM, wrap, pcode, Re.cat, Re.opt, Re.groups, Re.lit, Re.plus, Re.str] using h1
    rw [this] at h2
    have : g' = .star (· != '%') := by
      simpa [reAM, wrap, pcode, Re.cat, Re.opt, Re.groups, Re.lit, Re.plus, Re.str] using h1'
    rw [this] at h2'
    refine ⟨lang_name h2, fun c hc => ⟨?_, hg "macro" (by
      simp [reAM, wrap, pcode, Re.cat, Re.opt, Re.always, Re.lit, Re.plus, Re.str]) c hc⟩⟩
    simpa using List.all_eq_true.1 h2' c hc
  · have hp : reqGroup m "param" = ['A', 'S'] := caught_code hm (by
      intro g hg
      simpa [reAS, wrap, pcode, Re.cat, Re.opt, Re.groups, Re.lit, Re.plus, Re.str] using hg)
    unfold paramStmt
    rw [hp]
    refine Post.ok ?_
    obtain ⟨g, h1, h2, -, -⟩ := caught hm (n := "mode") (by
      simp [reAS, wrap, pcode, Re.cat, Re.opt, Re.always, Re.lit, Re.str])
    have : g = .alt (Re.str ['A', 'X', 'B', 'Y']) (Re.str ['A', 'Y', 'B', 'X']) := by
      simpa [reAS, wrap, pcode, Re.cat, Re.opt, Re.groups, Re.lit, Re.plus, Re.str] using h1
    rw [this] at h2
    exact h2.imp lang_str lang_str
  · have hp : reqGroup m "param" = ['I', 'F'] := caught_code hm (by
      intro g hg
      simpa [reIF, wrap, pcode, Re.cat, Re.opt, Re.groups, Re.lit, Re.plus, Re.str] using hg)
    unfold paramStmt
    rw [hp]
    exact Post.ok trivial
  · have hp : reqGroup m "param" = ['I', 'N'] := caught_code hm (by
      intro g hg
      simpa [reIN, wrap, pcode, Re.cat, Re.opt, Re.groups, Re.lit, Re.plus, Re.str] using hg)
    unfold paramStmt
    rw [hp]
    exact Post.ok (hg "name" (by simp [reIN, wrap, pcode, Re.cat, Re.opt, Re.always, Re.lit, Re.str]))
  · have hp : reqGroup m "param" = ['I', 'P'] := caught_code hm (by
      intro g hg
      simpa [reIP, wrap, pcode, Re.cat, Re.opt, Re.groups, Re.lit, Re.plus, Re.str] using hg)
    unfold paramStmt
    rw [hp]
    refine Post.ok ?_
    show _ ∨ _
    split <;> simp
  · have hp : reqGroup m "param" = ['I', 'R'] := caught_code hm (by
      intro g hg
      simpa [reIR, wrap, pcode, Re.cat, Re.opt, Re.groups, Re.lit, Re.plus, Re.str, reNumber] using hg)
    unfold paramStmt
    rw [hp]
    exact Post.bind' fun _ => Post.ok trivial
  · have hp : reqGroup m "param" = ['M', 'I'] := caught_code hm (by
      intro g hg
      simpa [reMI, wrap, pcode, Re.cat, Re.opt, Re.groups, Re.lit, Re.plus, Re.str] using hg)
    unfold paramStmt
    rw [hp]
    have bit : ∀ n ∈ ["a", "b"], Post (miField (m.get n)) (fun z => z = 0 ∨ z = 1) := by
      intro n hn
      cases hv : m.get n with
      | none => exact Post.error
      | some v =>
        obtain ⟨g, h1, h2⟩ := Re.pyMatch_get hm hv
        have : g = .chr (oneOf ['0', '1']) := by
          simp only [List.mem_cons, List.not_mem_nil, or_false] at hn
          rcases hn with rfl | rfl <;>
            simpa [reMI, wrap, pcode, Re.cat, Re.opt, Re.groups, Re.lit, Re.plus, Re.str] using h1
        rw [this] at h2
        obtain ⟨c, hc, rfl⟩ := h2
        simp only [oneOf, List.contains_cons, List.contains_nil, Bool.or_false, Bool.or_eq_true, beq_iff_eq] at hc
        rcases hc with rfl | rfl
        · intro z hz
          have : miField (some ['0']) = .ok 0 := by decide +kernel
          rw [this] at hz; cases hz; exact .inl rfl
        · intro z hz
          have : miField (some ['1']) = .ok 1 := by decide +kernel
          rw [this] at hz; cases hz; exact .inr rfl
    exact (bit "a" (by simp)).bind fun a ha => (bit "b" (by simp)).bind fun b hb => Post.ok ⟨ha, hb⟩
  · have hp : reqGroup m "param" = ['O', 'F'] := caught_code hm (by
      intro g hg
      simpa [reOF, wrap, pcode, Re.cat, Re.opt, Re.groups, Re.lit, Re.plus, Re.str, reDecimal] using hg)
    unfold paramStmt
    rw [hp]
    exact Post.bind' fun _ => Post.bind' fun _ => Post.ok trivial
  · have hp : reqGroup m "param" = ['S', 'F'] := caught_code hm (by
      intro g hg
      simpa [reSF, wrap, pcode, Re.cat, Re.opt, Re.groups, Re.lit, Re.plus, Re.str] using hg)
    unfold paramStmt
    rw [hp]
    exact Post.ok ⟨rfl, rfl⟩
  · have hp : reqGroup m "param" = ['L', 'N'] := caught_code hm (by
      intro g hg
      simpa [reLN, wrap, pcode, Re.cat, Re.opt, Re.groups, Re.lit, Re.plus, Re.str] using hg)
    unfold paramStmt
    rw [hp]
    exact Post.ok (hg "name" (by simp [reLN, wrap, pcode, Re.cat, Re.opt, Re.always, Re.lit, Re.str]))

/-- What a step yields is legible, and what it leaves is one line. -/
def StepRes.Legible : StepRes → Prop
  | .yield s _ r => s.Legible ∧ OneLine r
  | .eat r => OneLine r
  | .incl _ r => OneLine r
  | .stop => True

theorem step_legible (st : FileSettings) {line : Str} (hl : OneLine line) : Post (step st line) StepRes.Legible := by
  unfold step
  split
  · exact Post.ok (hl.part fun c hc => List.mem_of_mem_tail hc)
  rename_i hh
  split
  · rename_i hm
    exact (coord_legible st hh hm).bind fun c hc => Post.ok ⟨hc, hl.part (Re.pyMatch_rest hm)⟩
  split
  · rename_i hm
    exact Post.bind' fun _ => Post.ok ⟨trivial, hl.part (Re.pyMatch_rest hm)⟩
  split
  · rename_i hm
    obtain ⟨a, ha, hm'⟩ := matchMany_mem hm
    exact (param_legible st hl hm).bind fun a ha => by
      cases a
      · exact Post.ok ⟨ha, hl.part (Re.pyMatch_rest hm')⟩
      · exact Post.ok (hl.part (Re.pyMatch_rest hm'))
  split
  · rename_i hm
    refine Post.ok ⟨?_, hl.part (Re.pyMatch_rest hm)⟩
    show _ ∨ _
    split <;> simp
  split
  · rename_i hm
    refine Post.ok ⟨?_, hl.part (Re.pyMatch_rest hm)⟩
    show _ ∨ _
    split <;> simp
  split
  · rename_i hm
    obtain ⟨g, h1, h2, -, h3⟩ := caught hm (n := "comment") (by
      simp [reComment, Re.cat, Re.opt, Re.always, Re.lit])
    have : g = .star (· != '*') := by
      simpa [reComment, Re.cat, Re.opt, Re.groups, Re.lit] using h1
    rw [this] at h2
    refine Post.ok ⟨⟨hl.part h3, fun hs => ?_⟩, hl.part (Re.pyMatch_rest hm)⟩
    simpa using List.all_eq_true.1 h2 _ hs
  split
  · rename_i hm
    refine Post.ok ⟨?_, hl.part (Re.pyMatch_rest hm)⟩
    show _ ∨ _
    split <;> simp
  split
  · rename_i hm
    exact Post.ok ⟨hl, hl.part (Re.pyMatch_rest hm)⟩
  split
  · rename_i hm
    exact Post.ok ⟨trivial, hl.part (Re.pyMatch_rest hm)⟩
  split
  · exact Post.ok ⟨hl, fun c hc => by cases hc⟩
  · exact Post.ok trivial

theorem parseLine_legible {inc : Includer} (hi : ∀ f st, Post (inc f st) (fun r => ∀ s ∈ r.1, s.Legible)) (n : ℕ)
    (st : FileSettings) {line : Str} (hl : OneLine line) :
    Post (parseLine inc n st line) (fun r => (∀ s ∈ r.1, s.Legible) ∧ OneLine r.2.2) := by
  induction n generalizing st line with
  | zero => exact Post.ok ⟨by simp, hl⟩
  | succ n ih =>
    unfold parseLine
    split
    · exact Post.ok ⟨by simp, fun c hc => by cases hc⟩
    have hs := step_legible st hl
    split
    · exact Post.error
    · exact Post.ok ⟨by simp, hl⟩
    · rename_i r h
      exact ih _ (hs _ h)
    · rename_i s st' r h
      obtain ⟨h1, h2⟩ := hs _ h
      exact (ih _ h2).bind fun a ha => Post.ok ⟨by simpa [h1] using ha.1, ha.2⟩
    · rename_i f r h
      refine (hi _ _).bind fun a ha => (ih _ (hs _ h)).bind fun b hb => Post.ok ⟨?_, hb.2⟩
      intro s hs
      exact (List.mem_append.1 hs).elim (ha s) (hb.1 s)

theorem oneLine_strip {s : Str} (h : OneLine s) : OneLine (strip s) :=
  h.part fun c hc => by
    have h1 := (List.dropWhile_sublist _).mem (List.mem_reverse.1 hc)
    exact (List.dropWhile_sublist _).mem (List.mem_reverse.1 h1)

theorem parseBlocks_legible {inc : Includer} (hi : ∀ f st, Post (inc f st) (fun r => ∀ s ∈ r.1, s.Legible))
    (st : FileSettings) {old : Str} (ho : OneLine old) {bs : List Str} (hb : ∀ b ∈ bs, OneLine b) :
    Post (parseBlocks inc st old bs) (fun r => ∀ s ∈ r.1, s.Legible) := by
  induction bs generalizing st old with
  | nil => exact Post.ok (by simp)
  | cons b bs ih =>
    have hb' := fun x hx => hb x (List.mem_cons_of_mem _ hx)
    have hline : OneLine (old ++ strip b) := ho.append (oneLine_strip (hb b (by simp)))
    unfold parseBlocks
    dsimp only
    split
    · exact ih _ ho hb'
    split
    · exact ih _ hline hb'
    · refine (parseLine_legible hi _ _ hline).bind fun a ha => (ih _ ha.2 hb').bind fun b hb => Post.ok ?_
      intro s hs
      exact (List.mem_append.1 hs).elim (ha.1 s) (hb s)

/-- Every statement read from a text is legible. -/
theorem legible_parseData (fs : Str → Option Str) (k depth : ℕ) (st : FileSettings) (data : Str) :
    Post (parseData fs k depth st data) (fun r => ∀ s ∈ r.1, s.Legible) := by
  induction k generalizing depth st data with
  | zero => exact Post.error
  | succ k ih =>
    unfold parseData
    refine parseBlocks_legible ?_ st (fun c hc => by cases hc) ?_
    · intro f st'
      split
      · split
        · exact Post.error
        · exact ih _ _ _
      · exact Post.error
    · intro b hb c hc
      have := (C12_split_commands_clean data b hb).2
      aesop

end Verif.Gerber
