import Verif.Props.Parse
import Verif.Props.EquivWrite

/-! # C22 for texts: what is read back from the text that the Gerber backend writes

`dump` (rs274x_backend.py:503-510) writes the statements as `GerberFile.write` does, one to a line. -/

set_option linter.unusedSectionVars false

namespace Verif.Rs274x
open Verif.Py Verif.Cam Verif.Gerber

variable {G : Type} [DecidableEq G]

/-! ## Spec: what can be written without loss -/

/-- Sizes of at most four digits. -/
def HoleAttr.Fits (h : HoleAttr) : Prop :=
  (∀ v, h.diameter = some v → FourDigits v) ∧ (∀ v, h.width = some v → FourDigits v) ∧
    ∀ v, h.height = some v → FourDigits v

def RShape.Fits : RShape G → Prop
  | .circle d h => FourDigits d ∧ h.Fits
  | .rect w v h => FourDigits w ∧ FourDigits v ∧ h.Fits
  | .obround w v h => FourDigits w ∧ FourDigits v ∧ h.Fits
  | .polygon n r rot h => FourDigits (r * 2) ∧ FourDigits n ∧ FourDigits rot ∧ h.Fits
  | .group _ => True

/-- Dark, clear or not given. -/
def PolOK (p : Option String) : Prop := p = none ∨ p = some "dark" ∨ p = some "clear"

/-- Coordinates that the format can express. -/
def PtFits (fmt : ℕ × ℕ) (p : Pt) : Prop := OnGrid fmt p.1 ∧ OnGrid fmt p.2

def REdge.Fits (fmt : ℕ × ℕ) : REdge G → Prop
  | .line a b k pol => PtFits fmt a ∧ PtFits fmt b ∧ (∀ x, k = some x → x.Fits) ∧ PolOK pol
  | .arc a b c _ k _ pol => PtFits fmt a ∧ PtFits fmt b ∧ PtFits fmt (c.1 - a.1, c.2 - a.2) ∧
      (∀ x, k = some x → x.Fits) ∧ PolOK pol

def RPrim.Fits (fmt : ℕ × ℕ) : RPrim G → Prop
  | .edge r => r.Fits fmt
  | .flash k p pol => k.Fits ∧ PtFits fmt p ∧ PolOK pol
  | .region rs pol => (∀ r ∈ rs, r.Fits fmt) ∧ PolOK pol

/-- Comments of one line. -/
def CommentOK (c : Option Str) : Prop := ∀ t, c = some t → Gerber.Plain t ∧ '*' ∉ t

/-- The pieces written for a macro are its text `body`, perhaps broken into lines, and a star. -/
def Pieces (built : List Str) (body : Str) : Prop := Gerber.Plain body ∧
  ∃ text, built.flatten = text ++ ['*'] ∧ Broken ('*' :: text ++ ['*']) ('*' :: body ++ ['*'])

/-- The name of a macro, not to be taken for a circle. -/
def NameOK (name : Str) : Prop := MacroName name ∧ name.head? ≠ some 'C'

/-- A group for which a macro can be written that the parser can read, and from whose text it is built again. -/
def Writable (env : EvalEnv G) (menv : MacroEnv G) (units : String) (g : G) : Prop :=
  NameOK (menv.hash g) ∧ ∃ text built body, menv.macroOf g = .ok (text, built) ∧ Pieces built body ∧
    (∃ is, Macro.readMacro body = .ok is) ∧ env.build body units [] = .ok g

/-! ## The statements that are written are well formed -/

/-- Macros that the parser can read. -/
structure MacrosReadable (menv : MacroEnv G) : Prop where
  name : ∀ g t, menv.macroOf g = .ok t → NameOK (menv.hash g)
  text : ∀ g text built, menv.macroOf g = .ok (text, built) →
    ∃ body, Pieces built body ∧ ∃ is, Macro.readMacro body = .ok is

/-- The text that is read from the pieces. -/
def joined (built : List Str) : Str := (built.flatten.filter (· ≠ '\n')).dropLast

theorem Pieces.joined {built : List Str} {body : Str} (h : Pieces built body) : joined built = body := by
  obtain ⟨-, text, h1, h2, -⟩ := h
  have h3 : body = text.filter (· ≠ '\n') := by simpa using h2
  simp [Rs274x.joined, h1, h3]

/-- As `MacrosReadable`, when the attribute `macro` of the statement is the text that is written. -/
def SameText (menv : MacroEnv G) : Prop :=
  ∀ g text built, menv.macroOf g = .ok (text, built) → joined built = text

structure WInv (st : FileSettings) (s : RState G) : Prop where
  header : ∃ z n f h, s.header = .fs z n f :: h ∧ ∀ x ∈ s.header, WF st x
  body : ∀ x ∈ s.body, WF st x
  next : 4 ≤ s.next
  shapes : ∀ k d, s.shapes k = some d → 4 ≤ d
  macros : ∀ h, ∀ m ∈ s.macros h, 4 ≤ m.1

variable {st : FileSettings}

theorem WInv.add {s s' : RState G} (h : WInv st s) (hd : SameDefs s s') (l : List Stmt) (hl : ∀ x ∈ l, WF st x)
    (hb : s'.body = s.body ++ l) : WInv st s' := by
  refine ⟨by rw [hd.header]; exact h.header, ?_, by rw [hd.next]; exact h.next, by rw [hd.shapes]; exact h.shapes,
    by rw [hd.macros]; exact h.macros⟩
  intro x hx
  rw [hb] at hx
  rcases List.mem_append.1 hx with hx | hx
  · exact h.body x hx
  · exact hl x hx

theorem WInv.same {s s' : RState G} (h : WInv st s) (hd : SameDefs s s') (hb : s'.body = s.body) : WInv st s' :=
  h.add hd [] (by simp) (by simpa using hb)

theorem WInv.emit {s : RState G} (h : WInv st s) {x : Stmt} (hx : WF st x) : WInv st (s.emit x) :=
  h.add ⟨rfl, rfl, rfl, rfl⟩ [x] (by simpa using hx) rfl

theorem WInv.start (hu : st.units = "metric" ∨ st.units = "inch") :
    WInv st (start st : RState G) := by
  refine ⟨⟨_, _, _, _, rfl, ?_⟩, (by intro x hx; cases hx), (by show 4 ≤ 10; decide), (by intro k d h; cases h),
    (by intro k m h; cases h)⟩
  intro x hx
  rcases List.mem_cons.1 hx with rfl | hx
  · exact ⟨rfl, rfl, rfl⟩
  · obtain rfl := List.mem_singleton.1 hx
    exact hu

theorem holeMods_fits {h : HoleAttr} (hf : h.Fits) : ∀ v ∈ holeMods h, FourDigits v := by
  have hr : ∀ v ∈ holeMods.rectMods h, FourDigits v := by
    intro v hv
    unfold holeMods.rectMods at hv
    split at hv
    · rename_i w u hw hu
      split at hv
      · simp only [List.mem_cons, List.not_mem_nil, or_false] at hv
        rcases hv with rfl | rfl
        · exact hf.2.1 _ hw
        · exact hf.2.2 _ hu
      · cases hv
    · cases hv
  intro v hv
  unfold holeMods at hv
  split at hv
  · rename_i d hd
    split at hv
    · obtain rfl := List.mem_singleton.1 hv
      exact hf.1 _ hd
    · exact hr v hv
  · exact hr v hv

theorem adOf_wf {k : RShape G} (hk : k.Fits) (hg : ∀ g, k ≠ .group g) (d : ℕ) : WF st (adOf d k) := by
  cases k with
  | circle dia h =>
    refine .inr ⟨_, rfl, by simp, ?_, .inl rfl⟩
    intro v hv
    rcases List.mem_cons.1 hv with rfl | hv
    · exact hk.1
    · exact holeMods_fits hk.2 v hv
  | rect w v h =>
    refine .inr ⟨_, rfl, by simp, ?_, .inr (.inl rfl)⟩
    intro x hx
    simp only [List.mem_cons] at hx
    rcases hx with rfl | rfl | hx
    · exact hk.1
    · exact hk.2.1
    · exact holeMods_fits hk.2.2 x hx
  | obround w v h =>
    refine .inr ⟨_, rfl, by simp, ?_, .inr (.inr (.inl rfl))⟩
    intro x hx
    simp only [List.mem_cons] at hx
    rcases hx with rfl | rfl | hx
    · exact hk.1
    · exact hk.2.1
    · exact holeMods_fits hk.2.2 x hx
  | polygon n r rot h =>
    refine .inr ⟨_, rfl, by simp, ?_, .inr (.inr (.inr (.inl rfl)))⟩
    intro x hx
    simp only [List.mem_cons] at hx
    rcases hx with rfl | rfl | rfl | hx
    · exact hk.1
    · exact hk.2.1
    · exact hk.2.2.1
    · exact holeMods_fits hk.2.2.2 x hx
  | group g => exact absurd rfl (hg g)

theorem getShape_wf {s : RState G} (h : WInv st s) {k : RShape G} (hk : k.Fits) (hg : ∀ g, k ≠ .group g) :
    WInv st (getShape s k).1 ∧ 4 ≤ (getShape s k).2 := by
  unfold getShape
  split
  · rename_i d hd
    exact ⟨h, h.shapes k d hd⟩
  · obtain ⟨z, n, f, l, hh, hw⟩ := h.header
    refine ⟨⟨⟨z, n, f, l ++ [adOf s.next k], by simp [hh], ?_⟩, h.body, by have := h.next; simp only; omega, ?_, h.macros⟩, h.next⟩
    · intro x hx
      simp only [List.mem_append, List.mem_singleton] at hx
      rcases hx with hx | rfl
      · exact hw x hx
      · exact adOf_wf hk hg _
    · intro k' d hd
      simp only at hd
      split at hd
      · obtain rfl := Option.some.inj hd
        exact h.next
      · exact h.shapes k' d hd

theorem getMacro_wf {menv : MacroEnv G} (hR : MacrosReadable menv) (hS : SameText menv) {s s' : RState G} {g : G} {d : ℕ}
    (h : WInv st s) (hm : getMacro menv s g = .ok (s', d)) : WInv st s' ∧ 4 ≤ d := by
  unfold getMacro at hm
  simp only at hm
  split at hm
  · rename_i m hfind
    obtain ⟨rfl, rfl⟩ := Prod.mk.inj (Except.ok.inj hm)
    exact ⟨h, h.macros _ _ (List.mem_of_find?_eq_some hfind)⟩
  · obtain ⟨⟨text, built⟩, h1, h2⟩ := evBind hm
    obtain ⟨rfl, rfl⟩ := Prod.mk.inj (Except.ok.inj h2)
    obtain ⟨z, n, f, l, hh, hw⟩ := h.header
    obtain ⟨body, hp, his⟩ := hR.text g text built h1
    obtain rfl : body = text := hp.joined.symm.trans (hS g text built h1)
    have hn := hR.name g _ h1
    refine ⟨⟨⟨z, n, f, l ++ [.am (menv.hash g) body built, .ad s.next (menv.hash g) [[]]], by simp [hh], ?_⟩, h.body,
      by have := h.next; simp only; omega, h.shapes, ?_⟩, h.next⟩
    · intro x hx
      simp only [List.mem_append, List.mem_cons, List.not_mem_nil, or_false] at hx
      rcases hx with hx | rfl | rfl
      · exact hw x hx
      · exact ⟨hn.1, hp.1, hp.2, his⟩
      · exact .inl ⟨rfl, .inr hn⟩
    · intro k m hm
      simp only at hm
      split at hm
      · rcases List.mem_append.1 hm with hm | hm
        · exact h.macros _ _ hm
        · obtain rfl := List.mem_singleton.1 hm
          exact h.next
      · exact h.macros _ _ hm

theorem select_wf {s : RState G} (h : WInv st s) {d : ℕ} (hd : 4 ≤ d) : WInv st (select s d) := by
  unfold select
  split
  · exact h.add ⟨rfl, rfl, rfl, rfl⟩ [.aperture d false] (by
      intro x hx
      obtain rfl := List.mem_singleton.1 hx
      exact .inr (by omega)) rfl
  · exact h

theorem drawKey_fits {k : RShape G} (hk : k.Fits) : (drawKey k).Fits := by
  have he : HoleAttr.Fits {} := ⟨by simp, by simp, by simp⟩
  cases k with
  | rect w v h => exact ⟨hk.1, hk.2.1, he⟩
  | obround w v h => exact ⟨hk.1, hk.2.1, he⟩
  | circle d h => exact hk
  | polygon n r rot h => exact hk
  | group g => exact hk

theorem selectAperture_wf {menv : MacroEnv G} (hR : MacrosReadable menv) (hS : SameText menv) {s s' : RState G}
    {ap : Option (RShape G)} (hf : ∀ k, ap = some k → k.Fits) (h : selectAperture menv s ap = .ok s')
    (hs : WInv st s) : WInv st s' := by
  have go : ∀ k : RShape G, k.Fits → (∀ g, k ≠ .group g) → WInv st (select (getShape s k).1 (getShape s k).2) :=
    fun k hk hg => let r := getShape_wf hs hk hg; select_wf r.1 r.2
  match ap, h with
  | none, h => obtain rfl := Except.ok.inj h; exact hs
  | some (.circle d hole), h =>
    obtain rfl := Except.ok.inj h
    exact go (.circle d hole) (hf _ rfl) (by intro g h; cases h)
  | some (.rect w v hole), h =>
    obtain rfl := Except.ok.inj h
    exact go (.rect w v {}) (drawKey_fits (hf _ rfl)) (by intro g h; cases h)
  | some (.obround w v hole), h =>
    obtain rfl := Except.ok.inj h
    exact go (.obround w v {}) (drawKey_fits (hf _ rfl)) (by intro g h; cases h)
  | some (.group g), h =>
    obtain ⟨⟨s1, c⟩, h1, h⟩ := evBind h
    obtain rfl := Except.ok.inj h
    obtain ⟨h2, h3⟩ := getMacro_wf hR hS hs h1
    exact select_wf h2 h3
  | some (.polygon _ _ _ _), h => cases h

theorem renderLevel_wf {s : RState G} (h : WInv st s) {pol dflt : Option String} (hp : PolOK pol) (hd : PolOK dflt) :
    WInv st (renderLevel s pol dflt) := by
  unfold renderLevel
  simp only
  have hq : PolOK (if pol.isSome = true then pol else dflt) := by split <;> assumption
  generalize (if pol.isSome = true then pol else dflt) = p at hq
  split
  · refine h.add ⟨rfl, rfl, rfl, rfl⟩ [.lp (p.getD "dark")] ?_ rfl
    intro x hx
    obtain rfl := List.mem_singleton.1 hx
    rcases hq with rfl | rfl | rfl
    · exact .inr rfl
    · exact .inr rfl
    · exact .inl rfl
  · exact h

theorem setQuad_wf {s : RState G} (h : WInv st s) (q : String) : WInv st (setQuad s q) := by
  unfold setQuad
  split
  · refine h.add ⟨rfl, rfl, rfl, rfl⟩ [.quad (if q ≠ "multi-quadrant" then "single-quadrant" else "multi-quadrant")] ?_ rfl
    intro x hx
    obtain rfl := List.mem_singleton.1 hx
    show _ ∨ _
    split
    · exact .inl rfl
    · exact .inr rfl
  · exact h

theorem simplify_fits (pos : Option Pt) {p : Pt} (hp : PtFits st.format p) :
    (∀ v, (simplify pos p).1 = some v → OnGrid st.format v) ∧ ∀ v, (simplify pos p).2 = some v → OnGrid st.format v := by
  unfold simplify
  split
  · exact ⟨fun v h => Option.some.inj h ▸ hp.1, fun v h => Option.some.inj h ▸ hp.2⟩
  · refine ⟨fun v h => ?_, fun v h => ?_⟩
    · simp only at h
      split at h
      · exact Option.some.inj h ▸ hp.1
      · cases h
    · simp only at h
      split at h
      · exact Option.some.inj h ▸ hp.2
      · cases h

/-- An interpolation code of the backend. -/
def FuncOK (f : Option Str) : Prop := f = none ∨ f = some G01 ∨ f = some G02 ∨ f = some G03

theorem FuncOK.code {f : Option Str} (h : FuncOK f) : CodeOf 'G' f := by
  rcases h with rfl | rfl | rfl | rfl
  · exact .inl rfl
  · exact .inr ⟨'1', by simp, .inl rfl⟩
  · exact .inr ⟨'2', by simp, .inl rfl⟩
  · exact .inr ⟨'3', by simp, .inl rfl⟩

theorem op_code {o : Str} (h : o = D01 ∨ o = D02 ∨ o = D03) : CodeOf 'D' (some o) := by
  rcases h with rfl | rfl | rfl
  · exact .inr ⟨'1', by simp, .inl rfl⟩
  · exact .inr ⟨'2', by simp, .inl rfl⟩
  · exact .inr ⟨'3', by simp, .inl rfl⟩

theorem coordOf_wf {f : Option Str} (hf : FuncOK f) (pos : Option Pt) {p : Pt} (hp : PtFits st.format p) {o : Str}
    (ho : o = D01 ∨ o = D02 ∨ o = D03) : WF st (.coord (coordOf f (simplify pos p) o)) := by
  obtain ⟨h1, h2⟩ := simplify_fits pos hp
  exact ⟨hf.code, op_code ho, (fun h => by have := congrArg Coord.op h; cases this), h1, h2, (by intro v h; cases h), (by intro v h; cases h)⟩

theorem moveTo_wf {s : RState G} (h : WInv st s) {f : Option Str} (hf : FuncOK f) {a : Pt} (ha : PtFits st.format a) :
    WInv st (moveTo s f a) := by
  unfold moveTo
  split
  · refine h.add ⟨rfl, rfl, rfl, rfl⟩ [.coord (coordOf f (simplify s.pos a) D02)] ?_ rfl
    intro x hx
    obtain rfl := List.mem_singleton.1 hx
    exact coordOf_wf hf _ ha (.inr (.inl rfl))
  · exact h

theorem lineTail_wf {s : RState G} (h : WInv st s) {a b : Pt} (ha : PtFits st.format a) (hb : PtFits st.format b) :
    WInv st (lineTail s a b) := by
  unfold lineTail
  simp only
  have hf : FuncOK (if s.func ≠ some G01 then some G01 else none) := by
    split
    · exact .inr (.inl rfl)
    · exact .inl rfl
  generalize (if s.func ≠ some G01 then some G01 else none) = f at hf
  have h1 := moveTo_wf (h.same (s' := { s with func := some G01 }) ⟨rfl, rfl, rfl, rfl⟩ rfl) hf ha
  generalize moveTo { s with func := some G01 } f a = s' at *
  have hf' : FuncOK (if s.pos ≠ some a then none else f) := by
    split
    · exact .inl rfl
    · exact hf
  generalize (if s.pos ≠ some a then none else f) = f' at hf'
  split
  · refine h1.add ⟨rfl, rfl, rfl, rfl⟩ [.coord (coordOf f' (simplify s'.pos b) D01)] ?_ rfl
    intro x hx
    obtain rfl := List.mem_singleton.1 hx
    exact coordOf_wf hf' _ hb (.inl rfl)
  · split
    · rename_i hsome
      refine h1.emit ⟨hf'.code, .inl rfl, ?_, (by intro v h; cases h), (by intro v h; cases h), (by intro v h; cases h),
        (by intro v h; cases h)⟩
      rintro he
      have : f' = none := congrArg Coord.function he
      rw [this] at hsome
      cases hsome
    · exact h1

theorem onGrid_zero (fmt : ℕ × ℕ) : OnGrid fmt 0 := ⟨0, by simp, by simp⟩

theorem arcTail_wf {s : RState G} (h : WInv st s) {a b c : Pt} (ha : PtFits st.format a) (hb : PtFits st.format b)
    (hc : PtFits st.format (c.1 - a.1, c.2 - a.2)) {func : Str} (hf : FuncOK (some func)) :
    WInv st (arcTail s a b c func) := by
  unfold arcTail
  simp only
  have h1 := moveTo_wf (h.same (s' := { s with func := some func }) ⟨rfl, rfl, rfl, rfl⟩ rfl) (.inr (.inl rfl)) ha
  generalize moveTo { s with func := some func } (some G01) a = s' at *
  obtain ⟨hx, hy⟩ := simplify_fits (st := st) s'.pos hb
  refine h1.add ⟨rfl, rfl, rfl, rfl⟩ [_] ?_ rfl
  intro x hx'
  obtain rfl := List.mem_singleton.1 hx'
  refine ⟨hf.code, op_code (.inl rfl), (by intro h; cases h), hx, hy, fun v hv => ?_, fun v hv => ?_⟩
  · obtain rfl := Option.some.inj hv
    split
    · exact hc.1
    · exact onGrid_zero _
  · obtain rfl := Option.some.inj hv
    split
    · exact hc.2
    · exact onGrid_zero _

theorem funcOf_ok {dir : String} {f : Str} (h : funcOf dir = .ok f) : FuncOK (some f) := by
  unfold funcOf at h
  split at h
  · exact .inr (.inr (.inl (congrArg some (Except.ok.inj h).symm)))
  · split at h
    · exact .inr (.inr (.inr (congrArg some (Except.ok.inj h).symm)))
    · cases h

section
variable {menv : MacroEnv G} (hR : MacrosReadable menv) (hS : SameText menv)
include hR hS

theorem renderEdge_wf {s s' : RState G} {dflt : Option String} (hd : PolOK dflt) {r : REdge G} (hr : r.Fits st.format)
    (h : renderEdge menv s dflt r = .ok s') (hs : WInv st s) : WInv st s' := by
  cases r with
  | line a b ap pol =>
    have h' : renderLine menv s a b ap pol dflt = .ok s' := h
    rw [renderLine_eq] at h'
    obtain ⟨s1, h1, h2⟩ := evBind h'
    obtain rfl := Except.ok.inj h2
    exact lineTail_wf (renderLevel_wf (selectAperture_wf hR hS hr.2.2.1 h1 hs) hr.2.2.2 hd) hr.1 hr.2.1
  | arc a b c dir ap quad pol =>
    have h' : renderArc menv s a b c dir ap quad pol dflt = .ok s' := h
    rw [renderArc_eq] at h'
    obtain ⟨s1, h1, h2⟩ := evBind h'
    obtain ⟨func, hfunc, h3⟩ := evBind h2
    obtain rfl := Except.ok.inj h3
    exact arcTail_wf (renderLevel_wf (selectAperture_wf hR hS hr.2.2.2.1 h1 (setQuad_wf hs _)) hr.2.2.2.2 hd) hr.1 hr.2.1
      hr.2.2.1 (funcOf_ok hfunc)

theorem renderEdges_wf {pol : Option String} (hd : PolOK pol) : ∀ {rs : List (REdge G)} {s s' : RState G},
    (∀ r ∈ rs, r.Fits st.format) → renderEdges menv s pol rs = .ok s' → WInv st s → WInv st s'
  | [], s, s', _, h, hs => by obtain rfl := Except.ok.inj h; exact hs
  | r :: rs, s, s', hr, h, hs => by
    obtain ⟨s1, h1, h2⟩ := evBind h
    exact renderEdges_wf hd (fun r h => hr r (by simp [h])) h2 (renderEdge_wf hR hS hd (hr r (by simp)) h1 hs)

theorem renderFlash_wf (o : Options) {s : RState G} {p : Pt} {pol : Option String} {d : ℕ} (hs : WInv st s) (hd : 4 ≤ d)
    (hp : PtFits st.format p) (hpol : PolOK pol) : WInv st (renderFlash o s p pol d) := by
  unfold renderFlash
  simp only
  have h1 := select_wf (renderLevel_wf hs hpol (.inr (.inl rfl) : PolOK (some "dark"))) hd
  generalize select (renderLevel s pol (some "dark")) d = s1 at *
  split
  · refine h1.add ⟨rfl, rfl, rfl, rfl⟩ [.coord (coordOf none (simplify s1.pos p) D03)] ?_ rfl
    intro x hx
    obtain rfl := List.mem_singleton.1 hx
    exact coordOf_wf (.inl rfl) _ hp (.inr (.inr rfl))
  · refine h1.add ⟨rfl, rfl, rfl, rfl⟩ [.coord (coordOf none (simplify s1.pos p) D02), .coord { op := some D03 }] ?_
      (by simp [RState.emit, coordOf])
    intro x hx
    simp only [List.mem_cons, List.not_mem_nil, or_false] at hx
    rcases hx with rfl | rfl
    · exact coordOf_wf (.inl rfl) _ hp (.inr (.inl rfl))
    · exact ⟨.inl rfl, op_code (.inr (.inr rfl)), (by intro h; cases h), (by intro v h; cases h), (by intro v h; cases h),
        (by intro v h; cases h), (by intro v h; cases h)⟩

theorem render_wf {o : Options} {s s' : RState G} {c : Option Str} (hc : CommentOK c) {p : RPrim G}
    (hp : p.Fits st.format) (h : render menv o s c p = .ok s') (hs : WInv st s) : WInv st s' := by
  have hdark : PolOK (some "dark") := .inr (.inl rfl)
  have main : ∀ s0 : RState G, render menv o s0 none p = .ok s' → WInv st s0 → WInv st s' := by
    intro s0 h hs
    cases p with
    | edge r => exact renderEdge_wf hR hS hdark hp (show renderEdge menv s0 (some "dark") r = .ok s' from h) hs
    | region rs pol =>
      have h' : renderRegion menv o s0 rs pol = .ok s' := h
      unfold renderRegion at h'
      obtain ⟨s2, h2, h3⟩ := evBind h'
      obtain rfl := Except.ok.inj h3
      have hw := renderEdges_wf hR hS hp.2 hp.1 h2
        ((renderLevel_wf hs hp.2 hdark).emit (x := .region "on") (.inl rfl))
      refine WInv.emit ?_ (.inr rfl)
      split
      · exact hw.emit ⟨.inl rfl, op_code (.inr (.inl rfl)), (by intro h; cases h), (by intro v h; cases h),
          (by intro v h; cases h), (by intro v h; cases h), (by intro v h; cases h)⟩
      · exact hw
    | flash k q pol =>
      have go : (∀ g, k ≠ .group g) → s' = renderFlash o (getShape s0 k).1 q pol (getShape s0 k).2 → WInv st s' := by
        rintro hg rfl
        obtain ⟨h1, h2⟩ := getShape_wf hs hp.1 hg
        exact renderFlash_wf hR hS o h1 h2 hp.2.1 hp.2.2
      cases k with
      | group g =>
        obtain ⟨⟨s1, d⟩, h1, h2⟩ := evBind (show (getMacro menv s0 g >>= fun r =>
          .ok (renderFlash o r.1 q pol r.2)) = .ok s' from h)
        obtain rfl := Except.ok.inj h2
        obtain ⟨h3, h4⟩ := getMacro_wf hR hS hs h1
        exact renderFlash_wf hR hS o h3 h4 hp.2.1 hp.2.2
      | circle a b => exact go (by simp) (Except.ok.inj h).symm
      | rect a b d => exact go (by simp) (Except.ok.inj h).symm
      | obround a b d => exact go (by simp) (Except.ok.inj h).symm
      | polygon a b d e => exact go (by simp) (Except.ok.inj h).symm
  cases c with
  | none => exact main s h hs
  | some t => exact main (s.emit (.comment t)) h (hs.emit (hc t rfl))

theorem renderAll_wf {o : Options} : ∀ {ps : List (Option Str × RPrim G)} {s s' : RState G},
    (∀ p ∈ ps, CommentOK p.1 ∧ p.2.Fits st.format) → renderAll menv o s ps = .ok s' → WInv st s → WInv st s'
  | [], s, s', _, h, hs => by obtain rfl := Except.ok.inj h; exact hs
  | (c, p) :: ps, s, s', hp, h, hs => by
    obtain ⟨s1, h1, h2⟩ := evBind h
    have := hp (c, p) (by simp)
    exact renderAll_wf (fun p h => hp p (by simp [h])) h2 (render_wf hR hS this.1 this.2 h1 hs)

end

theorem wfList_ready : ∀ {l : List Stmt}, (∀ x ∈ l, WF st x) → WFList st true l
  | [], _ => trivial
  | x :: l, h => ⟨h x (by simp), fun _ => rfl, by
    simpa using wfList_ready (l := l) fun y hy => h y (by simp [hy])⟩

theorem WInv.wfList {s : RState G} (h : WInv st s) : WFList st false s.statements := by
  obtain ⟨z, n, f, l, hh, hw⟩ := h.header
  have hall : ∀ x ∈ s.statements, WF st x := by
    intro x hx
    unfold RState.statements at hx
    simp only [List.mem_append, List.mem_singleton] at hx
    rcases hx with (hx | hx) | rfl
    · exact hw x hx
    · exact h.body x hx
    · trivial
  have he : s.statements = .fs z n f :: (l ++ s.body ++ [.eof]) := by simp [RState.statements, hh]
  rw [he] at hall ⊢
  exact ⟨hall _ (by simp), (by rintro ⟨c, hc⟩; cases hc), by
    simpa [isFS] using wfList_ready fun x hx => hall x (by simp at hx ⊢; tauto)⟩

/-! ## Reading the text -/

theorem evalAll_asRead (env : EvalEnv G) : ∀ (l : List Stmt) {e e' : EvalState G} {l' : List Stmt},
    evalAll env e l = .ok (e', l') → ∃ l'', evalAll env e (l.map asRead) = .ok (e', l'')
  | [], e, e', l', h => ⟨l', h⟩
  | x :: l, e, e', l', h => by
    obtain ⟨⟨e1, x1⟩, h1, h2⟩ := evBind h
    obtain ⟨⟨e2, l2⟩, h3, h4⟩ := evBind h2
    obtain ⟨rfl, rfl⟩ := Prod.mk.inj (Except.ok.inj h4)
    obtain ⟨l'', h5⟩ := evalAll_asRead env l h3
    have : ∃ y, evaluate env e (asRead x) = .ok (e1, y) := by
      cases x with
      | am n b bs =>
        obtain ⟨rfl, rfl⟩ := Prod.mk.inj (Except.ok.inj h1)
        exact ⟨_, rfl⟩
      | _ => exact ⟨_, h1⟩
    obtain ⟨y, hy⟩ := this
    exact ⟨y :: l'', by simp only [List.map_cons, evalAll, hy, h5, bind, Except.bind]⟩

theorem text_reads (env : EvalEnv G) (fs : Str → Option Str) (hst : FormatOK st) {l l' : List Stmt} (h : WFList st false l)
    {e : EvalState G} (he : evalAll env initState l = .ok (e, l')) :
    ∃ text f, writeFile st l = .ok text ∧ loads env fs text = .ok f ∧ f.primitives = e.primitives := by
  obtain ⟨text, pst, h1, h2⟩ := C13_write_read_partial fs st hst l h
  obtain ⟨l'', h3⟩ := evalAll_asRead env l he
  exact ⟨text, ⟨l'', pst, e.primitives⟩, h1, by simp only [loads, h2, h3, bind, Except.bind], rfl⟩

/-! ## The text that is written for a macro -/

/-- The backend, when the attribute `macro` of the statements it makes is the text that is written for them. -/
def written (menv : MacroEnv G) : MacroEnv G :=
  { menv with macroOf := fun g => (menv.macroOf g).map fun t => (joined t.2, t.2) }

def rewordStmt : Stmt → Stmt
  | .am n _ b => .am n (joined b) b
  | x => x

def reword (s : RState G) : RState G := { s with header := s.header.map rewordStmt }

theorem getShape_reword (s : RState G) (k : RShape G) :
    getShape (reword s) k = (reword (getShape s k).1, (getShape s k).2) := by
  have ha : rewordStmt (adOf s.next k) = adOf s.next k := by cases k <;> rfl
  unfold getShape
  show (match s.shapes k with | some d => _ | none => _) = _
  cases s.shapes k with
  | some d => rfl
  | none => simp [reword, ha]

theorem getMacro_reword (menv : MacroEnv G) (s : RState G) (g : G) :
    getMacro (written menv) (reword s) g = (getMacro menv s g).map fun r => (reword r.1, r.2) := by
  unfold getMacro
  show (match (s.macros (menv.hash g)).find? (fun m => menv.equiv g m.2) with | some m => _ | none => _) = _
  simp only
  cases (s.macros (menv.hash g)).find? (fun m => menv.equiv g m.2) with
  | some m => rfl
  | none =>
    simp only [written]
    cases menv.macroOf g with
    | error e => rfl
    | ok t =>
      simp [Except.map, bind, Except.bind, reword, rewordStmt]
      rfl

theorem select_reword (s : RState G) (d : ℕ) : select (reword s) d = reword (select s d) := by
  simp only [select, apply_ite reword]
  rfl

theorem renderLevel_reword (s : RState G) (p q : Option String) :
    renderLevel (reword s) p q = reword (renderLevel s p q) := by
  simp only [renderLevel, apply_ite reword]
  rfl

theorem setQuad_reword (s : RState G) (q : String) : setQuad (reword s) q = reword (setQuad s q) := by
  simp only [setQuad, apply_ite reword]
  rfl

theorem moveTo_reword (s : RState G) (f : Option Str) (a : Pt) : moveTo (reword s) f a = reword (moveTo s f a) := by
  simp only [moveTo, apply_ite reword]
  rfl

theorem lineTail_reword (s : RState G) (a b : Pt) : lineTail (reword s) a b = reword (lineTail s a b) := by
  have h : ∀ f, moveTo { reword s with func := some G01 } f a = reword (moveTo { s with func := some G01 } f a) :=
    fun f => moveTo_reword { s with func := some G01 } f a
  simp only [lineTail, apply_ite reword, h]
  rfl

theorem arcTail_reword (s : RState G) (a b c : Pt) (func : Str) :
    arcTail (reword s) a b c func = reword (arcTail s a b c func) := by
  have h : moveTo { reword s with func := some func } (some G01) a =
      reword (moveTo { s with func := some func } (some G01) a) :=
    moveTo_reword { s with func := some func } (some G01) a
  simp only [arcTail, h]
  rfl

theorem renderFlash_reword (o : Options) (s : RState G) (p : Pt) (pol : Option String) (d : ℕ) :
    renderFlash o (reword s) p pol d = reword (renderFlash o s p pol d) := by
  simp only [renderFlash, renderLevel_reword, select_reword]
  cases o.condensedFlash <;> rfl

theorem selectAperture_reword (menv : MacroEnv G) (s : RState G) (ap : Option (RShape G)) :
    selectAperture (written menv) (reword s) ap = (selectAperture menv s ap).map reword := by
  match ap with
  | none => rfl
  | some (.circle d hole) => simp only [selectAperture, getShape_reword, select_reword, Except.map]
  | some (.rect w v hole) => simp only [selectAperture, getShape_reword, select_reword, Except.map]
  | some (.obround w v hole) => simp only [selectAperture, getShape_reword, select_reword, Except.map]
  | some (.polygon _ _ _ _) => rfl
  | some (.group g) =>
    simp only [selectAperture, getMacro_reword]
    cases getMacro menv s g with
    | error e => rfl
    | ok r => simp only [Except.map, bind, Except.bind, select_reword]

theorem renderEdge_reword (menv : MacroEnv G) (s : RState G) (dflt : Option String) (r : REdge G) :
    renderEdge (written menv) (reword s) dflt r = (renderEdge menv s dflt r).map reword := by
  cases r with
  | line a b ap pol =>
    simp only [renderEdge, renderLine_eq, selectAperture_reword]
    cases selectAperture menv s ap with
    | error e => rfl
    | ok s1 => simp only [Except.map, bind, Except.bind, renderLevel_reword, lineTail_reword]
  | arc a b c dir ap quad pol =>
    simp only [renderEdge, renderArc_eq, setQuad_reword, selectAperture_reword]
    cases selectAperture menv (setQuad s quad) ap with
    | error e => rfl
    | ok s1 =>
      simp only [Except.map, bind, Except.bind]
      cases funcOf dir with
      | error e => rfl
      | ok f => simp only [renderLevel_reword, arcTail_reword]

theorem renderEdges_reword (menv : MacroEnv G) (dflt : Option String) : ∀ (rs : List (REdge G)) (s : RState G),
    renderEdges (written menv) (reword s) dflt rs = (renderEdges menv s dflt rs).map reword
  | [], s => rfl
  | r :: rs, s => by
    simp only [renderEdges, renderEdge_reword]
    cases renderEdge menv s dflt r with
    | error e => rfl
    | ok s1 =>
      simp only [Except.map, bind, Except.bind]
      exact renderEdges_reword menv dflt rs s1

theorem render_reword (menv : MacroEnv G) (o : Options) (s : RState G) (c : Option Str) (p : RPrim G) :
    render (written menv) o (reword s) c p = (render menv o s c p).map reword := by
  have main : ∀ s : RState G, render (written menv) o (reword s) none p = (render menv o s none p).map reword := by
    intro s
    cases p with
    | edge r => exact renderEdge_reword menv s _ r
    | region rs pol =>
      have he : ∀ s : RState G, ∀ x, (reword s).emit x = reword (s.emit x) := fun _ _ => rfl
      simp only [render, renderRegion, renderLevel_reword, he, renderEdges_reword]
      cases renderEdges menv ((renderLevel s pol (some "dark")).emit (.region "on")) pol rs with
      | error e => rfl
      | ok s1 => cases o.explicitRegionMoveEnd <;> rfl
    | flash k q pol =>
      cases k with
      | group g =>
        simp only [render, getMacro_reword]
        cases getMacro menv s g with
        | error e => rfl
        | ok r => simp only [Except.map, bind, Except.bind, renderFlash_reword]
      | _ => simp only [render, getShape_reword, renderFlash_reword, Except.map]
  cases c with
  | none => exact main s
  | some t => exact main (s.emit (.comment t))

theorem renderAll_reword (menv : MacroEnv G) (o : Options) : ∀ (ps : List (Option Str × RPrim G)) (s : RState G),
    renderAll (written menv) o (reword s) ps = (renderAll menv o s ps).map reword
  | [], s => rfl
  | (c, p) :: ps, s => by
    simp only [renderAll, render_reword]
    cases render menv o s c p with
    | error e => rfl
    | ok s1 =>
      simp only [Except.map, bind, Except.bind]
      exact renderAll_reword menv o ps s1

theorem writeFile_reword (st : FileSettings) (m : List Stmt) :
    ∀ l : List Stmt, writeFile st (l.map rewordStmt ++ m) = writeFile st (l ++ m)
  | [] => rfl
  | x :: l => by
    have hx : (rewordStmt x).toGerber st = x.toGerber st := by cases x <;> rfl
    simp only [List.map_cons, List.cons_append, writeFile, hx, writeFile_reword st m l]

/-- The text of the rendered statements does not depend on the attribute `macro`. -/
theorem text_reword (menv : MacroEnv G) {o : Options} {st : FileSettings} {ps : List (Option Str × RPrim G)} {s : RState G}
    (h : renderAll menv o (start st) ps = .ok s) :
    ∃ s', renderAll (written menv) o (start st) ps = .ok s' ∧ writeFile st s'.statements = writeFile st s.statements := by
  have h0 : reword (start st : RState G) = start st := rfl
  have h1 := renderAll_reword menv o ps (start st)
  rw [h0, h] at h1
  refine ⟨reword s, h1, ?_⟩
  have := writeFile_reword st (s.body ++ [.eof]) s.header
  simpa only [RState.statements, reword, List.append_assoc] using this

theorem written_readable {menv : MacroEnv G} (hR : MacrosReadable menv) :
    MacrosReadable (written menv) ∧ SameText (written menv) := by
  have key : ∀ g text built, (written menv).macroOf g = .ok (text, built) →
      ∃ text', menv.macroOf g = .ok (text', built) ∧ text = joined built := by
    intro g text built h
    simp only [written] at h
    cases hm : menv.macroOf g with
    | error e => rw [hm] at h; cases h
    | ok t =>
      rw [hm] at h
      obtain ⟨rfl, rfl⟩ := Prod.mk.inj (Except.ok.inj h)
      exact ⟨t.1, rfl, rfl⟩
  refine ⟨⟨fun g t h => ?_, fun g text built h => ?_⟩, fun g text built h => ?_⟩
  · obtain ⟨text', h', -⟩ := key g t.1 t.2 h
    exact hR.name g _ h'
  · obtain ⟨text', h', -⟩ := key g text built h
    exact hR.text g text' built h'
  · obtain ⟨text', h', rfl⟩ := key g text built h
    rfl

theorem written_build {env : EvalEnv G} {menv : MacroEnv G} {units : String} {g : G} (hB : Writable env menv units g) :
    ∃ t, (written menv).macroOf g = .ok t ∧ env.build t.1 units [] = .ok g := by
  obtain ⟨-, text, built, body, h1, h2, -, h3⟩ := hB
  refine ⟨_, by simp only [written, h1, Except.map]; rfl, ?_⟩
  simpa [h2.joined] using h3

theorem only_readable {env : EvalEnv G} {menv : MacroEnv G} {units : String} {P : G → Prop}
    (hP : ∀ g, P g → Writable env menv units g) : MacrosReadable (onlyEnv P menv) := by
  refine ⟨fun g t h => (hP g (onlyEnv_ok h).1).1, fun g text built h => ?_⟩
  obtain ⟨hg, h⟩ := onlyEnv_ok h
  obtain ⟨-, text', built', body, h1, h2, h3, -⟩ := hP g hg
  obtain ⟨rfl, rfl⟩ := Prod.mk.inj (Except.ok.inj (h1.symm.trans h))
  exact ⟨body, h2, h3⟩

theorem only_writable {env : EvalEnv G} {menv : MacroEnv G} {units : String} {P : G → Prop}
    (hP : ∀ g, P g → Writable env menv units g) {g : G} (hg : P g) : Writable env (onlyEnv P menv) units g := by
  obtain ⟨h0, text, built, body, h1, h2⟩ := hP g hg
  exact ⟨h0, text, built, body, by rw [← (onlyEnv_agree P menv).macroOf g hg, h1], h2⟩

theorem macroName_long {s : Str} (h : MacroName s) : s ∉ [['C'], ['R'], ['O'], ['P']] := by
  obtain ⟨c, t, rfl, ht, -⟩ := h
  simp [ht]

/-- **C22 for texts.**  What is read from the text that the backend writes for a list of primitives are these
primitives, in the same order, without lines of length zero, if the groups among them are built again from the text
written for them. -/
theorem C22_text_partial (env : EvalEnv G) (menv : MacroEnv G) (o : Options) (st : FileSettings) (fs : Str → Option Str)
    (hst : FormatOK st) (hu : st.units = "metric" ∨ st.units = "inch") (heq : ∀ g g', menv.equiv g g' = true → g = g')
    (ps : List (Option Str × RPrim G)) (hok : ∀ p ∈ ps, p.2.OK env o)
    (hps : ∀ p ∈ ps, ∀ g ∈ p.2.groups, Writable env menv st.units g)
    (hfit : ∀ p ∈ ps, CommentOK p.1 ∧ p.2.Fits st.format) :
    ∃ s text f, renderAll menv o (start st) ps = .ok s ∧ writeFile st s.statements = .ok text ∧
      loads env fs text = .ok f ∧ List.Forall₂ (Shown st.units) (ps.filterMap fun p => p.2.visible) f.primitives := by
  obtain ⟨P, hP⟩ : ∃ P : G → Prop, P = Writable env menv st.units := ⟨_, rfl⟩
  rw [← hP] at hps
  have hW : ∀ g, P g → Writable env menv st.units g := fun g hg => hP ▸ hg
  obtain ⟨s, hs⟩ := C22_total_used env menv o P (fun g hg => by
    obtain ⟨-, text, built, body, h1, -⟩ := hW g hg; exact ⟨_, h1⟩) ps (start st) hok hps
  have hs1 := hs
  rw [renderAll_agree (onlyEnv_agree P menv) o ps (start st) hps] at hs1
  obtain ⟨s', hs', ht⟩ := text_reword (onlyEnv P menv) hs1
  obtain ⟨hR', hS'⟩ := written_readable (only_readable hW)
  have hM : MacrosOK env (written (onlyEnv P menv)) st.units := by
    refine ⟨fun g text built h => ?_, heq, fun g t h => macroName_long (hR'.name g t h).1⟩
    have hg : P g := by
      simp only [written] at h
      cases hm : (onlyEnv P menv).macroOf g with
      | error e => rw [hm] at h; cases h
      | ok t => exact (onlyEnv_ok hm).1
    obtain ⟨t, h1, h2⟩ := written_build (only_writable hW hg)
    obtain rfl := Except.ok.inj (h1.symm.trans h)
    exact h2
  obtain ⟨e, stmts, he, hf⟩ := C22_roundtrip_partial env (written (onlyEnv P menv)) o st hM ps hok s' hs'
  obtain ⟨text, f, h1, h2, h3⟩ := text_reads env fs hst
    (renderAll_wf hR' hS' hfit hs' (WInv.start hu)).wfList he
  exact ⟨s, text, f, hs, ht ▸ h1, h2, h3 ▸ hf⟩

/-- **C69 for texts**, without assuming that the backend compares groups exactly: the primitives read are those
rendered, with groups in place of others that the backend takes for the same. -/
theorem C69_text (env : EvalEnv G) (menv : MacroEnv G) (o : Options) (st : FileSettings) (fs : Str → Option Str)
    (hst : FormatOK st) (hu : st.units = "metric" ∨ st.units = "inch") (hrefl : ∀ g, menv.equiv g g = true)
    (ps : List (Option Str × RPrim G)) (hok : ∀ p ∈ ps, p.2.OK env o)
    (hps : ∀ p ∈ ps, ∀ g ∈ p.2.groups, Writable env menv st.units g)
    (hfit : ∀ p ∈ ps, CommentOK p.1 ∧ p.2.Fits st.format) :
    ∃ s text f, renderAll menv o (start st) ps = .ok s ∧ writeFile st s.statements = .ok text ∧
      loads env fs text = .ok f ∧ ∃ ps' : List (Option Str × RPrim G),
        List.Forall₂ (fun p p' => p.1 = p'.1 ∧ PrimStands menv p.2 p'.2) ps ps' ∧
        List.Forall₂ (Shown st.units) (ps'.filterMap fun p => p.2.visible) f.primitives := by
  obtain ⟨P, hP⟩ : ∃ P : G → Prop, P = Writable env menv st.units := ⟨_, rfl⟩
  rw [← hP] at hps
  have hW : ∀ g, P g → Writable env menv st.units g := fun g hg => hP ▸ hg
  obtain ⟨s, hs⟩ := C22_total_used env menv o P (fun g hg => by
    obtain ⟨-, text, built, body, h1, -⟩ := hW g hg; exact ⟨_, h1⟩) ps (start st) hok hps
  have hs1 := hs
  rw [renderAll_agree (onlyEnv_agree P menv) o ps (start st) hps] at hs1
  obtain ⟨s', hs', ht⟩ := text_reword (onlyEnv P menv) hs1
  obtain ⟨hR', hS'⟩ := written_readable (only_readable hW)
  obtain ⟨ps', hps', qs, hq, hf⟩ := C69_written env (written (onlyEnv P menv)) o st hrefl P
    (fun g hg => written_build (only_writable hW hg)) (fun g hg => macroName_long (hW g hg).1.1) ps hok hps
  simp only [readBack, hs', bind, Except.bind] at hq
  cases he : evalAll env initState s'.statements with
  | error x => rw [he] at hq; cases hq
  | ok r =>
    rw [he] at hq
    obtain rfl := Except.ok.inj hq
    obtain ⟨text, f, h1, h2, h3⟩ := text_reads env fs hst
      (renderAll_wf hR' hS' hfit hs' (WInv.start hu)).wfList he
    exact ⟨s, text, f, hs, ht ▸ h1, h2, ps', hps', h3 ▸ hf⟩

end Verif.Rs274x
