import Verif.Props.Rs274xText
import Verif.Props.AmPrim
import Verif.Model.GroupWrite

/-! # C70: the macros that are written for groups -/

set_option linter.unusedSectionVars false

namespace Verif.Rs274x
open Verif.Py Verif.Cam Verif.Gerber Verif.Am

/-! ## Spec -/

/-- A primitive whose text can be read again from a file: a shape whose numbers are printed exactly and without
exponent, or a comment of one line. -/
def Plainly (p : AmPrim) : Prop :=
  ShapeOK FixedDigits p ∨ ∃ c, p = .comment c ∧ '*' ∉ c ∧ '=' ∉ c ∧ Gerber.Plain c

/-! ## The text of the primitives -/

/-- Line breaks only inside, and no white space beside them. -/
def Neat (s : Str) : Prop := Tidy s ∧ s.head? ≠ some '\n' ∧ s.getLast? ≠ some '\n'

theorem neat_append {a b : Str} (ha : Neat a) (hb : Neat b) : Neat (a ++ b) := by
  obtain ⟨a1, a2, a3⟩ := ha
  obtain ⟨b1, b2, b3⟩ := hb
  refine ⟨List.isChain_append.2 ⟨a1, b1, ?_⟩, ?_, ?_⟩
  · intro x hx y hy
    refine ⟨?_, ?_⟩
    · rintro rfl; exact absurd hx a3
    · rintro rfl; exact absurd hy b2
  · cases a with
    | nil => exact b2
    | cons c a => exact a2
  · rcases b.eq_nil_or_concat with rfl | ⟨t, d, rfl⟩
    · simpa using a3
    · simpa using b3

theorem neat_line {s : Str} (h : '\n' ∉ s) : Neat s := by
  refine ⟨?_, fun h' => h (List.mem_of_head? h'), fun h' => h (List.mem_of_getLast? h')⟩
  induction s with
  | nil => exact List.IsChain.nil
  | cons c s ih =>
    have ih := ih fun h' => h (by simp [h'])
    cases s with
    | nil => exact List.IsChain.singleton _
    | cons d s =>
      refine List.IsChain.cons_cons ⟨?_, ?_⟩ ih
      · rintro rfl; simp at h
      · rintro rfl; simp at h

theorem neat_flatMap {α : Type} {f : α → Str} {l : List α} (h : ∀ a ∈ l, Neat (f a)) : Neat (l.flatMap f) := by
  induction l with
  | nil => exact neat_line (by simp)
  | cons a l ih => exact neat_append (h a (by simp)) (ih fun a ha => h a (by simp [ha]))

/-- A number, perhaps after a line break. -/
def NumField (s : Str) : Prop := ∃ t : Str, t.all isNumCh = true ∧ (s = t ∨ t ≠ [] ∧ s = '\n' :: t)

theorem NumField.neat {s : Str} (h : NumField s) : Neat (',' :: s) := by
  obtain ⟨t, ht, h⟩ := h
  have hn : '\n' ∉ t := fun hm => by
    have := List.all_eq_true.1 ht _ hm
    revert this; decide
  rcases h with rfl | ⟨hne, rfl⟩
  · exact neat_line (by simp [hn])
  · obtain ⟨c, t, rfl⟩ := List.exists_cons_of_ne_nil hne
    have hc := not_isSpace_of_isNumCh (List.all_eq_true.1 ht c (by simp))
    have h1 := neat_line hn
    refine ⟨List.IsChain.cons_cons ⟨fun h => by simp at h, fun _ => rfl⟩
      (List.IsChain.cons_cons ⟨fun _ => hc, fun h => by subst h; simp at hn⟩ h1.1), by simp, ?_⟩
    simpa [List.getLast?_cons_cons] using h1.2.2

theorem NumField.plain {s : Str} (h : NumField s) : ∀ c ∈ s, c = '\n' ∨ (c ≠ '%' ∧ c ≠ '\r') := by
  obtain ⟨t, ht, h⟩ := h
  have key : ∀ c ∈ t, c = '\n' ∨ (c ≠ '%' ∧ c ≠ '\r') := by
    intro c hc
    have := List.all_eq_true.1 ht c hc
    right
    constructor <;> rintro rfl <;> revert this <;> decide
  rcases h with rfl | ⟨-, rfl⟩
  · exact key
  · intro c hc
    rcases List.mem_cons.1 hc with rfl | hc
    · exact .inl rfl
    · exact key c hc

theorem numField_of {s : Str} (h : s.all isNumCh = true) : NumField s := ⟨s, h, .inl rfl⟩

theorem fields_num (p : AmPrim) : ∀ s ∈ fields ['\n'] p, NumField s := by
  have r := fun x => numField_of (pyRepr_all x)
  have g := fun P x => numField_of (fmtG_all P x)
  have n := fun k => numField_of (natStr_num k)
  have z := fun k => numField_of (intStr_num k)
  have e : ∀ on, NumField (expText on) := fun on => numField_of (by cases on <;> decide)
  have nlg : ∀ P x, NumField ('\n' :: fmtG P x) := fun P x => ⟨fmtG P x, fmtG_all P x, .inr ⟨fmtG_ne_nil P x, rfl⟩⟩
  · cases p with
    | outline on s ps ro =>
      cases ps with
      | nil => simp [fields, ptFields, r, g, n, e]
      | cons q l =>
        intro s hs
        simp only [fields, ptFields, List.cons_append, List.nil_append, List.mem_cons, List.mem_append,
          List.mem_flatMap, List.not_mem_nil, or_false] at hs
        rcases hs with rfl | rfl | rfl | rfl | rfl | rfl | ⟨q', -, rfl | rfl⟩ | rfl
        exacts [e _, n _, g _ _, g _ _, g _ _, g _ _, nlg _ _, g _ _, r _]
    | _ => simp [fields, r, g, z, e]

/-- What the text of a primitive looks like. -/
theorem toGerber_neat {p : AmPrim} (h : Plainly p) : Neat (toGerber p) ∧
    (∀ c ∈ toGerber p, c = '\n' ∨ (c ≠ '%' ∧ c ≠ '\r')) ∧ ∃ t, toGerber p = t ++ ['*'] := by
  rcases h with h | ⟨c, rfl, h1, h2, h3⟩
  · have hn := numField_of (natStr_num (code p))
    have hf := fields_num p
    rw [toGerber_eq h.isShape h.points, joinWith_cons]
    refine ⟨neat_append (neat_append ?_ (neat_flatMap fun s hs => (hf s hs).neat)) (neat_line (by simp)), ?_, _, rfl⟩
    · refine neat_line fun hm => ?_
      have := List.all_eq_true.1 (natStr_num (code p)) _ hm
      revert this; decide
    · intro c hc
      simp only [List.mem_append, List.mem_flatMap, List.mem_cons, List.not_mem_nil, or_false] at hc
      rcases hc with (hc | ⟨s, hs, rfl | hc⟩) | rfl
      · exact hn.plain c hc
      · right; decide
      · exact (hf s hs).plain c hc
      · right; decide
  · refine ⟨neat_line ?_, ?_, '0' :: ' ' :: c ++ [' '], by simp [toGerber]⟩
    · simp only [toGerber, List.cons_append, List.mem_cons, List.mem_append, List.not_mem_nil, or_false]
      rintro (h | h | h | h | h)
      · simp at h
      · simp at h
      · exact (h3 _ h).2.2 rfl
      · simp at h
      · simp at h
    · intro d hd
      simp only [toGerber, List.cons_append, List.mem_cons, List.mem_append, List.not_mem_nil, or_false] at hd
      right
      rcases hd with rfl | rfl | hd | rfl | rfl
      · decide
      · decide
      · exact ⟨(h3 d hd).1, (h3 d hd).2.1⟩
      · decide
      · decide

theorem Plainly.rebuildable {p : AmPrim} (h : Plainly p) : Rebuildable p :=
  h.imp id fun ⟨c, h0, h1, h2, _⟩ => ⟨c, h0, h1, h2⟩

/-- The pieces that are written for primitives are one macro. -/
theorem pieces_of {ps : List AmPrim} (h : ∀ p ∈ ps, Plainly p) (hne : ps ≠ []) :
    Pieces (ps.map toGerber) (reread ps) := by
  have hb : (ps.map toGerber).flatten = bodyText ps := by simp [bodyText, List.flatMap]
  have hneat : Neat (bodyText ps) := neat_flatMap fun p hp => (toGerber_neat (h p hp)).1
  have hstar := bodyText_star (fun p hp => (h p hp).rebuildable) hne
  obtain ⟨text, ht⟩ : ∃ t, bodyText ps = t ++ ['*'] := by
    rcases ps.eq_nil_or_concat with rfl | ⟨qs, q, rfl⟩
    · exact absurd rfl hne
    · obtain ⟨-, -, t, ht⟩ := toGerber_neat (h q (by simp))
      exact ⟨bodyText qs ++ t, by simp [bodyText, ht]⟩
  have hbody : reread ps = text.filter (· ≠ '\n') := by
    rw [ht] at hstar
    simp only [oneLine, List.filter_append] at hstar
    exact (List.append_cancel_right (bs := ['*']) hstar).symm
  refine ⟨?_, text, hb.trans ht, ?_, ?_⟩
  · intro c hc
    rw [hbody, List.mem_filter] at hc
    have hm : c ∈ bodyText ps := by rw [ht]; simp [hc.1]
    obtain ⟨p, hp, hm⟩ := List.mem_flatMap.1 hm
    have hc2 : c ≠ '\n' := by simpa using hc.2
    rcases (toGerber_neat (h p hp)).2.1 c hm with h' | h'
    · exact absurd h' hc2
    · exact ⟨h'.1, h'.2, hc2⟩
  · simp [hbody]
  · have := neat_append (neat_line (s := ['*']) (by simp)) hneat
    rw [ht] at this
    simpa using this.1

/-! ## Names -/

/-- `str(x)[0:2]` of a number has only characters that names may have. -/
def TwoOK (two : ℝ → Str) : Prop := ∀ x, ∀ d ∈ two x, asciiLetter d ∨ isDig d = true ∨ d ∈ ['_', '$', '.', '+', '-']

def NameChars (s : Str) : Prop := ∀ d ∈ s, asciiLetter d ∨ isDig d = true ∨ d ∈ ['_', '$', '.', '+', '-']

theorem NameChars.append {a b : Str} (ha : NameChars a) (hb : NameChars b) : NameChars (a ++ b) := by
  intro d hd
  exact (List.mem_append.1 hd).elim (ha d) (hb d)

theorem nameChars_nat (n : ℕ) : NameChars (natStr n) := fun d hd =>
  .inr (.inl (List.all_eq_true.1 (natStr_all n) d hd))

theorem partHash_name {two : ℝ → Str} (h2 : TwoOK two) (a : Am.Drawn) {r : Str}
    (h : Verif.Equiv.partHash two (Verif.Equiv.ofAm a).shape = .ok r) : NameChars r ∧ r ≠ [] := by
  unfold Verif.Equiv.partHash at h
  obtain ⟨b, -, h⟩ := evBind h
  obtain rfl := (Except.ok.inj h).symm
  have ht : ∀ x, NameChars (two x) := h2
  rcases a with ⟨dark, shape⟩
  have hC : NameChars ['C'] := fun d hd => .inl (by rw [List.mem_singleton] at hd; subst hd; right; decide)
  have hO : NameChars ['O'] := fun d hd => .inl (by rw [List.mem_singleton] at hd; subst hd; right; decide)
  have hP : NameChars ['P'] := fun d hd => .inl (by rw [List.mem_singleton] at hd; subst hd; right; decide)
  have hN : NameChars [] := fun d hd => by cases hd
  cases shape with
  | circle p d => exact ⟨(hC.append ((ht _).append (ht _))).append (ht _), by simp [Verif.Equiv.ofAm, Verif.Equiv.Shape.letter]⟩
  | outline ls =>
    exact ⟨(hO.append ((ht _).append (ht _))).append (nameChars_nat _), by simp [Verif.Equiv.ofAm, Verif.Equiv.Shape.letter]⟩
  | polygon p n r rot =>
    exact ⟨(hP.append ((ht _).append (ht _))).append hN, by simp [Verif.Equiv.ofAm, Verif.Equiv.Shape.letter]⟩

theorem hashFrom_name {two : ℝ → Str} (h2 : TwoOK two) : ∀ (l : List Am.Drawn) (acc r : Str), NameChars acc →
    Verif.Equiv.hashFrom two acc (l.map Verif.Equiv.ofAm) = .ok r →
    NameChars r ∧ acc.length ≤ r.length ∧ (l ≠ [] → acc.length < r.length)
  | [], acc, r, hacc, h => by
    obtain rfl := Except.ok.inj h
    exact ⟨hacc, le_refl _, fun h => absurd rfl h⟩
  | a :: l, acc, r, hacc, h => by
    simp only [List.map_cons, Verif.Equiv.hashFrom] at h
    obtain ⟨p, hp, h⟩ := evBind h
    obtain ⟨p1, p2⟩ := partHash_name h2 a hp
    have hl : acc.length < (acc ++ p).length := by
      have := List.length_pos_of_ne_nil p2
      simp; omega
    split at h
    · obtain rfl := Except.ok.inj h
      exact ⟨hacc.append p1, hl.le, fun _ => hl⟩
    · obtain ⟨k1, k2, -⟩ := hashFrom_name h2 l _ r (hacc.append p1) h
      exact ⟨k1, by omega, fun _ => by omega⟩

/-- Parts of groups: outlines have lines. -/
def Am.Formed (a : Am.Drawn) : Prop := ∀ ls, a.shape = .outline ls → ls ≠ []

theorem mkOutline_formed {ls : List (Geom.RPt × Geom.RPt)} {o : Am.Shape} (h : mkOutline ls = .ok o) (on : Bool) :
    Am.Formed ⟨on, o⟩ := by
  unfold mkOutline at h
  split at h
  · rename_i a b ha hb
    split at h
    · cases h
    · obtain rfl := Except.ok.inj h
      intro ls' h'
      obtain rfl := Am.Shape.outline.inj h'
      rintro rfl
      cases ha
  · cases h

theorem mapM_formed {α : Type} {f : α → PyR Am.Drawn} (hf : ∀ a d, f a = .ok d → Am.Formed d) :
    ∀ (l : List α) {ds : List Am.Drawn}, l.mapM f = .ok ds → ∀ d ∈ ds, Am.Formed d
  | [], ds, h => by
    obtain rfl := Except.ok.inj h
    simp
  | a :: l, ds, h => by
    rw [List.mapM_cons] at h
    obtain ⟨d, h1, h⟩ := evBind h
    obtain ⟨ds', h2, h⟩ := evBind h
    obtain rfl := Except.ok.inj h
    intro x hx
    rcases List.mem_cons.1 hx with rfl | hx
    · exact hf a _ h1
    · exact mapM_formed hf l h2 x hx

theorem toPrimitive_formed {p : AmPrim} {ds : List Am.Drawn} (h : toPrimitive p = .ok ds) :
    ∀ d ∈ ds, Am.Formed d := by
  have one : ∀ {on : Bool} {ls : List (Geom.RPt × Geom.RPt)},
      (do let o ← mkOutline ls; return [(⟨on, o⟩ : Am.Drawn)] : PyR (List Am.Drawn)) = .ok ds → ∀ d ∈ ds, Am.Formed d := by
    intro on ls h
    obtain ⟨o, h1, h⟩ := evBind h
    obtain rfl := Except.ok.inj h
    intro d hd
    rw [List.mem_singleton] at hd
    subst hd
    exact mkOutline_formed h1 on
  cases p with
  | comment c => obtain rfl := Except.ok.inj h; simp
  | moire => obtain rfl := Except.ok.inj h; simp
  | lowerLeft => obtain rfl := Except.ok.inj h; simp
  | unsupported => obtain rfl := Except.ok.inj h; simp
  | circle on d q => obtain rfl := Except.ok.inj h; intro d hd; rw [List.mem_singleton] at hd; subst hd; intro ls h; cases h
  | polygon on n q d r =>
    obtain rfl := Except.ok.inj h; intro d hd; rw [List.mem_singleton] at hd; subst hd; intro ls h; cases h
  | outline on s ps r => exact one h
  | centerLine on w v c r => exact one h
  | vectorLine code on w s e r =>
    simp only [toPrimitive, vectorLineShape] at h
    split at h
    · cases h
    · cases h
    · split at h
      · cases h
      · exact one h
  | thermal q o i g r =>
    simp only [toPrimitive, thermalShape] at h
    obtain ⟨a, -, h⟩ := evBind h
    obtain ⟨b, -, h⟩ := evBind h
    refine mapM_formed (fun a d hd => ?_) _ h
    obtain ⟨o, h1, hd⟩ := evBind hd
    obtain rfl := Except.ok.inj hd
    exact mkOutline_formed h1 true

theorem groupShapes_formed : ∀ (g : List AmPrim) {ds : List (List Am.Drawn)}, g.mapM toPrimitive = .ok ds →
    ∀ d ∈ ds.flatten, Am.Formed d
  | [], ds, h => by
    obtain rfl := Except.ok.inj h
    simp
  | p :: g, ds, h => by
    rw [List.mapM_cons] at h
    obtain ⟨d, h1, h⟩ := evBind h
    obtain ⟨ds', h2, h⟩ := evBind h
    obtain rfl := Except.ok.inj h
    intro x hx
    rw [List.flatten_cons, List.mem_append] at hx
    exact hx.elim (toPrimitive_formed h1 x) (groupShapes_formed g h2 x)

/-- Groups made of macros always have a hash. -/
theorem partsOf_hash (two : ℝ → Str) (g : List AmPrim) : ∃ r, Verif.Equiv.hashOf two (partsOf g) = .ok r := by
  refine Verif.Equiv.C69_hash_total two _ fun a ha => ?_
  unfold partsOf at ha
  split at ha
  · rename_i ds h
    obtain ⟨d, hd, rfl⟩ := List.mem_map.1 ha
    obtain ⟨dss, h1, h⟩ := evBind h
    obtain rfl := Except.ok.inj h
    have := groupShapes_formed g h1 d hd
    cases hs : d.shape with
    | outline ls => simpa [Verif.Equiv.ofAm, hs, Verif.Equiv.Shape.Formed] using this ls hs
    | circle p d => simp [Verif.Equiv.ofAm, hs, Verif.Equiv.Shape.Formed]
    | polygon p n r rot => simp [Verif.Equiv.ofAm, hs, Verif.Equiv.Shape.Formed]
  · cases ha

/-- The name of a macro with at least one part. -/
theorem nameOK_of {two : ℝ → Str} (h2 : TwoOK two) {g : List AmPrim} {macroOf : List AmPrim → PyR (Str × List Str)}
    (hne : partsOf g ≠ []) : NameOK ((amEnv two macroOf).hash g) := by
  obtain ⟨r, hr⟩ := partsOf_hash two g
  have e : (amEnv two macroOf).hash g = r := by simp only [amEnv, hr]
  rw [e]
  obtain ⟨l, hl, hne'⟩ : ∃ l : List Am.Drawn, partsOf g = l.map Verif.Equiv.ofAm ∧ l ≠ [] := by
    unfold partsOf at hne ⊢
    split at hne
    · rename_i ds h
      exact ⟨ds, rfl, by rintro rfl; exact hne rfl⟩
    · exact absurd rfl hne
  have hX : NameChars ['X'] := fun d hd => .inl (by rw [List.mem_singleton] at hd; subst hd; right; decide)
  have hr' := hr
  rw [hl] at hr'
  obtain ⟨h1, -, h3⟩ := hashFrom_name h2 l _ r hX hr'
  have h4 := h3 hne'
  have h5 := Verif.Equiv.C69_name two _ r hr
  cases r with
  | nil => cases h5
  | cons c t =>
    obtain rfl : c = 'X' := by simpa using h5
    refine ⟨⟨'X', t, rfl, by rintro rfl; simp at h4, .inl (.inr (by decide)), fun d hd => h1 d (by simp [hd])⟩, by simp⟩

/-! ## C70 -/

/-- The interpreter with the macros of the library; of a group, the shapes are kept that it is made of. -/
def amReader (center : String → Pt → Pt → Pt → Option Pt) : EvalEnv (List AmPrim) where
  build t _ m := (Am.build t m).map (·.filter isShape)
  center := center

/-- The backend with the macros of the library, for groups that have a statement: `source g` is that of the group
of shapes `g`. -/
noncomputable def amWriter (two : ℝ → Str) (source : List AmPrim → Source) : MacroEnv (List AmPrim) :=
  amEnv two fun g => writeGroup id (some (source g)) []

/-- A group whose statement still has the shapes the group was made of, and that draws something. -/
structure InStep (source : List AmPrim → Source) (g : List AmPrim) : Prop where
  shapes : (source g).now.filter isShape = g
  plainly : ∀ p ∈ (source g).now, Plainly p
  parts : partsOf g ≠ []

theorem InStep.writable {two : ℝ → Str} (h2 : TwoOK two) {source : List AmPrim → Source} {g : List AmPrim}
    (h : InStep source g) (center : String → Pt → Pt → Pt → Option Pt) (units : String) :
    Writable (amReader center) (amWriter two source) units g := by
  have hne : (source g).now ≠ [] := by
    intro he
    have := h.shapes
    rw [he] at this
    apply h.parts
    rw [← this]
    rfl
  have hr := fun p hp => (h.plainly p hp).rebuildable
  obtain ⟨qs, h1, h3⟩ := rebuild oneLine (.inr rfl) _ hr (bodyText_star hr hne) []
  refine ⟨nameOK_of h2 h.parts, (source g).text, (source g).now.map toGerber, reread (source g).now, rfl,
    pieces_of h.plainly hne, readMacro_of_build h1, ?_⟩
  simp only [amReader, h1, Except.map, h3, h.shapes]

/-- **C70 for groups whose statement still has their shapes**: what is read from the file that the backend writes
for a list of primitives are these primitives, with groups in place of others that the backend takes for the same. -/
theorem C70_file_partial (two : ℝ → Str) (h2 : TwoOK two) (source : List AmPrim → Source)
    (center : String → Pt → Pt → Pt → Option Pt) (o : Options) (st : FileSettings) (fs : Str → Option Str)
    (hst : FormatOK st) (hu : st.units = "metric" ∨ st.units = "inch")
    (ps : List (Option Str × RPrim (List AmPrim))) (hok : ∀ p ∈ ps, p.2.OK (amReader center) o)
    (hps : ∀ p ∈ ps, ∀ g ∈ p.2.groups, InStep source g)
    (hfit : ∀ p ∈ ps, Rs274x.CommentOK p.1 ∧ p.2.Fits st.format) :
    ∃ s text f, renderAll (amWriter two source) o (start st) ps = .ok s ∧ writeFile st s.statements = .ok text ∧
      loads (amReader center) fs text = .ok f ∧ ∃ ps' : List (Option Str × RPrim (List AmPrim)),
        List.Forall₂ (fun p p' => p.1 = p'.1 ∧ PrimStands (amWriter two source) p.2 p'.2) ps ps' ∧
        List.Forall₂ (Shown st.units) (ps'.filterMap fun p => p.2.visible) f.primitives :=
  C69_text (amReader center) (amWriter two source) o st fs hst hu (amEnv_refl two _) ps hok
    (fun p hp g hg => (hps p hp g hg).writable h2 center st.units) hfit

section
variable {G : Type} [DecidableEq G]

/-- The backend with other macros known to it. -/
def setMacros (m : Str → List (ℕ × G)) (s : RState G) : RState G := { s with macros := m }

theorem renderFlash_setMacros (m : Str → List (ℕ × G)) (o : Options) (s : RState G) (p : Pt) (pol : Option String) (d : ℕ) :
    renderFlash o (setMacros m s) p pol d = setMacros m (renderFlash o s p pol d) := by
  have h1 : ∀ (s : RState G) p q, renderLevel (setMacros m s) p q = setMacros m (renderLevel s p q) := by
    intro s p q
    simp only [renderLevel, apply_ite (setMacros m)]
    rfl
  have h2 : ∀ s : RState G, select (setMacros m s) d = setMacros m (select s d) := by
    intro s
    simp only [select, apply_ite (setMacros m)]
    rfl
  simp only [renderFlash, h1, h2]
  cases o.condensedFlash <;> rfl

end

/-- What is read from the text written for one flash of a group is a flash of what is built from the text of its macro. -/
theorem flash_text {G : Type} [DecidableEq G] (env : EvalEnv G) (menv : MacroEnv G) (o : Options) (st : FileSettings)
    (fs : Str → Option Str) (hst : FormatOK st) (hu : st.units = "metric" ∨ st.units = "inch") {g g' : G}
    (hn : NameOK (menv.hash g)) {text : Str} {built : List Str} {body : Str} (hm : menv.macroOf g = .ok (text, built))
    (hp : Pieces built body) (his : ∃ is, Macro.readMacro body = .ok is) (hb : env.build body st.units [] = .ok g')
    {p : Pt} (hpt : PtFits st.format p) {pol : Option String} (hpol : PolOK pol) :
    ∃ s text f, renderAll menv o (start st) [(none, .flash (.group g) p pol)] = .ok s ∧
      writeFile st s.statements = .ok text ∧ loads env fs text = .ok f ∧
      f.primitives = [.flash (.group g') p (pol.getD "dark") st.units] := by
  obtain ⟨n, hn1⟩ : ∃ n : MacroEnv G, n = ⟨fun _ => menv.hash g, fun a b => decide (a = b), fun _ => menv.macroOf g⟩ :=
    ⟨_, rfl⟩
  obtain ⟨s', t, f, h1, h2, h3, h4⟩ := C22_text_partial env n o st fs hst hu (by subst hn1; simp)
    [(none, .flash (.group g') p pol)] (by intro x hx; rw [List.mem_singleton] at hx; subst hx; trivial)
    (by
      intro x hx
      rw [List.mem_singleton] at hx
      subst hx
      intro k hk
      obtain rfl : k = g' := by simpa [RPrim.groups, RShape.groups] using hk
      subst hn1
      exact ⟨hn, text, built, body, hm, hp, his, hb⟩)
    (by
      intro x hx
      rw [List.mem_singleton] at hx
      subst hx
      exact ⟨fun t h => (by cases h), trivial, hpt, hpol⟩)
  have e : ∀ (n : MacroEnv G) (k : G), n.macroOf k = .ok (text, built) →
      renderAll n o (start st) [(none, .flash (.group k) p pol)] =
        .ok (renderFlash o (setMacros (fun h => if h = n.hash k then [(10, k)] else []) { (start st : RState G) with
          header := (start st : RState G).header ++ [.am (n.hash k) text built, .ad 10 (n.hash k) [[]]]
          next := 11 }) p pol 10) := by
    intro n k hk
    simp [renderAll, render, getMacro, hk, bind, Except.bind, start, setMacros]
  have e1 := e menv g hm
  have e2 := e n g' (by subst hn1; exact hm)
  rw [e2] at h1
  obtain rfl := (Except.ok.inj h1).symm
  refine ⟨_, t, f, e1, ?_, h3, ?_⟩
  · rw [← h2]
    congr 1
    subst hn1
    rw [renderFlash_setMacros, renderFlash_setMacros]
    rfl
  · simp only [List.filterMap_cons, RPrim.visible, List.filterMap_nil] at h4
    generalize f.primitives = q at h4
    cases h4 with
    | cons h4 h5 =>
      cases h5
      rw [show _ = _ from h4]
      rfl

/-- **C70, one flash**: a group is written with the shapes that its statement has at that time, whatever the shapes of
the group itself are. -/
theorem C70_flash (two : ℝ → Str) (h2 : TwoOK two) (source : List AmPrim → Source)
    (center : String → Pt → Pt → Pt → Option Pt) (o : Options) (st : FileSettings) (fs : Str → Option Str)
    (hst : FormatOK st) (hu : st.units = "metric" ∨ st.units = "inch") (g : List AmPrim) (hg : partsOf g ≠ [])
    (hnow : ∀ p ∈ (source g).now, Plainly p) (hne : (source g).now ≠ []) (p : Pt) (hp : PtFits st.format p)
    (pol : Option String) (hpol : PolOK pol) :
    ∃ s text f, renderAll (amWriter two source) o (start st) [(none, .flash (.group g) p pol)] = .ok s ∧
      writeFile st s.statements = .ok text ∧ loads (amReader center) fs text = .ok f ∧
      f.primitives = [.flash (.group ((source g).now.filter isShape)) p (pol.getD "dark") st.units] := by
  have hr := fun p hp => (hnow p hp).rebuildable
  obtain ⟨qs, h1, h3⟩ := rebuild oneLine (.inr rfl) _ hr (bodyText_star hr hne) []
  refine flash_text (amReader center) (amWriter two source) o st fs hst hu (nameOK_of h2 hg)
    (text := (source g).text) (built := (source g).now.map toGerber) rfl (pieces_of hnow hne) (readMacro_of_build h1) ?_
    hp hpol
  simp only [amReader, h1, Except.map, h3]

/-- The groups of a file that was read: the apertures made from macros whose statement was not used otherwise since. -/
theorem inStep_of_file {s : AmState} {u : ℕ × ℕ × List AmPrim} (hsame : u.2.2 = s.prims u.1)
    (hok : ∀ p ∈ u.2.2, Plainly p) (hparts : partsOf (u.2.2.filter isShape) ≠ []) {source : List AmPrim → Source}
    (hsrc : (source (u.2.2.filter isShape)).now = s.prims u.1) : InStep source (u.2.2.filter isShape) :=
  ⟨by rw [hsrc, hsame], by rw [hsrc, ← hsame]; exact hok, hparts⟩

theorem parts_circle (on : Bool) (d : ℚ) (p : ℚ × ℚ) (g : List AmPrim) {ds : List Am.Drawn}
    (h : groupShapes g = .ok ds) : partsOf (.circle on d p :: g) ≠ [] := by
  obtain ⟨dss, h1, h2⟩ := evBind h
  have : groupShapes (.circle on d p :: g) = .ok (⟨on, .circle (Geom.toR p) d⟩ :: ds) := by
    simp only [groupShapes, List.mapM_cons, toPrimitive, bind, Except.bind, h1, pure, Except.pure]
    obtain rfl := Except.ok.inj h2
    simp
  simp [partsOf, this]

theorem plainly_circle {on : Bool} {n : ℕ} (h : n < 10 ^ 9) (h0 : 0 < n) : Plainly (.circle on n (0, 0)) := by
  have d0 : ∀ {P : ℕ}, FixedDigits P 0 := ⟨0, 0, by simp, by simp, .inl rfl⟩
  refine .inl ⟨⟨n, 0, lt_of_lt_of_le h (by norm_num), by simp, .inr ?_⟩, d0, d0⟩
  have : (1 : ℚ) ≤ n := by exact_mod_cast h0
  rw [abs_of_pos (by linarith)]
  exact le_trans (by norm_num) this

/-- `str(x)[0:2]` for a number below one. -/
def tryTwo : ℝ → Str := fun _ => ['0', '.']

theorem tryTwo_ok : TwoOK tryTwo := by
  intro x d hd
  simp only [tryTwo, List.mem_cons, List.not_mem_nil, or_false] at hd
  rcases hd with rfl | rfl
  · right; left; decide
  · right; right; decide

/-- A macro used by two apertures with different modifiers, as in `C47_two_uses_violated`: a flash of the first aperture
is written, and read again, as one of the second. -/
theorem C70_two_uses_violated (two : ℝ → Str) (h2 : TwoOK two) (source : List AmPrim → Source)
    (center : String → Pt → Pt → Pt → Option Pt) (o : Options) (st : FileSettings) (fs : Str → Option Str)
    (hst : FormatOK st) (hu : st.units = "metric" ∨ st.units = "inch") :
    let file : List Stmt := [.am "DOT".toList "1,1,$1,0,0".toList [], .ad 10 "DOT".toList [[1]], .ad 11 "DOT".toList [[2]]]
    ∃ r, amRun 0 {} file = .ok r ∧ r.uses = [(0, 10, [.circle true 1 (0, 0)]), (0, 11, [.circle true 2 (0, 0)])] ∧
      ((source [.circle true 1 (0, 0)]).now = r.prims 0 →
        ∃ s text f, renderAll (amWriter two source) o (start st) [(none, .flash (.group [.circle true 1 (0, 0)]) (0, 0) none)] =
            .ok s ∧ writeFile st s.statements = .ok text ∧ loads (amReader center) fs text = .ok f ∧
          f.primitives = [.flash (.group [.circle true 2 (0, 0)]) (0, 0) "dark" st.units]) := by
  intro file
  have h : (amRun 0 {} file).toOption.map (fun s => (s.uses, s.prims 0)) =
    some ([(0, 10, [.circle true 1 (0, 0)]), (0, 11, [.circle true 2 (0, 0)])], [.circle true 2 (0, 0)]) := by
    decide +kernel
  cases hr : amRun 0 {} file with
  | error e => rw [hr] at h; cases h
  | ok r =>
    rw [hr] at h
    obtain ⟨h3, h4⟩ := Prod.mk.inj (Option.some.inj h)
    refine ⟨r, rfl, h3, fun hs => ?_⟩
    rw [show r.prims 0 = _ from h4] at hs
    have := C70_flash two h2 source center o st fs hst hu [.circle true 1 (0, 0)]
      (parts_circle _ _ _ [] (ds := []) rfl) (by
        rw [hs]
        intro p hp
        rw [List.mem_singleton] at hp
        subst hp
        exact plainly_circle (n := 2) (by norm_num) (by norm_num)) (by rw [hs]; simp) (0, 0)
      ⟨⟨0, by simp, by simp⟩, ⟨0, by simp, by simp⟩⟩ none (.inl rfl)
    rw [hs] at this
    exact this

/-- A group that has no statement, such as one made by a program, with objects that can be written.  Its statement is
written without them. -/
theorem C70_no_statement_empty (degrees : ℚ → ℚ) (parts : List Part) {t : Str × List Str}
    (h : writeGroup degrees none parts = .ok t) (st : FileSettings) (name : Str) :
    (Stmt.am name t.1 t.2).toGerber st = .ok (['%', 'A', 'M'] ++ name ++ ['*', '%']) := by
  obtain ⟨ps, -, h⟩ := evBind h
  obtain ⟨is, -, h⟩ := evBind h
  obtain rfl := Except.ok.inj h
  simp [Stmt.toGerber]

/-- The backend for groups of objects that have no statement, with a name of the kind that it makes. -/
def bareWriter : MacroEnv (List Part) := ⟨fun _ => "X00C0.0.0.".toList, fun a b => decide (a = b), writeGroup id none⟩

/-- An interpreter that keeps of a macro what it is built of, here nothing. -/
def bareReader : EvalEnv (List Part) := ⟨fun t _ m => (Am.build t m).map fun _ => [], fun _ _ _ _ => none⟩

/-- What is read from the file written for primitives. -/
def reloaded {G : Type} [DecidableEq G] (env : EvalEnv G) (menv : MacroEnv G) (st : FileSettings)
    (ps : List (Option Str × RPrim G)) : PyR (List (Prim G)) := do
  let s ← renderAll menv {} (start st) ps
  let text ← writeFile st s.statements
  let f ← loads env (fun _ => none) text
  .ok f.primitives

/-- The file written for a flash of a group without statement cannot be read: the macro is empty, so that its
definition is not taken for one and its name is unknown. -/
theorem C70_no_statement_violated :
    reloaded bareReader bareWriter trySettings [(none, .flash (.group [.circle 1 (0, 0)]) (1, 2) none)] =
      .error .keyError := by
  decide +kernel

/-! ## Samples -/

/-- A list with most kinds of primitives, and two groups. -/
def textList {G : Type} (a b : G) : List (Option Str × RPrim G) :=
  [(none, .edge (.line (0, 0) (1, 0) (some (.circle (1/2) {})) none)),
   (some ['n'], .flash (.rect 1 2 { diameter := some (1/4) }) (1, 0) (some "clear")),
   (none, .edge (.arc (1, 0) (0, 1) (0, 0) "counterclockwise" (some (.group a)) "multi-quadrant" (some "dark"))),
   (none, .region [.line (0, 0) (1, 0) none none, .arc (1, 0) (0, 0) (1/2, 0) "clockwise" none "multi-quadrant" none] none),
   (none, .edge (.line (3, 3) (3, 3) (some (.circle 1 {})) none)),
   (none, .flash (.group b) (3, 3) none)]

theorem textList_ok {G : Type} (env : EvalEnv G) (a b : G) : ∀ p ∈ textList a b, p.2.OK env {} := by
  intro p hp
  simp only [textList, List.mem_cons, List.not_mem_nil, or_false] at hp
  rcases hp with rfl | rfl | rfl | rfl | rfl | rfl
  · exact ⟨⟨fun k hk => by obtain rfl := Option.some.inj hk; exact .inl rfl, trivial⟩, by simp [REdge.aperture]⟩
  · exact .inr (.inl ⟨1/4, by norm_num, rfl⟩)
  · exact ⟨⟨fun k hk => by obtain rfl := Option.some.inj hk; trivial, .inr rfl, .inl rfl⟩,
      by simp [REdge.aperture]⟩
  · refine ⟨?_, ?_, ?_, by intro h; cases h⟩
    · intro r hr
      simp only [List.mem_cons, List.not_mem_nil, or_false] at hr
      rcases hr with rfl | rfl
      · exact ⟨fun k hk => (by cases hk), trivial⟩
      · exact ⟨fun k hk => (by cases hk), .inl rfl, .inl rfl⟩
    · simp [Contiguous, REdge.start, REdge.end_]
    · intro r hr
      simp only [List.mem_cons, List.not_mem_nil, or_false] at hr
      rcases hr with rfl | rfl <;> exact .inl rfl
  · exact ⟨⟨fun k hk => by obtain rfl := Option.some.inj hk; exact .inl rfl, trivial⟩, by simp [REdge.aperture]⟩
  · trivial

theorem textList_groups {G : Type} (a b : G) : ∀ p ∈ textList a b, ∀ g ∈ p.2.groups, g = a ∨ g = b := by
  intro p hp
  simp only [textList, List.mem_cons, List.not_mem_nil, or_false] at hp
  rcases hp with rfl | rfl | rfl | rfl | rfl | rfl <;> simp [RPrim.groups, REdge.groups, RShape.groups]

theorem textList_fits {G : Type} (a b : G) : ∀ p ∈ textList a b, CommentOK p.1 ∧ p.2.Fits trySettings.format := by
  have g : ∀ n : ℤ, n.natAbs < 10 ^ 7 → ∀ v : ℚ, v = n / 10 ^ 5 → OnGrid trySettings.format v :=
    fun n h v hv => ⟨n, h, hv⟩
  have g0 := g 0 (by norm_num) 0 (by norm_num)
  have g1 := g 100000 (by norm_num) 1 (by norm_num)
  have g3 := g 300000 (by norm_num) 3 (by norm_num)
  have gm := g (-100000) (by norm_num) (-1) (by norm_num)
  have gh := g 50000 (by norm_num) (1/2) (by norm_num)
  have ghm := g (-50000) (by norm_num) (-(1/2)) (by norm_num)
  have c : ∀ v : ℚ, ∀ z k : ℤ, z.natAbs < 10 ^ 4 → v = z * (10 : ℚ) ^ k → FourDigits v := fun v z k h h' => ⟨z, k, h, h'⟩
  have c1 := c 1 1 0 (by norm_num) (by norm_num)
  have c2 := c 2 2 0 (by norm_num) (by norm_num)
  have ch := c (1/2) 5 (-1) (by norm_num) (by norm_num)
  have cq := c (1/4) 25 (-2) (by norm_num) (by norm_num)
  have he : HoleAttr.Fits {} := ⟨by simp, by simp, by simp⟩
  have hn : CommentOK none := fun t h => by cases h
  intro p hp
  simp only [textList, List.mem_cons, List.not_mem_nil, or_false] at hp
  rcases hp with rfl | rfl | rfl | rfl | rfl | rfl
  · exact ⟨hn, ⟨g0, g0⟩, ⟨g1, g0⟩, fun k hk => by obtain rfl := Option.some.inj hk; exact ⟨ch, he⟩, .inl rfl⟩
  · refine ⟨fun t h => ?_, ⟨c1, c2, ?_, by simp, by simp⟩, ⟨g1, g0⟩, .inr (.inr rfl)⟩
    · obtain rfl := Option.some.inj h
      exact ⟨by intro d hd; rw [List.mem_singleton] at hd; subst hd; decide, by decide⟩
    · intro v hv
      obtain rfl := Option.some.inj hv
      exact cq
  · exact ⟨hn, ⟨g1, g0⟩, ⟨g0, g1⟩, ⟨by norm_num; exact gm, by norm_num; exact g0⟩,
      fun k hk => by obtain rfl := Option.some.inj hk; trivial, .inr (.inl rfl)⟩
  · refine ⟨hn, ?_, .inl rfl⟩
    intro r hr
    simp only [List.mem_cons, List.not_mem_nil, or_false] at hr
    rcases hr with rfl | rfl
    · exact ⟨⟨g0, g0⟩, ⟨g1, g0⟩, fun k hk => (by cases hk), .inl rfl⟩
    · exact ⟨⟨g1, g0⟩, ⟨g0, g0⟩, ⟨by norm_num; exact ghm, by norm_num; exact g0⟩, fun k hk => (by cases hk), .inl rfl⟩
  · exact ⟨hn, ⟨g3, g3⟩, ⟨g3, g3⟩, fun k hk => by obtain rfl := Option.some.inj hk; exact ⟨c1, he⟩, .inl rfl⟩
  · exact ⟨hn, trivial, ⟨g3, g3⟩, .inl rfl⟩

theorem trySettings_ok : FormatOK trySettings := by
  refine ⟨by decide, by decide, .inl rfl, .inr ⟨rfl, by decide, by decide⟩⟩

/-- Statements that have what their groups have, after a comment. -/
def trySource : List AmPrim → Source := fun g => ⟨[], .comment ",dot".toList :: g⟩

theorem trySource_inStep {n : ℕ} (h : n < 10 ^ 9) (h0 : 0 < n) : InStep trySource [.circle true n (0, 0)] := by
  refine ⟨rfl, ?_, parts_circle _ _ _ [] (ds := []) rfl⟩
  intro p hp
  simp only [trySource, List.mem_cons, List.not_mem_nil, or_false] at hp
  rcases hp with rfl | rfl
  · exact .inr ⟨_, rfl, by decide, by decide, fun c hc => by revert c; decide⟩
  · exact plainly_circle h h0

example : ∃ s text f, renderAll (amWriter tryTwo trySource) {} (start trySettings)
    (textList [.circle true (2 : ℕ) (0, 0)] [.circle true (3 : ℕ) (0, 0)]) = .ok s ∧
    writeFile trySettings s.statements = .ok text ∧
    loads (amReader fun _ _ _ _ => none) (fun _ => none) text = .ok f ∧ ∃ ps' : List (Option Str × RPrim (List AmPrim)),
      List.Forall₂ (fun p p' => p.1 = p'.1 ∧ PrimStands (amWriter tryTwo trySource) p.2 p'.2)
        (textList [.circle true (2 : ℕ) (0, 0)] [.circle true (3 : ℕ) (0, 0)]) ps' ∧
      List.Forall₂ (Shown "metric") (ps'.filterMap fun p => p.2.visible) f.primitives :=
  C70_file_partial tryTwo tryTwo_ok trySource _ {} trySettings _ trySettings_ok (.inl rfl) _ (textList_ok _ _ _)
    (fun p hp g hg => by
      rcases textList_groups _ _ p hp g hg with rfl | rfl
      · exact trySource_inStep (by norm_num) (by norm_num)
      · exact trySource_inStep (by norm_num) (by norm_num)) (textList_fits _ _)

/-- Groups that are compared exactly, and otherwise written as by the library. -/
noncomputable def exactWriter : MacroEnv (List AmPrim) :=
  { amWriter tryTwo trySource with equiv := fun a b => decide (a = b) }

example : ∃ s text f, renderAll exactWriter {} (start trySettings)
    (textList [.circle true (2 : ℕ) (0, 0)] [.circle true (3 : ℕ) (0, 0)]) = .ok s ∧
    writeFile trySettings s.statements = .ok text ∧
    loads (amReader fun _ _ _ _ => none) (fun _ => none) text = .ok f ∧
      List.Forall₂ (Shown "metric") ((textList [.circle true (2 : ℕ) (0, 0)] [.circle true (3 : ℕ) (0, 0)]).filterMap
        fun p => p.2.visible) f.primitives :=
  C22_text_partial _ exactWriter {} trySettings _ trySettings_ok (.inl rfl) (by intro a b h; exact of_decide_eq_true h) _
    (textList_ok _ _ _)
    (fun p hp g hg => by
      rcases textList_groups _ _ p hp g hg with rfl | rfl
      · exact (trySource_inStep (by norm_num) (by norm_num)).writable tryTwo_ok _ _
      · exact (trySource_inStep (by norm_num) (by norm_num)).writable tryTwo_ok _ _) (textList_fits _ _)

/-- A statement that was used otherwise since, as in `C70_two_uses_violated`. -/
example : ∃ source : List AmPrim → Source, (source [.circle true 1 (0, 0)]).now = [.circle true 2 (0, 0)] :=
  ⟨fun _ => ⟨[], [.circle true 2 (0, 0)]⟩, rfl⟩

example : writeGroup id none [.circle 1 (0, 0), .rectangle 1 2 0 (0, 0)] =
    .ok ("1,1,1.0,0.0,0.0*21,1,1.0,2.0,0,0,0.0*".toList, []) := by decide +kernel

end Verif.Rs274x
