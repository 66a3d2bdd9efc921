import Verif.Model.LayerGuess
import Verif.Props.Layers
import Mathlib.Data.List.Forall2
import Mathlib.Data.List.TakeWhile

/-!
# C43: the class of a layer is guessed from its file name by the first hint that fits
-/

namespace Verif.Layers

open Verif.Py

/-! ## Specification -/

/-- `base` is the last component of a path. -/
def IsBase (path base : Str) : Prop :=
  '/' ∉ base ∧ (path = base ∨ ∃ dir, path = dir ++ '/' :: base)

/-- `e` is the extension and `root` the stem of a file name: split at the last dot, which must be
preceded by something else than dots. -/
def HasExt (name root e : Str) : Prop :=
  name = root ++ '.' :: e ∧ '.' ∉ e ∧ ∃ c ∈ root, c ≠ '.'

/-- The name without its extension. -/
def IsStem (name root : Str) : Prop :=
  (∃ e, HasExt name root e) ∨ (root = name ∧ ¬ ∃ r e, HasExt name r e)

/-- A name carries the word `x` of a hint: words separated by dots or dashes, one of which is `x`
(upper or lower case; a dot in `x` stands for any character), with at most one further word behind
it (and possibly a newline). -/
def Carries (x name : Str) : Prop :=
  ∃ pre mid post nl, name = pre ++ mid ++ post ++ nl ∧ (nl = [] ∨ nl = ['\n']) ∧
    (∀ c ∈ pre, isWord c ∨ isSep c) ∧ (pre = [] ∨ ∃ q c, pre = q ++ [c] ∧ isSep c) ∧
    List.Forall₂ (fun p c => (p = '.' ∧ c ≠ '\n') ∨ (p ≠ '.' ∧ p.toLower = c.toLower)) x mid ∧
    (post = [] ∨ ∃ c w, post = c :: w ∧ isSep c ∧ ∀ d ∈ w, isWord d)

/-- A hint fits a path: by the extension or by a word in the stem of its last component in lower
case. -/
def Fits (h : Hint) (path : Str) : Prop :=
  ∃ base, IsBase path base ∧
    ((∃ root, ∃ e ∈ h.ext, HasExt (base.map Char.toLower) root e.toList) ∨
     (∃ root, IsStem (base.map Char.toLower) root ∧ ∃ x ∈ h.name, Carries x.toList root))

/-! ## The regular expression -/

theorem sep_not_word {c : Char} (h : isSep c) : isWord c = false := by
  simp only [isSep, Bool.or_eq_true, beq_iff_eq] at h
  rcases h with h | h <;> subst h <;> decide

theorem wordSep_eq {s r : Str} (h : wordSep s = some r) :
    ∃ w c, s = w ++ c :: r ∧ (∀ d ∈ w, isWord d) ∧ isSep c := by
  unfold wordSep at h
  split at h
  · rename_i c t he
    split at h
    · rename_i hc
      cases h
      refine ⟨s.takeWhile isWord, c, ?_, fun d hd => List.mem_takeWhile_imp hd, hc⟩
      rw [← he, List.takeWhile_append_dropWhile]
    · cases h
  · cases h

theorem wordSep_of {w r : Str} {c : Char} (hw : ∀ d ∈ w, isWord d) (hc : isSep c) :
    wordSep (w ++ c :: r) = some r := by
  unfold wordSep
  rw [List.dropWhile_append_of_pos hw, List.dropWhile_cons_of_neg (by simp [sep_not_word hc])]
  simp [hc]

/-- Words with separators behind each. -/
def Prefix (pre : Str) : Prop :=
  (∀ c ∈ pre, isWord c ∨ isSep c) ∧ (pre = [] ∨ ∃ q c, pre = q ++ [c] ∧ isSep c)

theorem prefix_cons {w pre : Str} {c : Char} (hw : ∀ d ∈ w, isWord d) (hc : isSep c)
    (h : Prefix pre) : Prefix (w ++ c :: pre) := by
  constructor
  · intro d hd
    simp only [List.mem_append, List.mem_cons] at hd
    rcases hd with hd | hd | hd
    · exact Or.inl (hw d hd)
    · exact Or.inr (hd ▸ hc)
    · exact h.1 d hd
  · right
    rcases h.2 with h2 | ⟨q, e, h2, he⟩
    · subst h2; exact ⟨w, c, rfl, hc⟩
    · subst h2; exact ⟨w ++ c :: q, e, by simp, he⟩

theorem prefix_split {pre : Str} (h : Prefix pre) (hne : pre ≠ []) :
    ∃ w c pre', pre = w ++ c :: pre' ∧ (∀ d ∈ w, isWord d) ∧ isSep c ∧ Prefix pre' := by
  have hs : ∃ w c pre', pre = w ++ c :: pre' ∧ (∀ d ∈ w, isWord d) ∧ isSep c := by
    have : pre.dropWhile isWord ≠ [] := by
      intro hd
      rw [List.dropWhile_eq_nil_iff] at hd
      rcases h.2 with h2 | ⟨q, c, h2, hc⟩
      · exact hne h2
      · have := hd c (by simp [h2])
        rw [sep_not_word hc] at this
        cases this
    match hd : pre.dropWhile isWord with
    | [] => exact (this hd).elim
    | c :: t =>
      refine ⟨pre.takeWhile isWord, c, t, ?_, fun d hd => List.mem_takeWhile_imp hd, ?_⟩
      · rw [← hd, List.takeWhile_append_dropWhile]
      · have hc : isWord c = false := by
          have := List.head?_dropWhile_not isWord pre
          rw [hd] at this
          simpa using this
        rcases h.1 c (by
          rw [← List.takeWhile_append_dropWhile (p := isWord) (l := pre), hd]; simp) with h1 | h1
        · rw [hc] at h1; cases h1
        · exact h1
  obtain ⟨w, c, pre', he, hw, hc⟩ := hs
  refine ⟨w, c, pre', he, hw, hc, ?_, ?_⟩
  · intro d hd
    exact h.1 d (by simp [he, hd])
  · rcases h.2 with h2 | ⟨q, e, h2, hq⟩
    · exact (hne h2).elim
    · by_cases hp : pre' = []
      · exact Or.inl hp
      · right
        refine ⟨pre'.dropLast, pre'.getLast hp, (List.dropLast_append_getLast hp).symm, ?_⟩
        have : pre.getLast hne = e := by simp [h2]
        have h3 : pre.getLast hne = pre'.getLast hp := by
          simp only [he]
          rw [List.getLast_append_of_ne_nil _ (by simp), List.getLast_cons hp]
        rw [← h3, this]
        exact hq

theorem mem_wordSeps (n : ℕ) : ∀ s r : Str, s.length ≤ n →
    (r ∈ wordSeps n s ↔ ∃ pre, s = pre ++ r ∧ Prefix pre) := by
  induction n with
  | zero =>
    intro s r hn
    have : s = [] := by simpa using hn
    subst this
    simp only [wordSeps, List.mem_singleton]
    constructor
    · intro h; subst h; exact ⟨[], rfl, by simp, Or.inl rfl⟩
    · rintro ⟨pre, h, _⟩
      have := List.append_eq_nil_iff.1 h.symm
      exact this.2
  | succ n ih =>
    intro s r hn
    unfold wordSeps
    match hs : wordSep s with
    | none =>
      simp only [List.mem_singleton]
      constructor
      · intro h; subst h; exact ⟨[], rfl, by simp, Or.inl rfl⟩
      · rintro ⟨pre, h, hp⟩
        by_cases hne : pre = []
        · subst hne; simpa using h.symm
        · obtain ⟨w, c, pre', he, hw, hc, _⟩ := prefix_split hp hne
          rw [h, he, List.append_assoc, List.cons_append, wordSep_of hw hc] at hs
          cases hs
    | some t =>
      obtain ⟨w, c, he, hw, hc⟩ := wordSep_eq hs
      have ht : t.length ≤ n := by
        rw [he] at hn
        simp at hn
        omega
      simp only [List.mem_append, List.mem_singleton, ih t r ht]
      constructor
      · rintro (⟨pre, h, hp⟩ | h)
        · exact ⟨w ++ c :: pre, by simp [he, h], prefix_cons hw hc hp⟩
        · subst h; exact ⟨[], rfl, by simp, Or.inl rfl⟩
      · rintro ⟨pre, h, hp⟩
        by_cases hne : pre = []
        · subst hne; right; simpa using h.symm
        · left
          obtain ⟨w', c', pre', he', hw', hc', hp'⟩ := prefix_split hp hne
          refine ⟨pre', ?_, hp'⟩
          rw [h, he', List.append_assoc, List.cons_append, wordSep_of hw' hc'] at hs
          exact (Option.some.inj hs).symm

theorem patMatch_iff (x : Str) : ∀ s t : Str, patMatch x s = some t ↔
    ∃ mid, s = mid ++ t ∧ List.Forall₂
      (fun p c => (p = '.' ∧ c ≠ '\n') ∨ (p ≠ '.' ∧ p.toLower = c.toLower)) x mid := by
  induction x with
  | nil =>
    intro s t
    simp [patMatch]
  | cons p x ih =>
    intro s t
    cases s with
    | nil =>
      constructor
      · intro h; cases h
      · rintro ⟨mid, h, hf⟩
        have := (List.append_eq_nil_iff.1 h.symm).1
        subst this
        cases hf
    | cons c s =>
      have hpc : patChar p c = true ↔
          (p = '.' ∧ c ≠ '\n') ∨ (p ≠ '.' ∧ p.toLower = c.toLower) := by
        unfold patChar
        by_cases hp : p = '.' <;> simp [hp]
      unfold patMatch
      constructor
      · intro h
        split at h
        · rename_i h1
          obtain ⟨mid, hm, hf⟩ := (ih s t).1 h
          exact ⟨c :: mid, by simp [hm], List.Forall₂.cons (hpc.1 h1) hf⟩
        · cases h
      · rintro ⟨mid, h, hf⟩
        cases hf with
        | cons h1 h2 =>
          rename_i b mid
          rw [List.cons_append, List.cons.injEq] at h
          obtain ⟨hb, hs⟩ := h
          subst hb
          rw [if_pos (hpc.2 h1)]
          exact (ih s t).2 ⟨mid, hs, h2⟩

theorem atEnd_iff (s : Str) : atEnd s = true ↔ s = [] ∨ s = ['\n'] := by
  simp [atEnd]

theorem patTail_iff (s : Str) : patTail s = true ↔
    ∃ post nl, s = post ++ nl ∧ (nl = [] ∨ nl = ['\n']) ∧
      (post = [] ∨ ∃ c w, post = c :: w ∧ isSep c ∧ ∀ d ∈ w, isWord d) := by
  unfold patTail
  rw [Bool.or_eq_true, atEnd_iff]
  constructor
  · rintro (h | h)
    · match s, h with
      | c :: r, h =>
        simp only [Bool.and_eq_true, atEnd_iff] at h
        refine ⟨c :: r.takeWhile isWord, r.dropWhile isWord, ?_, h.2, Or.inr ⟨c, _, rfl, h.1,
          fun d hd => List.mem_takeWhile_imp hd⟩⟩
        rw [List.cons_append, List.takeWhile_append_dropWhile]
    · exact ⟨[], s, rfl, h, Or.inl rfl⟩
  · rintro ⟨post, nl, h, hn, hp⟩
    rcases hp with hp | ⟨c, w, hp, hc, hw⟩
    · subst hp; right; simpa [h] using hn
    · left
      subst hp
      subst h
      simp only [List.cons_append, Bool.and_eq_true, atEnd_iff, hc, true_and]
      rw [List.dropWhile_append_of_pos hw]
      rcases hn with hn | hn
      · left; simp [hn]
      · right; subst hn; decide

theorem nameMatch_iff (x name : Str) : nameMatch x name = true ↔ Carries x name := by
  unfold nameMatch
  rw [List.any_eq_true]
  constructor
  · rintro ⟨r, hr, h⟩
    obtain ⟨pre, hpre, hp⟩ := (mem_wordSeps _ _ _ le_rfl).1 hr
    split at h
    · rename_i t ht
      obtain ⟨mid, hm, hf⟩ := (patMatch_iff x r t).1 ht
      obtain ⟨post, nl, ht', hn, hpost⟩ := (patTail_iff t).1 h
      exact ⟨pre, mid, post, nl, by simp [hpre, hm, ht'], hn, hp.1, hp.2, hf, hpost⟩
    · cases h
  · rintro ⟨pre, mid, post, nl, h, hn, hp1, hp2, hf, hpost⟩
    refine ⟨mid ++ (post ++ nl), (mem_wordSeps _ _ _ le_rfl).2 ⟨pre, by simp [h], hp1, hp2⟩, ?_⟩
    rw [(patMatch_iff x _ (post ++ nl)).2 ⟨mid, rfl, hf⟩]
    exact (patTail_iff _).2 ⟨post, nl, rfl, hn, hpost⟩

/-! ## Paths and extensions -/

theorem afterLast_spec (c : Char) (s : Str) :
    c ∉ afterLast c s ∧ (s = afterLast c s ∨ ∃ d, s = d ++ c :: afterLast c s) := by
  unfold afterLast
  constructor
  · intro h
    rw [List.mem_reverse] at h
    have := List.mem_takeWhile_imp h
    simp at this
  · match hd : s.reverse.dropWhile (· != c) with
    | [] =>
      left
      rw [List.dropWhile_eq_nil_iff] at hd
      rw [List.takeWhile_eq_self_iff.2 hd, List.reverse_reverse]
    | e :: t =>
      right
      have he : e = c := by
        have := List.head?_dropWhile_not (· != c) s.reverse
        rw [hd] at this
        simpa using this
      subst he
      refine ⟨t.reverse, ?_⟩
      have := List.takeWhile_append_dropWhile (p := (· != e)) (l := s.reverse)
      rw [hd] at this
      have := congrArg List.reverse this
      rw [List.reverse_reverse] at this
      conv_lhs => rw [← this]
      simp

theorem afterLast_of {c : Char} {s : Str} (d : Str) (h : c ∉ s) :
    afterLast c (d ++ c :: s) = s := by
  unfold afterLast
  rw [List.reverse_append, List.reverse_cons, List.append_assoc, List.takeWhile_append_of_pos]
  · rw [List.singleton_append, List.takeWhile_cons_of_neg (by simp), List.append_nil,
      List.reverse_reverse]
  · intro x hx
    rw [List.mem_reverse] at hx
    have : x ≠ c := fun e => h (e ▸ hx)
    simpa using this

theorem afterLast_none {c : Char} {s : Str} (h : c ∉ s) : afterLast c s = s := by
  unfold afterLast
  rw [List.takeWhile_eq_self_iff.2, List.reverse_reverse]
  intro x hx
  rw [List.mem_reverse] at hx
  have : x ≠ c := fun e => h (e ▸ hx)
  simpa using this

theorem isBase_iff (path base : Str) : IsBase path base ↔ base = baseName path := by
  constructor
  · rintro ⟨h, rfl | ⟨d, rfl⟩⟩
    · exact (afterLast_none h).symm
    · exact (afterLast_of d h).symm
  · rintro rfl
    exact afterLast_spec '/' path

theorem hasExt_unique {name r1 e1 r2 e2 : Str} (h1 : HasExt name r1 e1) (h2 : HasExt name r2 e2) :
    r1 = r2 ∧ e1 = e2 := by
  have h3 : e1 = e2 := by
    rw [← afterLast_of r1 h1.2.1, ← afterLast_of r2 h2.2.1, ← h1.1, ← h2.1]
  subst h3
  have := h1.1.symm.trans h2.1
  exact ⟨List.append_cancel_right this, rfl⟩

/-- `splitExt` gives the stem and the extension. -/
theorem splitExt_spec (s : Str) :
    (∃ e, HasExt s (splitExt s).1 e ∧ (splitExt s).2 = '.' :: e) ∨
      ((splitExt s) = (s, []) ∧ ¬ ∃ r e, HasExt s r e) := by
  unfold splitExt
  by_cases hc : s.contains '.' = true
  · rw [if_pos hc]
    obtain ⟨hn, hs⟩ := afterLast_spec '.' s
    have hs : ∃ d, s = d ++ '.' :: afterLast '.' s := by
      rcases hs with hs | hs
      · rw [← hs] at hn
        exact (hn (by simpa using hc)).elim
      · exact hs
    obtain ⟨d, hd⟩ := hs
    have hroot : s.take (s.length - ((afterLast '.' s).length + 1)) = d := by
      generalize afterLast '.' s = e at hd
      subst hd
      simp
    simp only [hroot]
    split
    · rename_i h
      left
      refine ⟨_, ⟨hd, hn, ?_⟩, rfl⟩
      rw [List.any_eq_true] at h
      obtain ⟨c, hc, h⟩ := h
      exact ⟨c, hc, by simpa using h⟩
    · rename_i h
      right
      refine ⟨rfl, ?_⟩
      rintro ⟨r, e, he⟩
      have : e = afterLast '.' s := by rw [he.1, afterLast_of r he.2.1]
      have hr : r = d := by
        rw [this] at he
        exact List.append_cancel_right (he.1.symm.trans hd)
      subst hr
      obtain ⟨c, hc, hcn⟩ := he.2.2
      exact h (List.any_eq_true.2 ⟨c, hc, by simpa using hcn⟩)
  · rw [if_neg hc]
    right
    refine ⟨rfl, ?_⟩
    rintro ⟨r, e, he⟩
    apply hc
    rw [he.1]
    simp

theorem isStem_iff (s root : Str) : IsStem s root ↔ root = (splitExt s).1 := by
  rcases splitExt_spec s with ⟨e, he, _⟩ | ⟨he, hn⟩
  · constructor
    · rintro (⟨e', h⟩ | ⟨_, h⟩)
      · exact (hasExt_unique h he).1
      · exact (h ⟨_, _, he⟩).elim
    · rintro rfl
      exact Or.inl ⟨e, he⟩
  · rw [he]
    constructor
    · rintro (⟨e', h⟩ | ⟨h, _⟩)
      · exact (hn ⟨_, _, h⟩).elim
      · exact h
    · rintro rfl
      exact Or.inr ⟨rfl, hn⟩

theorem ext_nonempty : ∀ h ∈ hints, ∀ e ∈ h.ext, e.toList ≠ [] := by decide +kernel

theorem hintMatch_iff (h : Hint) (hh : h ∈ hints) (path : Str) :
    hintMatch (splitExt (lower (baseName path))).1 (splitExt (lower (baseName path))).2 h = true ↔
      Fits h path := by
  have hbase : ∀ base, IsBase path base → base = baseName path := fun b hb => (isBase_iff _ _).1 hb
  have key : ∀ e ∈ h.ext, (e.toList = (splitExt (lower (baseName path))).2.drop 1 ↔
      ∃ root, HasExt (lower (baseName path)) root e.toList) := by
    intro e he
    rcases splitExt_spec (lower (baseName path)) with ⟨e', h1, h2⟩ | ⟨h1, h2⟩
    · rw [h2, List.drop_one, List.tail_cons]
      constructor
      · intro h3; rw [h3]; exact ⟨_, h1⟩
      · rintro ⟨r, h3⟩; exact (hasExt_unique h3 h1).2
    · rw [h1]
      constructor
      · intro h3; exact (ext_nonempty h hh e he (by simpa using h3)).elim
      · rintro ⟨r, h3⟩; exact (h2 ⟨_, _, h3⟩).elim
  unfold hintMatch
  rw [Bool.or_eq_true, List.any_eq_true, List.any_eq_true]
  constructor
  · rintro (⟨e, he, h1⟩ | ⟨x, hx, h1⟩)
    · rw [beq_iff_eq] at h1
      obtain ⟨root, hr⟩ := (key e he).1 h1
      exact ⟨baseName path, (isBase_iff _ _).2 rfl, Or.inl ⟨root, e, he, hr⟩⟩
    · exact ⟨baseName path, (isBase_iff _ _).2 rfl,
        Or.inr ⟨_, (isStem_iff _ _).2 rfl, x, hx, (nameMatch_iff _ _).1 h1⟩⟩
  · rintro ⟨base, hb, h1⟩
    rw [hbase base hb] at h1
    rcases h1 with ⟨root, e, he, hr⟩ | ⟨root, hr, x, hx, hc⟩
    · left
      exact ⟨e, he, by rw [beq_iff_eq]; exact (key e he).2 ⟨root, hr⟩⟩
    · right
      refine ⟨x, hx, (nameMatch_iff _ _).2 ?_⟩
      rw [(isStem_iff _ _).1 hr] at hc
      exact hc

/-! ## C43 -/

theorem no_content : ∀ h ∈ hints, h.content = [] := by decide +kernel

theorem guessByContent_none (found : String → Str → Bool) (file : PyR (List Str)) :
    guessByContent found file = none := by
  unfold guessByContent
  split
  · rfl
  · rw [List.findSome?_eq_none_iff]
    intro line _
    rw [Option.map_eq_none_iff, List.find?_eq_none]
    intro h hh
    simp [no_content h hh]

/-- **C43** For every name (whatever the file contains, if it exists at all): the class of the first
hint in the table that fits, or `unknown` if none does. -/
theorem C43_first_hint (found : String → Str → Bool) (file : PyR (List Str)) (path : Str) :
    (∃ before h after, hints = before ++ h :: after ∧ Fits h path ∧
      (∀ g ∈ before, ¬ Fits g path) ∧ guessLayerClass found file path = h.layer) ∨
    ((∀ h ∈ hints, ¬ Fits h path) ∧ guessLayerClass found file path = "unknown") := by
  unfold guessLayerClass
  rw [guessByContent_none]
  match hf : hints.find? (hintMatch (splitExt (lower (baseName path))).1
      (splitExt (lower (baseName path))).2) with
  | some h =>
    left
    obtain ⟨h1, before, after, h2, h3⟩ := List.find?_eq_some_iff_append.1 hf
    refine ⟨before, h, after, h2, (hintMatch_iff h (by simp [h2]) path).1 h1, ?_, by
      simp only [hf]⟩
    intro g hg hfit
    have := h3 g hg
    rw [(hintMatch_iff g (by simp [h2, hg]) path).2 hfit] at this
    cases this
  | none =>
    right
    refine ⟨?_, by simp only [hf]⟩
    intro h hh hfit
    exact List.find?_eq_none.1 hf h hh ((hintMatch_iff h hh path).2 hfit)

/-- The extensions that the board programs give to the files of each class. -/
def usualExtensions : List (String × List String) := [
  ("top", ["gtl", "cmp", "top"]), ("bottom", ["gbl", "sld", "bot", "sol", "bottom"]),
  ("internal", ["in", "gt1", "gt2", "gt3", "gt4", "gt5", "gt6", "g1", "g2", "g3", "g4", "g5", "g6"]),
  ("topsilk", ["gto", "sst", "plc", "ts", "skt", "topsilk"]),
  ("bottomsilk", ["gbo", "ssb", "pls", "bs", "skb", "bottomsilk"]),
  ("topmask", ["gts", "stc", "tmk", "smt", "tr", "topmask"]),
  ("bottommask", ["gbs", "sts", "bmk", "smb", "br", "bottommask"]),
  ("toppaste", ["gtp", "tm", "toppaste"]), ("bottompaste", ["gbp", "bm", "bottompaste"]),
  ("outline", ["gko", "outline"]), ("ipc_netlist", ["ipc"]), ("drawing", ["fab"])]

theorem usual_known : ∀ p ∈ usualExtensions, ∀ e ∈ p.2, ∃ h ∈ hints, e ∈ h.ext := by decide +kernel

theorem usual_only : ∀ p ∈ usualExtensions, ∀ e ∈ p.2, ∀ h ∈ hints, e ∈ h.ext → h.layer = p.1 := by
  decide +kernel

/-- **C43** A file with one of the usual extensions, in upper or lower case, is of the class that has
this extension, unless the rest of its name carries a word of a hint. -/
theorem C43_extension (found : String → Str → Bool) (file : PyR (List Str)) (path : Str)
    {base root : Str} {cls e : String} {es : List String} (hc : (cls, es) ∈ usualExtensions)
    (he : e ∈ es) (hb : IsBase path base) (hr : HasExt (base.map Char.toLower) root e.toList)
    (hw : ∀ h ∈ hints, ∀ x ∈ h.name, ¬ Carries x.toList root) :
    guessLayerClass found file path = cls := by
  rcases C43_first_hint found file path with ⟨before, h, after, e1, hf, _, hg⟩ | ⟨hn, _⟩
  · have hh : h ∈ hints := by rw [e1]; simp
    rw [hg]
    obtain ⟨base', hb', h1⟩ := hf
    have : base' = base := by rw [(isBase_iff _ _).1 hb', (isBase_iff _ _).1 hb]
    subst this
    rcases h1 with ⟨root', e', he', hr'⟩ | ⟨root', hr', x, hx, hcar⟩
    · have h2 := (hasExt_unique hr' hr).2
      have h3 : e' = e := String.toList_inj.1 h2
      subst h3
      exact usual_only (cls, es) hc e' he h hh he'
    · have h2 : IsStem (base'.map Char.toLower) root := Or.inl ⟨_, hr⟩
      have h3 : root' = root := by rw [(isStem_iff _ _).1 hr', (isStem_iff _ _).1 h2]
      subst h3
      exact absurd hcar (hw h hh x hx)
  · obtain ⟨h, hh, hx⟩ := usual_known (cls, es) hc e he
    exact absurd ⟨base, hb, Or.inl ⟨root, e, hx, hr⟩⟩ (hn h hh)

example : guessLayerClass (fun _ _ => true) (.error .ioError) "/home/x/Amp_v2.GT3".toList =
    "internal" := by
  refine C43_extension _ _ _ (base := "Amp_v2.GT3".toList) (root := "amp_v2".toList)
    (cls := "internal") (e := "gt3") (.tail _ (.tail _ (.head _))) (by decide) ((isBase_iff _ _).2 (by decide +kernel))
    ⟨by decide +kernel, by decide +kernel, 'a', by decide +kernel, by decide⟩ ?_
  intro h hh x hx hcar
  have : ∀ h ∈ hints, ∀ x ∈ h.name, nameMatch x.toList "amp_v2".toList = false := by decide +kernel
  exact absurd ((nameMatch_iff _ _).2 hcar) (by rw [this h hh x hx]; decide)

/-- **C43** The directory does not matter. -/
theorem C43_directory (found : String → Str → Bool) (file file' : PyR (List Str))
    (dir base : Str) (h : '/' ∉ base) :
    guessLayerClass found file (dir ++ '/' :: base) = guessLayerClass found file' base := by
  unfold guessLayerClass
  rw [guessByContent_none, guessByContent_none]
  have : baseName (dir ++ '/' :: base) = baseName base := by
    unfold baseName
    rw [afterLast_of dir h, afterLast_none h]
  rw [this]

theorem lower_slash (c : Char) : c.toLower = '/' ↔ c = '/' := by
  constructor
  · intro h
    unfold Char.toLower at h
    split at h
    · rename_i h1
      exfalso
      have h2 := congrArg Char.toNat h
      have e : ('/' : Char).toNat = 47 := by decide
      rw [e] at h2
      have h4 : 65 ≤ c.val.toNat := h1.1
      have h5 : c.val.toNat ≤ 90 := h1.2
      simp only [Char.toNat] at h2
      rw [UInt32.toNat_add] at h2
      have : ('a'.val - 'A'.val).toNat = 32 := by decide
      omega
    · exact h
  · rintro rfl
    decide

theorem lower_baseName {p q : Str} (h : p.map Char.toLower = q.map Char.toLower) :
    lower (baseName p) = lower (baseName q) := by
  have key : ∀ s : Str, lower (baseName s) = baseName (s.map Char.toLower) := by
    intro s
    unfold lower baseName afterLast
    rw [List.map_reverse, ← List.map_reverse (l := s), List.takeWhile_map]
    congr 2
    have : (fun x : Char => x != '/') = ((fun x => x != '/') ∘ Char.toLower) := by
      funext c
      rw [Bool.eq_iff_iff]
      simp [lower_slash]
    rw [← this]
  rw [key, key, h]

/-- **C43** Upper and lower case do not matter. -/
theorem C43_case (found : String → Str → Bool) (file file' : PyR (List Str)) (p q : Str)
    (h : p.map Char.toLower = q.map Char.toLower) :
    guessLayerClass found file p = guessLayerClass found file' q := by
  unfold guessLayerClass
  rw [guessByContent_none, guessByContent_none]
  rw [lower_baseName h]

/-- Every class in the table, and no others, can be the answer. -/
theorem C43_classes (found : String → Str → Bool) (file : PyR (List Str)) (path : Str) :
    guessLayerClass found file path ∈ "unknown" :: hints.map (·.layer) := by
  rcases C43_first_hint found file path with ⟨b, h, a, e, _, _, hg⟩ | ⟨_, hg⟩
  · rw [hg, e]; simp
  · rw [hg]; simp

example : guessLayerClass (fun _ _ => true) (.ok ["top".toList]) "/a.b/Board-F.Cu.gbr".toList =
    "top" := by decide +kernel
example : guessLayerClass (fun _ _ => true) (.error .ioError) "x/board.GBL".toList = "bottom" := by
  decide +kernel
example : guessLayerClass (fun _ _ => true) (.error .ioError) ".cmp".toList = "unknown" := by
  decide +kernel
example : guessLayerClass (fun _ _ => true) (.error .ioError) "my-SILK-2.txt".toList = "topsilk" := by
  decide +kernel

/-! ## Layers made from files -/

/-- A list of layers made from files can always be sorted, and its drill layers know their sides. -/
theorem fromCam_ok (fs : List (CamKind × Str × String × Option Box)) :
    Comparable (fs.map fun f => fromCam f.1 f.2.1 f.2.2.1 f.2.2.2) ∧
      ∀ l ∈ fs.map fun f => fromCam f.1 f.2.1 f.2.2.1 f.2.2.2, l.cls = "drill" → l.sides.isSome := by
  constructor
  · right
    intro l hl hi
    obtain ⟨f, _, rfl⟩ := List.mem_map.1 hl
    unfold fromCam at hi ⊢
    split
    · rename_i h; rw [if_pos h] at hi; simp [Layer.drill] at hi
    · rename_i h
      rw [if_neg h] at hi
      split
      · rfl
      · rename_i h2
        rw [if_neg h2] at hi
        simp only [Layer.plain] at hi
        split at hi
        · simp at hi
        · exact (h2 hi).elim
  · intro l hl hi
    obtain ⟨f, _, rfl⟩ := List.mem_map.1 hl
    unfold fromCam at hi ⊢
    split
    · rfl
    · rename_i h
      rw [if_neg h] at hi
      split at hi
      · simp [Layer.internal] at hi
      · simp only [Layer.plain] at hi
        split at hi
        · simp at hi
        · exact (h (Or.inr hi)).elim

/-- **C37** for all layers made from files by `PCBLayer.from_cam`, without further conditions. -/
theorem C37_from_files (fs : List (CamKind × Str × String × Option Box)) (fromTop : Bool) :
    let layers := fs.map fun f => fromCam f.1 f.2.1 f.2.2.1 f.2.2.2
    ∃ board, IsStack layers board ∧
      sortLayers layers fromTop = .ok ((if fromTop then board else board.reverse) ++
        layers.filter (·.cls = "drill") ++ layers.filter (·.cls = "drawing")) :=
  C37_sort_layers_partial _ (fromCam_ok fs).1 fromTop

example : (sortLayers ([(.gerber, "2/b.g1".toList, "internal", none),
    (.gerber, "1/b.g2".toList, "internal", none), (.excellon, "x.gtl".toList, "top", none),
    (.ipc, "n.ipc".toList, "ipc_netlist", none), (.gerber, "t.gtl".toList, "top", none)].map
      fun f => fromCam f.1 f.2.1 f.2.2.1 f.2.2.2)).map (·.map fun l => String.ofList l.filename) =
    .ok ["t.gtl", "1/b.g2", "2/b.g1", "x.gtl"] := by decide +kernel

end Verif.Layers
