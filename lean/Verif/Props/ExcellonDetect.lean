import Verif.Props.ExcellonHoles

/-! # Detection of the drill file format (C30) -/

namespace Verif.Excellon
open Verif.Py Verif.Cam Verif.Utils

namespace Spec

/-- The score of a candidate, from the width and height of the board and the area of the holes: how far
the drilled share of the board is from a quarter, times how far the board is from eight square units.
Lower is better; a board without area scores 0. -/
def sizeScore (m : Measure) : ℚ :=
  if m.1.1 * m.1.2 = 0 then 0
  else (m.2.2 / (m.1.1 * m.1.2) - 1 / 4) ^ 2 * (m.1.1 * m.1.2 - 8) ^ 2

/-- The table respects what is already known. -/
def Respects (fmt : Option (List ℕ)) (zeros : Option String) (results : List (Key × Measure)) : Prop :=
  (∀ f, fmt = some f → ∀ r ∈ results, r.1.1 = f) ∧ (∀ z, zeros = some z → ∀ r ∈ results, r.1.2 = z)

/-- The best row: all other survivors are this one, or it has the least score. -/
def Best (results : List (Key × Measure)) (k : Key) : Prop :=
  ∃ r ∈ results, r.1 = k ∧ ((∀ r' ∈ results, r'.1 = k) ∨
    ∀ r' ∈ results, sizeScore r.2 ≤ sizeScore r'.2)

end Spec

open Spec

theorem dedup_one {α : Type} [DecidableEq α] {l : List α} {a : α} (h : l.dedup = [a]) :
    (∀ x ∈ l, x = a) ∧ a ∈ l := by
  constructor
  · intro x hx
    rw [← List.mem_dedup, h] at hx
    simpa using hx
  · rw [← List.mem_dedup, h]
    simp

theorem score_eq (m : Measure) : layerSizeScore m = sizeScore m := rfl

theorem pickByScore_spec {results : List (Key × Measure)} (hne : results ≠ []) :
    ∃ k, pickByScore results = .ok k ∧ Best results k := by
  unfold pickByScore
  rcases hm : (results.map fun r => layerSizeScore r.2).min? with _ | m
  · rw [List.min?_eq_none_iff, List.map_eq_nil_iff] at hm
    exact absurd hm hne
  · obtain ⟨h1, h2⟩ := List.min?_eq_some_iff.1 hm
    obtain ⟨r, h3, h4⟩ := List.mem_map.1 h1
    rcases hf : results.find? (fun r => layerSizeScore r.2 = m) with _ | r'
    · rw [List.find?_eq_none] at hf
      exact absurd (by simpa using h4) (hf r h3)
    · refine ⟨r'.1, ?_, r', List.mem_of_find?_eq_some hf, rfl, Or.inr ?_⟩
      · simp only [hm, hf]
      · intro r'' hr''
        have h5 : layerSizeScore r'.2 = m := by simpa using List.find?_some hf
        rw [← score_eq, ← score_eq, h5]
        exact h2 _ (List.mem_map.2 ⟨r'', hr'', rfl⟩)

theorem onlyOne_cases {α : Type} [DecidableEq α] (l : List α) (known : Option α) :
    (∃ a, a ∈ l ∧ (∀ x ∈ l, x = a) ∧ onlyOne l known = some a) ∨
    ((∀ a ∈ l, ∃ b ∈ l, b ≠ a) ∧ onlyOne l known = known) := by
  unfold onlyOne
  rcases hd : l.dedup with _ | ⟨a, _ | ⟨b, t⟩⟩
  · right
    have : l = [] := by
      rw [List.eq_nil_iff_forall_not_mem]
      intro x hx
      rw [← List.mem_dedup, hd] at hx
      cases hx
    subst this
    exact ⟨fun a ha => (by cases ha), rfl⟩
  · left
    exact ⟨a, (dedup_one hd).2, (dedup_one hd).1, rfl⟩
  · right
    refine ⟨?_, rfl⟩
    have ha : a ∈ l := by rw [← List.mem_dedup, hd]; simp
    have hb : b ∈ l := by rw [← List.mem_dedup, hd]; simp
    have hn : a ≠ b := by
      have := List.nodup_dedup l
      rw [hd] at this
      intro h
      subst h
      simp at this
    intro x _
    by_cases hx : a = x
    · exact ⟨b, hb, fun h => hn (hx.trans h.symm)⟩
    · exact ⟨a, ha, hx⟩

/-- **C30.** For every table of candidate results that respects what the file says about itself (at most
one of format and zeros): an empty table is a `ValueError`; otherwise the answer is a candidate of the
table, and either it is the only one or its score is no worse than that of any other. -/
theorem C30_decide {fmt : Option (List ℕ)} {zeros : Option String} {results : List (Key × Measure)}
    (hr : Respects fmt zeros results) (hh : fmt = none ∨ zeros = none) :
    (results = [] → decideFormat fmt zeros results = .error .valueError) ∧
    (results ≠ [] → ∃ k, decideFormat fmt zeros results = .ok k ∧ Best results k) := by
  constructor
  · rintro rfl
    rcases hh with rfl | rfl
    · cases zeros <;> rfl
    · cases fmt <;> rfl
  · intro hne
    obtain ⟨r0, hr0⟩ := List.exists_mem_of_ne_nil _ hne
    obtain ⟨k, hk, hb⟩ := pickByScore_spec hne
    unfold decideFormat
    rcases onlyOne_cases (results.map fun r => r.1.1) fmt with ⟨f, _, h1, h2⟩ | ⟨h1, h2⟩
    · rcases onlyOne_cases (results.map fun r => r.1.2) zeros with ⟨z, _, h3, h4⟩ | ⟨h3, h4⟩
      · have e : ∀ r ∈ results, r.1 = (f, z) := fun r hr =>
          Prod.ext (h1 _ (List.mem_map.2 ⟨r, hr, rfl⟩)) (h3 _ (List.mem_map.2 ⟨r, hr, rfl⟩))
        refine ⟨(f, z), by rw [h2, h4], r0, hr0, e r0 hr0, Or.inl e⟩
      · have hz : zeros = none := by
          rcases zeros with _ | z
          · rfl
          · obtain ⟨b, hb1, hb2⟩ := h3 _ (List.mem_map.2 ⟨r0, hr0, rfl⟩)
            obtain ⟨r, h5, rfl⟩ := List.mem_map.1 hb1
            exact absurd ((hr.2 z rfl r h5).trans (hr.2 z rfl r0 hr0).symm) hb2
        exact ⟨k, by rw [h2, h4, hz]; exact hk, hb⟩
    · have hf : fmt = none := by
        rcases fmt with _ | f
        · rfl
        · obtain ⟨b, hb1, hb2⟩ := h1 _ (List.mem_map.2 ⟨r0, hr0, rfl⟩)
          obtain ⟨r, h5, rfl⟩ := List.mem_map.1 hb1
          exact absurd ((hr.1 f rfl r h5).trans (hr.1 f rfl r0 hr0).symm) hb2
      exact ⟨k, by rw [h2, hf]; exact hk, hb⟩

/-- The candidate `k` survives for the file: it can be read with these settings and has measures `m`. -/
def Survives (data : Str) (k : Key) (m : Measure) : Prop := ∃ st f,
  FileSettings.init "absolute" "inch" none k.1 (some k.2) "degrees" = .ok st ∧
  parseRaw (some st) [] data = .ok f ∧ measure f = .ok m

theorem candidate_spec {data : Str} {k : Key} {o : Option (Key × Measure)} (h : candidate data k = .ok o) :
    (∀ r, o = some r → r.1 = k ∧ Survives data k r.2) ∧ (∀ m, Survives data k m → o = some (k, m)) := by
  unfold candidate at h
  rcases h1 : FileSettings.init "absolute" "inch" none k.1 (some k.2) "degrees" with e | st
  · rw [h1] at h; cases h
  rw [h1] at h
  change Except.ok (match parseRaw (some st) [] data >>= measure with
    | .ok m => some (k, m)
    | .error _ => none) = _ at h
  rcases h2 : (parseRaw (some st) [] data >>= measure) with e | m
  · rw [h2] at h
    cases h
    refine ⟨fun r hr => (by cases hr), ?_⟩
    rintro m ⟨st', f, i1, i2, i3⟩
    rw [h1] at i1
    cases i1
    rw [i2] at h2
    change measure f = _ at h2
    rw [i3] at h2
    cases h2
  · rw [h2] at h
    cases h
    constructor
    · intro r hr
      cases hr
      rcases h3 : parseRaw (some st) [] data with e | f
      · rw [h3] at h2; cases h2
      · rw [h3] at h2
        exact ⟨rfl, st, f, h1, h3, h2⟩
    · rintro m' ⟨st', f, i1, i2, i3⟩
      rw [h1] at i1
      cases i1
      rw [i2] at h2
      change measure f = _ at h2
      rw [i3] at h2
      cases h2
      rfl

theorem mapM_candidates {data : Str} : ∀ {keys : List Key} {l : List (Option (Key × Measure))},
    keys.mapM (candidate data) = .ok l → List.Forall₂ (fun k o => candidate data k = .ok o) keys l
  | [], l, h => by cases h; exact .nil
  | k :: keys, l, h => by
    rw [List.mapM_cons] at h
    rcases h1 : candidate data k with e | o
    · rw [h1] at h; cases h
    rw [h1] at h
    rcases h2 : keys.mapM (candidate data) with e | l'
    · change (keys.mapM (candidate data) >>= _) = _ at h
      rw [h2] at h; cases h
    · change (keys.mapM (candidate data) >>= _) = _ at h
      rw [h2] at h
      cases h
      exact .cons h1 (mapM_candidates h2)

/-- The table of a file contains exactly the candidates that can be read, with their measures. -/
theorem candidates_spec {data : Str} {keys : List Key} {res : List (Key × Measure)}
    (h : candidates data keys = .ok res) :
    ∀ k m, (k, m) ∈ res ↔ k ∈ keys ∧ Survives data k m := by
  unfold candidates at h
  rcases h1 : keys.mapM (candidate data) with e | l
  · rw [h1] at h; cases h
  rw [h1] at h
  cases h
  have h2 := mapM_candidates h1
  clear h1
  intro k m
  induction h2 with
  | nil => simp
  | @cons k0 o keys l h3 h4 ih =>
    obtain ⟨c1, c2⟩ := candidate_spec h3
    rw [List.mem_cons]
    rcases o with _ | ⟨k1, m1⟩
    · rw [List.filterMap_cons_none rfl, ih]
      constructor
      · rintro ⟨h5, h6⟩; exact ⟨Or.inr h5, h6⟩
      · rintro ⟨h5 | h5, h6⟩
        · subst h5; cases c2 m h6
        · exact ⟨h5, h6⟩
    · obtain ⟨rfl, h7⟩ := c1 _ rfl
      rw [List.filterMap_cons_some (f := id) (b := (k1, m1)) rfl, List.mem_cons, ih]
      constructor
      · rintro (h5 | ⟨h5, h6⟩)
        · cases h5; exact ⟨Or.inl rfl, h7⟩
        · exact ⟨Or.inr h5, h6⟩
      · rintro ⟨h5 | h5, h6⟩
        · subst h5
          have := c2 m h6
          cases this
          exact Or.inl rfl
        · exact Or.inr ⟨h5, h6⟩

/-- The format is one of the fixed ones, or the one of the only format comment. -/
def AdmissibleFormat (fmt : Option (List ℕ)) (f : List ℕ) : Prop :=
  match fmt with
  | none => f = [2, 4] ∨ f = [2, 5] ∨ f = [3, 3]
  | some g => f = g

/-- The zeros are one of the two, or those of the only unit statement. -/
def AdmissibleZeros (zeros : Option String) (z : String) : Prop :=
  match zeros with
  | none => z = "leading" ∨ z = "trailing"
  | some y => z = y

theorem mem_candidateKeys {fmt : Option (List ℕ)} {zeros : Option String} {k : Key} :
    k ∈ candidateKeys fmt zeros ↔ AdmissibleFormat fmt k.1 ∧ AdmissibleZeros zeros k.2 := by
  rcases k with ⟨f, z⟩
  unfold candidateKeys
  rw [List.mem_flatMap]
  have h1 : z ∈ zerosOptions zeros ↔ AdmissibleZeros zeros z := by
    cases zeros <;> simp [zerosOptions, AdmissibleZeros]
  have h2 : f ∈ formatOptions fmt ↔ AdmissibleFormat fmt f := by
    cases fmt <;> simp [formatOptions, AdmissibleFormat]
  rw [← h1, ← h2]
  constructor
  · rintro ⟨z', h3, h4⟩
    obtain ⟨f', h5, h6⟩ := List.mem_map.1 h4
    cases h6
    exact ⟨h5, h3⟩
  · rintro ⟨h3, h4⟩
    exact ⟨z, h4, List.mem_map.2 ⟨f, h3, rfl⟩⟩

/-- **C30, the whole detection.** For every text for which the detection answers: the format is one of
the three fixed ones, or the one of the format comment if there is exactly one; the zeros are leading or
trailing, or those of the unit statement if there is exactly one.  Unless both are given, the answer
survives (the text can be read with it), and it is the only admissible pair that survives or its score is
no worse than that of any other that survives. -/
theorem C30_detect {data : Str} {k : Key} (h : detectFormat data = .ok k) :
    ∃ f fmt, parseRaw none [] data = .ok f ∧ hintFormat f.statements = .ok fmt ∧
      AdmissibleFormat fmt k.1 ∧ AdmissibleZeros (hintZeros f.statements) k.2 ∧
      (fmt = none ∨ hintZeros f.statements = none → ∃ m, Survives data k m ∧
        ((∀ k' m', AdmissibleFormat fmt k'.1 → AdmissibleZeros (hintZeros f.statements) k'.2 →
            Survives data k' m' → k' = k) ∨
         (∀ k' m', AdmissibleFormat fmt k'.1 → AdmissibleZeros (hintZeros f.statements) k'.2 →
            Survives data k' m' → sizeScore m ≤ sizeScore m'))) := by
  unfold detectFormat at h
  rcases h1 : parseRaw none [] data with e | f
  · rw [h1] at h; cases h
  rw [h1] at h
  change (hintFormat f.statements >>= _) = _ at h
  rcases h2 : hintFormat f.statements with e | fmt
  · rw [h2] at h; cases h
  rw [h2] at h
  refine ⟨f, fmt, rfl, h2, ?_⟩
  have table : fmt = none ∨ hintZeros f.statements = none →
      (candidates data (candidateKeys fmt (hintZeros f.statements)) >>=
        decideFormat fmt (hintZeros f.statements)) = .ok k := by
    intro hh
    rcases fmt with _ | fm
    · exact h
    · rcases hh with hh | hh
      · cases hh
      · rw [hh] at h ⊢
        exact h
  by_cases hh : fmt = none ∨ hintZeros f.statements = none
  · have ht := table hh
    rcases h3 : candidates data (candidateKeys fmt (hintZeros f.statements)) with e | res
    · rw [h3] at ht; cases ht
    rw [h3] at ht
    change decideFormat fmt (hintZeros f.statements) res = .ok k at ht
    have hc := candidates_spec h3
    have hresp : Respects fmt (hintZeros f.statements) res := by
      constructor
      · rintro fm rfl ⟨⟨a, b⟩, m⟩ hr
        exact (mem_candidateKeys.1 ((hc _ _).1 hr).1).1
      · intro z hz
        rintro ⟨⟨a, b⟩, m⟩ hr
        have := (mem_candidateKeys.1 ((hc _ _).1 hr).1).2
        rw [hz] at this
        exact this
    obtain ⟨hd1, hd2⟩ := C30_decide hresp hh
    by_cases hne : res = []
    · rw [hd1 hne] at ht; cases ht
    obtain ⟨k', h4, ⟨k'', m⟩, h5, h6, h7⟩ := hd2 hne
    rw [ht] at h4
    cases h4
    obtain rfl : k'' = k := h6
    obtain ⟨h8, h9⟩ := (hc k'' m).1 h5
    obtain ⟨h10, h11⟩ := mem_candidateKeys.1 h8
    refine ⟨h10, h11, fun _ => ⟨m, h9, ?_⟩⟩
    rcases h7 with h7 | h7
    · left
      intro k' m' i1 i2 i3
      exact h7 _ ((hc k' m').2 ⟨mem_candidateKeys.2 ⟨i1, i2⟩, i3⟩)
    · right
      intro k' m' i1 i2 i3
      exact h7 _ ((hc k' m').2 ⟨mem_candidateKeys.2 ⟨i1, i2⟩, i3⟩)
  · rcases fmt with _ | fm
    · exact absurd (Or.inl rfl) hh
    · rcases hz : hintZeros f.statements with _ | z
      · exact absurd (Or.inr hz) hh
      · rw [hz] at h
        cases h
        exact ⟨rfl, rfl, fun h => (by rcases h with h | h <;> cases h)⟩

/-- A file without hints: the pair with the least score is taken. -/
example : detectFormat (prog ["M48", "T01C0.1", "%", "T01", "X010000Y010000", "X020000Y030000", "M30"]) =
    .ok ([2, 4], "leading") := by
  decide +kernel

/-- A format comment may give a format outside of the fixed list; it is taken as it is. -/
theorem C30_comment_format : detectFormat (prog ["M48", ";FILE_FORMAT=4:4", "METRIC,TZ", "T01C0.1", "%",
    "T01", "X010000Y010000", "M30"]) = .ok ([4, 4], "trailing") := by
  decide +kernel

/-- No candidate survives: `ValueError` from `min`. -/
theorem C30_no_candidate : detectFormat (prog ["M48", "T01", "%", "T01", "X01Y01", "M30"]) =
    .error .valueError := by
  decide +kernel

example : decideFormat none none [(([2, 4], "leading"), ((-1, -2), 3, 1)), (([2, 5], "leading"), ((-2, -4), 3, 1))] =
    .ok ([2, 5], "leading") := by
  decide +kernel

end Verif.Excellon
