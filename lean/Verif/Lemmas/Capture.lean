import Verif.Lemmas.Regex

/-! # What a group of a regular expression can capture -/

namespace Verif.Py.Re

/-- The texts an expression can match. -/
def Lang : Re → Str → Prop
  | .chr p, s => ∃ c, p c = true ∧ s = [c]
  | .eps, s => s = []
  | .seq a b, s => ∃ u v, s = u ++ v ∧ a.Lang u ∧ b.Lang v
  | .alt a b, s => a.Lang s ∨ b.Lang s
  | .star p, s => s.all p = true
  | .grp _ a, s => a.Lang s

theorem starMatch_all {p : Char → Bool} (s : Str) : ∀ x ∈ starMatch p s, x.1.all p = true := by
  induction s with
  | nil => simp [starMatch]
  | cons c s ih =>
    intro x hx
    simp only [starMatch] at hx
    split at hx
    · rename_i hc
      simp only [List.mem_append, List.mem_map, List.mem_singleton] at hx
      rcases hx with ⟨y, hy, rfl⟩ | rfl
      · simp [hc, ih y hy]
      · rfl
    · simp only [List.mem_singleton] at hx
      subst hx; rfl

theorem run_lang (a : Re) (s : Str) : ∀ m ∈ a.run s, a.Lang m.1 := by
  induction a generalizing s with
  | chr p =>
    cases s with
    | nil => simp [Re.run]
    | cons c s =>
      intro m hm
      simp only [Re.run] at hm
      split at hm <;> simp at hm
      rename_i hc
      subst hm; exact ⟨c, hc, rfl⟩
  | eps => intro m hm; simp [Re.run] at hm; subst hm; rfl
  | seq a b iha ihb =>
    intro m hm
    simp only [Re.run, List.mem_flatMap, List.mem_map] at hm
    obtain ⟨x, hx, y, hy, rfl⟩ := hm
    exact ⟨x.1, y.1, rfl, iha s x hx, ihb _ y hy⟩
  | alt a b iha ihb =>
    intro m hm
    simp only [Re.run, List.mem_append] at hm
    exact hm.imp (iha s m) (ihb s m)
  | star p =>
    intro m hm
    simp only [Re.run, List.mem_map] at hm
    obtain ⟨x, hx, rfl⟩ := hm
    exact starMatch_all s x hx
  | grp n a ih =>
    intro m hm
    simp only [Re.run, List.mem_map] at hm
    obtain ⟨x, hx, rfl⟩ := hm
    exact ih s x hx

/-- The named groups of an expression. -/
def groups : Re → List (String × Re)
  | .chr _ | .eps | .star _ => []
  | .seq a b | .alt a b => a.groups ++ b.groups
  | .grp n a => (n, a) :: a.groups

theorem run_caps (a : Re) (s : Str) :
    ∀ m ∈ a.run s, ∀ x ∈ m.2.1, ∃ g, (x.1, g) ∈ a.groups ∧ g.Lang x.2 := by
  induction a generalizing s with
  | chr p =>
    cases s with
    | nil => simp [Re.run]
    | cons c s =>
      intro m hm
      simp only [Re.run] at hm
      split at hm <;> simp at hm
      subst hm; simp
  | eps => intro m hm; simp [Re.run] at hm; subst hm; simp
  | seq a b iha ihb =>
    intro m hm x hx
    simp only [Re.run, List.mem_flatMap, List.mem_map] at hm
    obtain ⟨y, hy, z, hz, rfl⟩ := hm
    simp only [List.mem_append] at hx
    rcases hx with hx | hx
    · obtain ⟨g, h1, h2⟩ := iha s y hy x hx
      exact ⟨g, by simp [groups, h1], h2⟩
    · obtain ⟨g, h1, h2⟩ := ihb _ z hz x hx
      exact ⟨g, by simp [groups, h1], h2⟩
  | alt a b iha ihb =>
    intro m hm x hx
    simp only [Re.run, List.mem_append] at hm
    rcases hm with hm | hm
    · obtain ⟨g, h1, h2⟩ := iha s m hm x hx
      exact ⟨g, by simp [groups, h1], h2⟩
    · obtain ⟨g, h1, h2⟩ := ihb s m hm x hx
      exact ⟨g, by simp [groups, h1], h2⟩
  | star p =>
    intro m hm x hx
    simp only [Re.run, List.mem_map] at hm
    obtain ⟨y, hy, rfl⟩ := hm
    simp at hx
  | grp n a ih =>
    intro m hm x hx
    simp only [Re.run, List.mem_map] at hm
    obtain ⟨y, hy, rfl⟩ := hm
    simp only [List.mem_cons] at hx
    rcases hx with rfl | hx
    · exact ⟨a, by simp [groups], run_lang a s y hy⟩
    · obtain ⟨g, h1, h2⟩ := ih s y hy x hx
      exact ⟨g, by simp [groups, h1], h2⟩

theorem mem_of_lookup {cs : Caps} {n : String} {v : Str} (h : cs.get n = some v) : (n, v) ∈ cs := by
  induction cs with
  | nil => cases h
  | cons x cs ih =>
    obtain ⟨k, w⟩ := x
    unfold Caps.get at h ih
    rw [List.lookup_cons] at h
    split at h
    · rename_i hk
      cases h
      rw [beq_iff_eq] at hk
      subst hk; simp
    · exact List.mem_cons_of_mem _ (ih h)

/-- A captured text is one that a group of that name can match. -/
theorem pyMatch_get {a : Re} {s r v : Str} {cs : Caps} {n : String}
    (hm : a.pyMatch s = some (cs, r)) (hv : cs.get n = some v) :
    ∃ g, (n, g) ∈ a.groups ∧ g.Lang v := by
  unfold pyMatch at hm
  cases hr : a.run s with
  | nil => rw [hr] at hm; simp at hm
  | cons m l =>
    rw [hr] at hm
    simp only [List.head?_cons, Option.map_some, Option.some.injEq] at hm
    have := run_caps a s m (by rw [hr]; simp)
    rw [hm] at this
    exact this (n, v) (mem_of_lookup hv)

theorem lang_opt {a : Re} {s : Str} (h : (opt a).Lang s) : a.Lang s ∨ s = [] := h

theorem lang_lit {c : Char} {s : Str} (h : (lit c).Lang s) : s = [c] := by
  obtain ⟨d, hd, rfl⟩ := h
  rw [beq_iff_eq] at hd
  rw [hd]

theorem lang_plus {p : Char → Bool} {s : Str} (h : (plus p).Lang s) : s ≠ [] ∧ s.all p = true := by
  obtain ⟨u, v, rfl, ⟨c, hc, rfl⟩, hv⟩ := h
  have hv' : v.all p = true := hv
  constructor
  · simp
  · simp [hc, hv']

end Verif.Py.Re
