import Verif.Py.Dict

/-! # Lemmas about dictionaries -/

namespace Verif.Py
variable {κ α : Type} [DecidableEq κ]

theorem dictGet_mem {d : List (κ × α)} {k : κ} {v : α} (h : dictGet d k = some v) : (k, v) ∈ d := by
  induction d with
  | nil => cases h
  | cons x d ih =>
    unfold dictGet at h
    split at h
    · rename_i hx; cases h; subst hx; exact List.mem_cons_self
    · exact List.mem_cons_of_mem _ (ih h)

theorem dictGet_none {d : List (κ × α)} {k : κ} : dictGet d k = none ↔ k ∉ d.map (·.1) := by
  induction d with
  | nil => simp [dictGet]
  | cons x d ih =>
    unfold dictGet
    split
    · rename_i hx; simp [hx]
    · rename_i hx
      rw [ih, List.map_cons, List.mem_cons, not_or]
      exact ⟨fun h => ⟨fun e => hx e.symm, h⟩, fun h => h.2⟩

theorem dictGet_of_mem {d : List (κ × α)} (hd : (d.map (·.1)).Nodup) {k : κ} {v : α}
    (h : (k, v) ∈ d) : dictGet d k = some v := by
  induction d with
  | nil => cases h
  | cons x d ih =>
    simp only [List.map_cons, List.nodup_cons] at hd
    unfold dictGet
    rcases List.mem_cons.1 h with rfl | h
    · simp
    · rw [if_neg, ih hd.2 h]
      rintro rfl
      exact hd.1 (List.mem_map_of_mem (f := (·.1)) h)

theorem dictGet_set_self (d : List (κ × α)) (k : κ) (v : α) : dictGet (dictSet d k v) k = some v := by
  induction d with
  | nil => simp [dictSet, dictGet]
  | cons x d ih =>
    unfold dictSet
    split
    · simp [dictGet]
    · rename_i hx; unfold dictGet; rw [if_neg hx, ih]

theorem dictGet_set_ne (d : List (κ × α)) {k k' : κ} (v : α) (h : k' ≠ k) :
    dictGet (dictSet d k v) k' = dictGet d k' := by
  induction d with
  | nil => simp [dictSet, dictGet, Ne.symm h]
  | cons x d ih =>
    unfold dictSet
    split
    · rename_i hx; subst hx; simp [dictGet, Ne.symm h]
    · simp only [dictGet, ih]

theorem dictSet_new {d : List (κ × α)} {k : κ} (h : k ∉ d.map (·.1)) (v : α) :
    dictSet d k v = d ++ [(k, v)] := by
  induction d with
  | nil => rfl
  | cons x d ih =>
    simp only [List.map_cons, List.mem_cons, not_or] at h
    unfold dictSet
    rw [if_neg (fun e => h.1 e.symm), ih h.2]; rfl

theorem mem_dictSet {d : List (κ × α)} {k : κ} {v : α} {x : κ × α} (h : x ∈ dictSet d k v) :
    x = (k, v) ∨ (x ∈ d) := by
  induction d with
  | nil => simp only [dictSet, List.mem_singleton] at h; exact .inl h
  | cons y d ih =>
    unfold dictSet at h
    split at h
    · rcases List.mem_cons.1 h with h | h
      · exact .inl h
      · exact .inr (List.mem_cons_of_mem _ h)
    · rcases List.mem_cons.1 h with h | h
      · exact .inr (h ▸ List.mem_cons_self)
      · rcases ih h with h | h
        · exact .inl h
        · exact .inr (List.mem_cons_of_mem _ h)

theorem dictSet_keys (d : List (κ × α)) (k : κ) (v : α) :
    (dictSet d k v).map (·.1) = if k ∈ d.map (·.1) then d.map (·.1) else d.map (·.1) ++ [k] := by
  induction d with
  | nil => simp [dictSet]
  | cons x d ih =>
    unfold dictSet
    split
    · rename_i hx; subst hx; simp
    · rename_i hx
      have hx' : k ≠ x.1 := fun e => hx e.symm
      rw [List.map_cons, ih]
      by_cases h : k ∈ d.map (·.1)
      · rw [if_pos h, if_pos (by rw [List.map_cons]; exact List.mem_cons_of_mem _ h), List.map_cons]
      · rw [if_neg h, if_neg (by rw [List.map_cons, List.mem_cons, not_or]; exact ⟨hx', h⟩), List.map_cons]
        rfl

theorem dictSet_nodup {d : List (κ × α)} (hd : (d.map (·.1)).Nodup) (k : κ) (v : α) :
    ((dictSet d k v).map (·.1)).Nodup := by
  rw [dictSet_keys]
  split
  · exact hd
  · rename_i h
    rw [List.nodup_append]
    refine ⟨hd, by simp, ?_⟩
    intro a ha b hb
    rw [List.mem_singleton] at hb
    subst hb
    rintro rfl
    exact h ha

end Verif.Py
