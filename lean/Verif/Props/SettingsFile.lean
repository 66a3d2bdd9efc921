import Verif.Model.SettingsFile
import Verif.Props.ToolReport

/-! # Settings files say what they say (C57) -/

namespace Verif.SettingsFile
open Verif.Py Verif.Cam Verif.Ipc Verif.Excellon Verif.Excellon.Spec

/-- A line of a settings file: number of integer or decimal places, kind of coordinates, units, or something
else. -/
inductive Item
  | integers (n : ℕ)
  | decimals (n : ℕ)
  | coordinates (absolute : Bool)
  | units (english : Bool)
  | other (ws : List Str)

/-- The keywords. -/
def keys : List Str := ["INTEGER-PLACES".toList, "DECIMAL-PLACES".toList, "COORDINATES".toList, "OUTPUT-UNITS".toList]

/-- The words of the line. -/
def Item.words : Item → List Str
  | .integers n => ["INTEGER-PLACES".toList, natStr n]
  | .decimals n => ["DECIMAL-PLACES".toList, natStr n]
  | .coordinates a => ["COORDINATES".toList, if a then "ABSOLUTE".toList else "INCREMENTAL".toList]
  | .units e => ["OUTPUT-UNITS".toList, if e then "ENGLISH".toList else "METRIC".toList]
  | .other ws => ws

/-- Something else: not two words, or another keyword. -/
def Item.Good : Item → Prop
  | .other ws => ws.length = 2 → ∀ k ∈ ws.head?, k ∉ keys
  | _ => True

/-- The last value of a kind. -/
def lastOf {α : Type} (f : Item → Option α) (items : List Item) : Option α := (items.filterMap f).getLast?

/-- The value of an item as number of integer places, number of decimal places, coordinates, units. -/
def Item.integers? : Item → Option ℕ | .integers n => some n | _ => none
def Item.decimals? : Item → Option ℕ | .decimals n => some n | _ => none
def Item.absolute? : Item → Option Bool | .coordinates a => some a | _ => none
def Item.english? : Item → Option Bool | .units e => some e | _ => none

/-- What the code collects. -/
def collected (items : List Item) : Values where
  formatInt := (lastOf Item.integers? items).map fun n : ℕ => (n : ℤ)
  formatDec := (lastOf Item.decimals? items).map fun n : ℕ => (n : ℤ)
  notation_ := (lastOf Item.absolute? items).map fun a => if a then "absolute" else "relative"
  units := (lastOf Item.english? items).map fun e => if e then "inch" else "metric"

theorem lastOf_concat {α : Type} (f : Item → Option α) (items : List Item) (x : Item) :
    lastOf f (items ++ [x]) = (f x <|> lastOf f items) := by
  unfold lastOf
  rw [List.filterMap_append]
  cases h : f x with
  | none => simp [h]
  | some v => simp [h]

theorem parse_item {it : Item} (h : it.Good) {s : Str} (hl : Laid it.words s) (items : List Item) :
    parseLine (collected items) (strip s) = .ok (collected (items ++ [it])) := by
  have hw : Ipc.words (strip s) = it.words := by
    rw [← pyWords_eq, words_strip, laid_words hl]
  unfold parseLine
  rw [hw]
  unfold collected
  simp only [lastOf_concat]
  cases it with
  | integers n =>
    simp only [Item.words, if_true, pyInt_natStr, bind, Except.bind]
    rfl
  | decimals n =>
    simp only [Item.words, if_true, pyInt_natStr, bind, Except.bind,
      show ("DECIMAL-PLACES".toList = "INTEGER-PLACES".toList) = False by decide, if_false]
    rfl
  | coordinates a => cases a <;> rfl
  | units e => cases e <;> rfl
  | other ws =>
    have h2 : ∀ k v, ws = [k, v] → k ∉ keys := fun k v e => h (by rw [e]; rfl) k (by rw [e]; rfl)
    simp only [Item.words]
    split
    · rename_i k v
      have hk := h2 k v rfl
      simp only [keys, List.mem_cons, List.not_mem_nil, or_false, not_or] at hk
      rw [if_neg hk.1, if_neg hk.2.1, if_neg hk.2.2.1, if_neg hk.2.2.2]
      rfl
    · rfl

theorem parse_items {items : List (Item × Str)} (h : ∀ x ∈ items, x.1.Good ∧ Laid x.1.words x.2) :
    (items.map (·.2)).foldlM (fun vs l => parseLine vs (strip l)) ({} : Values) =
      .ok (collected (items.map (·.1))) := by
  induction items using List.reverseRecOn with
  | nil => rfl
  | append_singleton items x ih =>
    have hx := h x (by simp)
    rw [List.map_append, List.foldlM_append, ih fun y hy => h y (by simp [hy])]
    simp only [bind, Except.bind, List.map_cons, List.map_nil, List.foldlM_cons, List.foldlM_nil]
    rw [parse_item hx.1 hx.2, List.map_append]
    rfl

/-- **C57** A settings file in which all four settings occur gives the values that occur last.  Missing:
incremental coordinates (`C57_incremental_violated`). -/
theorem C57_settings_partial {items : List (Item × Str)}
    (h : ∀ x ∈ items, x.1.Good ∧ Laid x.1.words x.2 ∧ '\n' ∉ x.2) {a b : ℕ} {e : Bool}
    (ha : lastOf Item.integers? (items.map (·.1)) = some a) (hb : lastOf Item.decimals? (items.map (·.1)) = some b)
    (he : lastOf Item.english? (items.map (·.1)) = some e)
    (hc : lastOf Item.absolute? (items.map (·.1)) = some true) :
    ∃ s : FileSettings, parseRaw (unlines (items.map (·.2))) = .ok (s, a, b) ∧
      s.notation_ = "absolute" ∧ s.units = (if e then "inch" else "metric") ∧ s.format = (a, b) ∧
      s.zeros = "leading" := by
  unfold parseRaw
  rw [pyLines_unlines (by
    intro s hs
    obtain ⟨x, hx, rfl⟩ := List.mem_map.1 hs
    exact (h x hx).2.2), parse_items fun x hx => ⟨(h x hx).1, (h x hx).2.1⟩]
  unfold collected
  rw [ha, hb, he, hc]
  cases e <;> exact ⟨_, rfl, rfl, rfl, rfl, rfl⟩

/-- A setting that does not occur is a `KeyError`. -/
theorem C57_missing {items : List (Item × Str)}
    (h : ∀ x ∈ items, x.1.Good ∧ Laid x.1.words x.2 ∧ '\n' ∉ x.2)
    (hm : lastOf Item.integers? (items.map (·.1)) = none ∨ lastOf Item.decimals? (items.map (·.1)) = none ∨
      lastOf Item.english? (items.map (·.1)) = none ∨ lastOf Item.absolute? (items.map (·.1)) = none) :
    parseRaw (unlines (items.map (·.2))) = .error .keyError := by
  unfold parseRaw
  rw [pyLines_unlines (by
    intro s hs
    obtain ⟨x, hx, rfl⟩ := List.mem_map.1 hs
    exact (h x hx).2.2), parse_items fun x hx => ⟨(h x hx).1, (h x hx).2.1⟩]
  unfold collected
  generalize lastOf Item.integers? (items.map (·.1)) = a, lastOf Item.decimals? (items.map (·.1)) = b,
    lastOf Item.english? (items.map (·.1)) = c, lastOf Item.absolute? (items.map (·.1)) = d at *
  cases a <;> cases b <;> cases c <;> cases d <;> first | rfl | simp at hm

/-- A file with incremental coordinates is rejected: the code calls them `relative`, which is not a notation. -/
theorem C57_incremental_violated : parseRaw ("INTEGER-PLACES 2\nDECIMAL-PLACES 4\nCOORDINATES INCREMENTAL\n" ++
    "OUTPUT-UNITS ENGLISH\n").toList = .error .valueError := by decide +kernel

/-- Lines of a settings file. -/
def sampleItems : List (Item × Str) := [(.other ["FORMAT".toList, "2.4".toList], "FORMAT 2.4".toList),
  (.integers 2, " INTEGER-PLACES  2\r".toList), (.decimals 4, "DECIMAL-PLACES 4".toList), (.units true, "OUTPUT-UNITS ENGLISH".toList),
  (.coordinates true, "COORDINATES ABSOLUTE".toList), (.units false, "OUTPUT-UNITS METRIC".toList)]

/-- Two words with a blank between. -/
theorem laid_two {a b s t : Str} (ha : IsWord a) (hb : IsWord b) (hs : s.all isSpace = true) (ht : t.all isSpace = true) (c : Char)
    (hc : isSpace c = true) (r : Str) (hr : r.all isSpace = true) : Laid [a, b] (s ++ a ++ c :: (r ++ b ++ t)) :=
  Laid.cons (List.all_eq_true.1 hs) ha c hc (Laid.last (List.all_eq_true.1 hr) hb (List.all_eq_true.1 ht))

theorem isWord_of {s : Str} (h : decide (s ≠ []) && s.all (fun c => !isSpace c) = true) : IsWord s := by
  simp only [Bool.and_eq_true, decide_eq_true_eq, List.all_eq_true] at h
  exact ⟨h.1, fun c hc => by simpa using h.2 c hc⟩

example : ∀ x ∈ sampleItems, x.1.Good ∧ Laid x.1.words x.2 ∧ '\n' ∉ x.2 := by
  intro x hx
  simp only [sampleItems, List.mem_cons, List.not_mem_nil, or_false] at hx
  rcases hx with rfl | rfl | rfl | rfl | rfl | rfl
  · exact ⟨fun _ k hk => by cases hk; decide, laid_two (s := []) (t := []) (r := []) (isWord_of (by decide)) (isWord_of (by decide)) rfl
      rfl ' ' rfl rfl, by decide⟩
  · exact ⟨trivial, laid_two (s := [' ']) (t := ['\r']) (r := [' ']) (isWord_of (by decide)) (isWord_of (by decide)) rfl rfl ' ' rfl rfl, by decide⟩
  · exact ⟨trivial, laid_two (s := []) (t := []) (r := []) (isWord_of (by decide)) (isWord_of (by decide)) rfl rfl ' ' rfl rfl, by decide⟩
  · exact ⟨trivial, laid_two (s := []) (t := []) (r := []) (isWord_of (by decide)) (isWord_of (by decide)) rfl rfl ' ' rfl rfl, by decide⟩
  · exact ⟨trivial, laid_two (s := []) (t := []) (r := []) (isWord_of (by decide)) (isWord_of (by decide)) rfl rfl ' ' rfl rfl, by decide⟩
  · exact ⟨trivial, laid_two (s := []) (t := []) (r := []) (isWord_of (by decide)) (isWord_of (by decide)) rfl rfl ' ' rfl rfl, by decide⟩

example : lastOf Item.english? (sampleItems.map (·.1)) = some false ∧
    lastOf Item.absolute? (sampleItems.map (·.1)) = some true := by decide

end Verif.SettingsFile
