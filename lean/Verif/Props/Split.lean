import Verif.Model.GerberSplit
import Mathlib.Data.List.Basic

/-! # Splitting a Gerber file into commands (C12) -/

namespace Verif.Gerber
open Verif.Py

private theorem go_flatten (hdr : Bool) (acc s : Str) (hacc : acc.all (fun c => !isNl c) = true) :
    (splitGo hdr acc s).1.flatten ++ (splitGo hdr acc s).2 = acc ++ s.filter (fun c => !isNl c) := by
  induction s generalizing hdr acc with
  | nil => simp [splitGo]
  | cons c s ih =>
    unfold splitGo
    split
    · rename_i h
      obtain ⟨rfl, rfl⟩ := h
      rw [ih _ _ (by decide)]
      simp [isNl]
    · split
      · rename_i h
        have := ih hdr [] (by rfl)
        by_cases ha : acc = []
        · simp [ha, h, this]
        · simp [ha, h, this, List.append_assoc]
      · rename_i hnl
        split
        · have := ih hdr [] (by rfl)
          simp [hnl, this, List.append_assoc]
        · split
          · have := ih false [] (by rfl)
            simp [hnl, this, List.append_assoc]
          · rw [ih _ _ (by simpa [hnl] using hacc)]
            simp [hnl]

private theorem go_chunks (hdr : Bool) (acc s : Str) (hacc : acc.all (fun c => !isNl c) = true) :
    ∀ w ∈ (splitGo hdr acc s).1, w ≠ [] ∧ w.all (fun c => !isNl c) = true := by
  induction s generalizing hdr acc with
  | nil => simp [splitGo]
  | cons c s ih =>
    unfold splitGo
    split
    · rename_i h
      obtain ⟨rfl, rfl⟩ := h
      exact ih _ _ (by decide)
    · split
      · have := ih hdr [] (by rfl)
        by_cases ha : acc = []
        · simpa [ha] using this
        · intro w hw
          simp only [ne_eq, ha, not_false_eq_true, if_true, List.mem_cons] at hw
          rcases hw with rfl | hw
          · exact ⟨ha, hacc⟩
          · exact this w hw
      · rename_i hnl
        split
        · intro w hw
          rcases List.mem_cons.1 hw with rfl | hw
          · exact ⟨by simp, by simpa [hnl] using hacc⟩
          · exact ih hdr [] (by rfl) w hw
        · split
          · intro w hw
            rcases List.mem_cons.1 hw with rfl | hw
            · exact ⟨by simp, by simpa [hnl] using hacc⟩
            · exact ih false [] (by rfl) w hw
          · exact ih _ _ (by simpa [hnl] using hacc)

/-- **C12.** The commands in order, followed by the unterminated tail, are exactly the text
without its line breaks: nothing is lost, duplicated or reordered. -/
theorem C12_split_lossless (data : Str) :
    (splitCommands data).flatten ++ splitTail data = data.filter (fun c => !(c == '\r' || c == '\n')) := by
  have := go_flatten true [] data (by rfl)
  simpa [splitCommands, splitTail, isNl] using this

/-- **C12.** No command is empty and none contains a line break. -/
theorem C12_split_commands_clean (data w : Str) (hw : w ∈ splitCommands data) :
    w ≠ [] ∧ '\r' ∉ w ∧ '\n' ∉ w := by
  obtain ⟨h1, h2⟩ := go_chunks true [] data (by rfl) w hw
  rw [List.all_eq_true] at h2
  refine ⟨h1, fun h => ?_, fun h => ?_⟩
  · exact absurd (h2 _ h) (by decide)
  · exact absurd (h2 _ h) (by decide)

private theorem go_tail (hdr : Bool) (acc s : Str) (c : Char) (hc : isNl c = true) :
    (splitGo hdr acc (s ++ [c])).2 = [] := by
  induction s generalizing hdr acc with
  | nil =>
    have h1 : c ≠ '%' := by rintro rfl; cases hc
    simp [splitGo, h1, hc]
  | cons d s ih =>
    rw [List.cons_append]
    unfold splitGo
    repeat' split
    all_goals exact ih _ _

/-- **C12.** If the text ends with a line break nothing is dropped at all. -/
theorem C12_nothing_dropped (data : Str) (c : Char) (hc : c = '\r' ∨ c = '\n') :
    (splitCommands (data ++ [c])).flatten = data.filter (fun c => !(c == '\r' || c == '\n')) := by
  have h := C12_split_lossless (data ++ [c])
  have ht : splitTail (data ++ [c]) = [] := go_tail true [] data c (by rcases hc with rfl | rfl <;> rfl)
  rw [ht, List.append_nil] at h
  rw [h]
  rcases hc with rfl | rfl <;> simp

/-- A text without line break at the end can lose its last command: the tail is dropped. -/
theorem C12_tail_dropped_violated : splitCommands "G04 x*M02*".toList = [] ∧
    splitTail "G04 x*M02*".toList = "G04 x*M02*".toList := by decide +kernel

/-- Where a command ends: the state of the splitter in front of a new command. -/
private theorem go_plain (hdr : Bool) (acc body rest : Str) (hne : acc ≠ [])
    (hb : ∀ c ∈ body, isNl c = false ∧ (hdr = false → c ≠ '*') ∧ (hdr = true → c ≠ '%')) :
    splitGo hdr acc (body ++ rest) = splitGo hdr (acc ++ body) rest := by
  induction body generalizing acc with
  | nil => simp
  | cons c body ih =>
    obtain ⟨h1, h2, h3⟩ := hb c (by simp)
    rw [List.cons_append]
    conv_lhs => unfold splitGo
    rw [if_neg (by simp [hne]), if_neg (by simp [h1]), if_neg, if_neg]
    · rw [ih _ (by simp) fun d hd => hb d (by simp [hd])]; simp
    · rintro ⟨h, rfl⟩; exact h3 h rfl
    · rintro ⟨h, rfl⟩; exact h2 (by simpa using h) rfl

/-- **C12, boundaries.** Wherever a new command begins with `%`, the whole parameter up to the
closing `%` on the same line - including every `*` in it - is one command, and splitting resumes
after it in data mode. -/
theorem C12_parameter_is_one_command (hdr : Bool) (body rest : Str)
    (hb : ∀ c ∈ body, c ≠ '%' ∧ c ≠ '\r' ∧ c ≠ '\n') :
    splitGo hdr [] ('%' :: body ++ '%' :: rest) =
      (('%' :: body ++ ['%']) :: (splitGo false [] rest).1, (splitGo false [] rest).2) := by
  have h0 : splitGo hdr [] ('%' :: body ++ '%' :: rest) =
      splitGo true ['%'] (body ++ '%' :: rest) := by
    rw [List.cons_append]; conv_lhs => unfold splitGo
    simp
  rw [h0, go_plain _ _ _ _ (by simp)]
  · conv_lhs => unfold splitGo
    simp [isNl]
  · intro c hc
    obtain ⟨h1, h2, h3⟩ := hb c hc
    simp [isNl, h1, h2, h3]

example : splitGo false [] "%AMX*1,1,2*%D10*".toList =
    (["%AMX*1,1,2*%".toList, "D10*".toList], []) := by decide +kernel

/-- **C12, boundaries.** In data mode a data block (no `*`, no line break, not starting with `%`)
and its terminating `*` are one command. -/
theorem C12_block_is_one_command (body rest : Str) (h0 : body.head? ≠ some '%')
    (hb : ∀ c ∈ body, c ≠ '*' ∧ c ≠ '\r' ∧ c ≠ '\n') :
    splitGo false [] (body ++ '*' :: rest) =
      ((body ++ ['*']) :: (splitGo false [] rest).1, (splitGo false [] rest).2) := by
  cases body with
  | nil => conv_lhs => unfold splitGo
           simp [isNl]
  | cons c body =>
    have hc : c ≠ '%' := by simpa using h0
    obtain ⟨h1, h2, h3⟩ := hb c (by simp)
    have he : splitGo false [] (c :: body ++ '*' :: rest) = splitGo false [c] (body ++ '*' :: rest) := by
      rw [List.cons_append]; conv_lhs => unfold splitGo
      simp [isNl, hc, h1, h2, h3]
    rw [he, go_plain _ _ _ _ (by simp)]
    · conv_lhs => unfold splitGo
      simp [isNl]
    · intro d hd
      obtain ⟨h1, h2, h3⟩ := hb d (by simp [hd])
      simp [isNl, h1, h2, h3]

example : splitGo false [] "X1Y2D01*X3*".toList = (["X1Y2D01*".toList, "X3*".toList], []) := by
  decide +kernel

/-- **C12, boundaries.** In either mode a line that is one parameter or one block, followed by a
line break, is one command; this is the layout that `GerberFile.write` produces. -/
theorem C12_line_is_one_command (hdr : Bool) (line rest : Str) (hne : line ≠ [])
    (hb : ∀ c ∈ line, c ≠ '%' ∧ c ≠ '\r' ∧ c ≠ '\n')
    (hstar : hdr = false → ∀ c ∈ line, c ≠ '*') :
    splitGo hdr [] (line ++ '\n' :: rest) =
      (line :: (splitGo hdr [] rest).1, (splitGo hdr [] rest).2) := by
  cases line with
  | nil => exact absurd rfl hne
  | cons c body =>
    obtain ⟨h1, h2, h3⟩ := hb c (by simp)
    have he : splitGo hdr [] (c :: body ++ '\n' :: rest) = splitGo hdr [c] (body ++ '\n' :: rest) := by
      rw [List.cons_append]; conv_lhs => unfold splitGo
      have hs : ¬(hdr = false ∧ c = '*') := fun h => hstar h.1 c (by simp) h.2
      simp [isNl, h1, h2, h3]
      exact fun h h' => absurd ⟨h, h'⟩ hs
    rw [he, go_plain _ _ _ _ (by simp)]
    · conv_lhs => unfold splitGo
      simp [isNl]
    · intro d hd
      obtain ⟨h1, h2, h3⟩ := hb d (by simp [hd])
      exact ⟨by simp [isNl, h2, h3], fun h => hstar h d (by simp [hd]), fun _ => h1⟩

example : splitGo true [] "G04 hello*\nG75*\n".toList =
    (["G04 hello*".toList, "G75*".toList], []) := by decide +kernel

example : splitCommands "%FSLAX23Y23*%\nG01*X1*\nM02*\n".toList =
    ["%FSLAX23Y23*%".toList, "G01*".toList, "X1*".toList, "M02*".toList] := by decide +kernel

end Verif.Gerber
