import Verif.Props.GerberComments
import Verif.Props.Words

/-! # C102 on the text: a comment put into a file adds itself to the comments and nothing else -/

namespace Verif.Gerber
open Verif.Py Verif.Cam

/-- What a parser has after some blocks: statements, settings, and what is kept of a line not yet understood. -/
def parsedSoFar (inc : Includer) (st : FileSettings) (old : Str) : List Str → PyR (List Stmt × FileSettings × Str)
  | [] => .ok ([], st, old)
  | b :: bs =>
    let line := old ++ strip b
    if line = [] then parsedSoFar inc st old bs
    else if isOpenParam line then parsedSoFar inc st line bs
    else do
      let (l, st', rest) ← parseLine inc line.length st line
      let (l', st'', rest') ← parsedSoFar inc st' rest bs
      .ok (l ++ l', st'', rest')

theorem parseBlocks_append (inc : Includer) (bs : List Str) {as : List Str} {st st1 : FileSettings} {old rest : Str}
    {la : List Stmt} (h : parsedSoFar inc st old as = .ok (la, st1, rest)) :
    parseBlocks inc st old (as ++ bs) = (parseBlocks inc st1 rest bs).map fun r => (la ++ r.1, r.2) := by
  induction as generalizing st old la st1 rest with
  | nil =>
    cases h
    simp only [List.nil_append]
    cases parseBlocks inc st old bs <;> rfl
  | cons a as ih =>
    simp only [parsedSoFar] at h
    simp only [List.cons_append, parseBlocks]
    split_ifs at h ⊢
    · exact ih h
    · exact ih h
    · obtain ⟨⟨l, st', r⟩, h1, h2⟩ := evBind h
      obtain ⟨⟨l', st'', r'⟩, h3, h4⟩ := evBind h2
      cases h4
      simp only [h1, bind, Except.bind, ih h3]
      cases parseBlocks inc st'' r' bs <;> simp [Except.map]

theorem parseBlocks_comment (inc : Includer) (st : FileSettings) {text : Str} (ht : '*' ∉ text) (bs : List Str) :
    parseBlocks inc st [] (("G04".toList ++ text ++ ['*']) :: bs) =
      (parseBlocks inc st [] bs).map fun r => (.comment text :: r.1, r.2) := by
  have hs : strip ("G04".toList ++ text ++ ['*']) = 'G' :: '0' :: '4' :: (text ++ ['*']) := by
    have hg : isSpace 'G' = false := by decide
    have hst : isSpace '*' = false := by decide
    simp [strip, stripBy, rstripBy, lstripBy, hg, hst]
  have hl : ∀ n, parseLine inc n st [] = .ok ([], st, []) := fun n => by cases n <;> simp [parseLine]
  have h1 := (C90_comment st ht []).1
  have e : "G04".toList ++ text ++ ['*'] = 'G' :: '0' :: '4' :: (text ++ ['*']) := by simp
  rw [e] at h1
  have hp : ∀ n, parseLine inc (n + 1) st ('G' :: '0' :: '4' :: (text ++ ['*'])) = .ok ([.comment text], st, []) := by
    intro n
    rw [parseLine, if_neg (by simp), h1]
    simp only [hl, bind, Except.bind]
  simp only [parseBlocks, hs, List.nil_append, List.length_cons, hp, reduceCtorEq, if_false]
  rw [if_neg (by simp [isOpenParam])]
  simp only [bind, Except.bind]
  cases parseBlocks inc st [] bs <;> rfl

/-- **C102.**  A comment put between two blocks of a text, where no line is unfinished, is one more comment there; all other
statements and the settings are the same. -/
theorem C102_inserted (inc : Includer) {as bs : List Str} {st st1 st2 : FileSettings} {la lb : List Stmt} {text : Str}
    (ha : parsedSoFar inc st [] as = .ok (la, st1, [])) (hb : parseBlocks inc st1 [] bs = .ok (lb, st2))
    (ht : '*' ∉ text) :
    parseBlocks inc st [] (as ++ bs) = .ok (la ++ lb, st2) ∧
      parseBlocks inc st [] (as ++ ("G04".toList ++ text ++ ['*']) :: bs) = .ok (la ++ .comment text :: lb, st2) := by
  rw [parseBlocks_append inc _ ha, parseBlocks_append inc _ ha, parseBlocks_comment inc st1 ht, hb]
  exact ⟨rfl, rfl⟩

-- the hypotheses of C102_inserted
example : let inc : Includer := fun _ _ => .error .ioError
    parsedSoFar inc defaultSettings [] ["%FSLAX24Y24*%".toList, "X10000Y0D02*".toList] =
      .ok ([.fs "leading" "absolute" (2, 4), .coord { x := some 1, y := some 0, op := some ['D', '0', '2'] }],
        { defaultSettings with zeroSuppression := "leading", zeros := "trailing", format := (2, 4) }, []) ∧
    parseBlocks inc { defaultSettings with zeroSuppression := "leading", zeros := "trailing", format := (2, 4) } []
      ["M02*".toList] =
      .ok ([.eof], { defaultSettings with zeroSuppression := "leading", zeros := "trailing", format := (2, 4) }) := by
  decide +kernel

end Verif.Gerber
