import Verif.Py.Basic

/-! # Model of `GerberParser._split_commands` (gerber/rs274x.py:279-308) -/

namespace Verif.Gerber
open Verif.Py

/-- CR or LF (rs274x.py:296). -/
def isNl (c : Char) : Bool := c == '\r' || c == '\n'

/-- The loop of `_split_commands` (rs274x.py:288-308).  `hdr` is `in_header`; `acc` is
`data[start:cur]`, so that `start == cur` is `acc = []`.  Returns the yielded commands and the
text `data[start:]` left over at the end (which the code never yields). -/
def splitGo (hdr : Bool) (acc : Str) : Str → List Str × Str
  | [] => ([], acc)
  | c :: s =>
    if c = '%' ∧ acc = [] then splitGo true [c] s
    else if isNl c then
      let r := splitGo hdr [] s
      (if acc ≠ [] then acc :: r.1 else r.1, r.2)
    else if ¬ hdr ∧ c = '*' then
      let r := splitGo hdr [] s
      ((acc ++ [c]) :: r.1, r.2)
    else if hdr ∧ c = '%' then
      let r := splitGo false [] s
      ((acc ++ [c]) :: r.1, r.2)
    else splitGo hdr (acc ++ [c]) s

/-- `_split_commands` (rs274x.py:279-308): the yielded commands. -/
def splitCommands (data : Str) : List Str := (splitGo true [] data).1

/-- The text after the last command, which `_split_commands` drops (rs274x.py:279-308). -/
def splitTail (data : Str) : Str := (splitGo true [] data).2

end Verif.Gerber
