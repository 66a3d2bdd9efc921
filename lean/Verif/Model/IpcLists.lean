import Verif.Model.Ipc

/-! # Lists of the records of a netlist (gerber/ipc356.py) -/

namespace Verif.Ipc
open Verif.Py

/-- `comments` (ipc356.py:92-95): the texts of the comment records. -/
def comments (ss : List Rec) : List Str := ss.filterMap fun | .comment s => some s | _ => none

/-- `parameters` (ipc356.py:97-100): names and values of the parameter records. -/
def parameters (ss : List Rec) : List (Str × Str) := ss.filterMap fun | .param n v => some (n, v) | _ => none

/-- `outlines` (ipc356.py:130-133): type and points of the outline records. -/
def outlines (ss : List Rec) : List (Str × List (ℚ × ℚ)) := ss.filterMap fun | .outline t ps => some (t, ps) | _ => none

end Verif.Ipc
