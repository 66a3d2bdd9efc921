import Verif.Model.GerberEval

/-! # The comments of a Gerber file (rs274x.py:108-111) -/

namespace Verif.Gerber
open Verif.Py

/-- The text of a comment statement: `comment.comment` behind `isinstance(comment, CommentStmt)` (rs274x.py:110-111). -/
def Stmt.commentText? : Stmt → Option Str
  | .comment text => some text
  | _ => none

/-- The list comprehension of `comments` over statements (rs274x.py:110-111). -/
def commentsOf (l : List Stmt) : List Str := l.filterMap Stmt.commentText?

/-- `GerberFile.comments` (rs274x.py:108-111). -/
def GerberFile.comments {G : Type} (f : GerberFile G) : List Str := commentsOf f.statements

end Verif.Gerber
