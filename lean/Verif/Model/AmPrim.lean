import Verif.Py.Format
import Verif.Model.Macro
import Verif.Model.GerberStmt
import Verif.Model.GerberEval

/-!
# Aperture macro primitives (`gerber/am_statements.py`) and `AMParamStmt` (`gerber_statements.py:389-472`)

All numbers of a primitive are floats (as `from_gerber` makes them), except the number of vertices and
of rings.  `exposure` is a Boolean: `AMPrimitive.__init__` (am_statements.py:59-69) accepts only 'on'
and 'off'.
-/

namespace Verif.Am

open Verif.Py Verif.Gerber

/-- The primitive classes (am_statements.py:92-1046). -/
inductive AmPrim
  /-- `AMCommentPrimitive` (92-148) -/
  | comment (comment : Str)
  /-- `AMCirclePrimitive` (151-221) -/
  | circle (on : Bool) (diameter : ℚ) (position : ℚ × ℚ)
  /-- `AMVectorLinePrimitive` (224-332) -/
  | vectorLine (code : ℕ) (on : Bool) (width : ℚ) (start end_ : ℚ × ℚ) (rotation : ℚ)
  /-- `AMOutlinePrimitive` (335-453) -/
  | outline (on : Bool) (start : ℚ × ℚ) (points : List (ℚ × ℚ)) (rotation : ℚ)
  /-- `AMPolygonPrimitive` (456-550) -/
  | polygon (on : Bool) (vertices : ℤ) (position : ℚ × ℚ) (diameter rotation : ℚ)
  /-- `AMMoirePrimitive` (553-665) -/
  | moire (position : ℚ × ℚ) (diameter ringThickness gap : ℚ) (maxRings : ℤ)
      (crosshairThickness crosshairLength rotation : ℚ)
  /-- `AMThermalPrimitive` (668-830) -/
  | thermal (position : ℚ × ℚ) (outer inner gap rotation : ℚ)
  /-- `AMCenterLinePrimitive` (833-945) -/
  | centerLine (on : Bool) (width height : ℚ) (center : ℚ × ℚ) (rotation : ℚ)
  /-- `AMLowerLeftLinePrimitive` (948-1027) -/
  | lowerLeft (on : Bool) (width height : ℚ) (lowerLeft : ℚ × ℚ) (rotation : ℚ)
  /-- `AMUnsupportPrimitive` (1030-1046) -/
  | unsupported (text : Str)
  deriving DecidableEq

/-! ## Writing -/

/-- `'1' if exposure == 'on' else '0'` (am_statements.py:214). -/
def expText (on : Bool) : Str := if on then ['1'] else ['0']

/-- `'%.{P}g,%.{P}g' % point` (am_statements.py:429-430). -/
def ptText (P : ℕ) (p : ℚ × ℚ) : Str := fmtG P p.1 ++ ',' :: fmtG P p.2

/-- `','.join(fields)` (am_statements.py:430). -/
def commas (fields : List Str) : Str := joinWith ',' fields

/-- `to_gerber` of the primitive classes (am_statements.py:138-139, 212-218, 300-310, 424-433,
537-547, 648-661, 741-751, 911-921, 1017-1027, 1045-1046). -/
def toGerber : AmPrim → Str
  | .comment c => '0' :: ' ' :: c ++ [' ', '*']
  | .circle on d p => commas [['1'], expText on, pyRepr d, pyRepr p.1, pyRepr p.2] ++ ['*']
  | .vectorLine code on w s e r =>
    commas [natStr code, expText on, pyRepr w, pyRepr s.1, pyRepr s.2, pyRepr e.1, pyRepr e.2,
      pyRepr r] ++ ['*']
  | .outline on s ps r =>
    commas [['4'], expText on, natStr ps.length, ptText 6 s,
      -- ',\n'.join(...)
      List.intercalate [',', '\n'] (ps.map (ptText 6)), pyRepr r] ++ ['*']
  | .polygon on n p d r =>
    commas [['5'], expText on, intStr n, ptText 4 p, fmtG 4 d, pyRepr r] ++ ['*']
  | .moire p d t g n ct cl r =>
    commas [['6'], ptText 4 p, pyRepr d, pyRepr t, pyRepr g, intStr n, pyRepr ct, pyRepr cl,
      pyRepr r] ++ ['*']
  | .thermal p o i g r =>
    commas [['7'], ptText 4 p, pyRepr o, pyRepr i, pyRepr g, pyRepr r] ++ ['*']
  | .centerLine on w h c r =>
    commas [['2', '1'], expText on, pyRepr w, pyRepr h, ptText 4 c, pyRepr r] ++ ['*']
  | .lowerLeft on w h c r =>
    commas [['2', '2'], expText on, pyRepr w, pyRepr h, ptText 4 c, pyRepr r] ++ ['*']
  | .unsupported t => t

/-! ## Reading -/

/-- A blank or a star (am_statements.py:185). -/
def isBlankStar (c : Char) : Bool := c == ' ' || c == '*'

/-- `primitive.strip(' *').split(',')` (am_statements.py:185). -/
def modifiersOf (s : Str) : List Str := splitOn ',' (stripBy isBlankStar s)

/-- `float(modifiers[i])` (am_statements.py:188). -/
def floatAt (ms : List Str) (i : ℕ) : PyR ℚ := do
  let m ← pyIdx ms i
  pyFloat m

/-- `(float(modifiers[i]), float(modifiers[i + 1]))` (am_statements.py:189). -/
def pointAt (ms : List Str) (i : ℕ) : PyR (ℚ × ℚ) := do
  let x ← floatAt ms i
  let y ← floatAt ms (i + 1)
  .ok (x, y)

/-- `int(modifiers[0])` (am_statements.py:186). -/
def codeOf (ms : List Str) : PyR ℤ := do
  let m ← pyIdx ms 0
  pyInt m

/-- `'on' if float(modifiers[1]) == 1 else 'off'` (am_statements.py:187). -/
def exposureOf (ms : List Str) : PyR Bool := do
  let v ← floatAt ms 1
  .ok (v == 1)

/-- `raise ValueError` unless the condition holds (am_statements.py:198-199). -/
def require (b : Bool) : PyR Unit := if b then .ok () else .error .valueError

/-- `AMCommentPrimitive.from_gerber` (am_statements.py:119-130). -/
def commentOf (s : Str) : PyR AmPrim := do
  let p := strip s
  let c ← match p with
    | [] => (.error .indexError : PyR Char)
    | c :: _ => .ok c
  let code ← pyInt [c]
  require (code == 0)
  .ok (.comment (stripBy isBlankStar (p.drop 1)))

/-- `AMCirclePrimitive.from_gerber` (am_statements.py:183-202). -/
def circleOf (s : Str) : PyR AmPrim := do
  let ms := modifiersOf s
  let code ← codeOf ms
  let on ← exposureOf ms
  let d ← floatAt ms 2
  let p ← pointAt ms 3
  require (code == 1)
  .ok (.circle on d p)

/-- `AMVectorLinePrimitive.from_gerber` (am_statements.py:268-288). -/
def vectorLineOf (s : Str) : PyR AmPrim := do
  let ms := modifiersOf s
  let code ← codeOf ms
  let on ← exposureOf ms
  let w ← floatAt ms 2
  let a ← pointAt ms 3
  let b ← pointAt ms 5
  let r ← floatAt ms 7
  require (code == 2 || code == 20)
  .ok (.vectorLine code.toNat on w a b r)

/-- `float(modifiers[-1])`; the list is never empty (am_statements.py:398). -/
def lastFloat (ms : List Str) : PyR ℚ := match ms.getLast? with
  | some m => pyFloat m
  | none => .error .indexError

/-- The points of an outline: `n` pairs from index `k` (am_statements.py:394-397). -/
def pointsFrom (ms : List Str) : ℕ → ℕ → PyR (List (ℚ × ℚ))
  | _, 0 => .ok []
  | k, n + 1 => do
    let p ← pointAt ms k
    let l ← pointsFrom ms (k + 2) n
    .ok (p :: l)

/-- `AMOutlinePrimitive.from_gerber` (am_statements.py:386-414); `points[-1]` of an empty list is an `IndexError`. -/
def outlineOf (s : Str) : PyR AmPrim := do
  let ms := modifiersOf s
  let code ← codeOf ms
  let on ← exposureOf ms
  let n ← floatAt ms 2
  let a ← pointAt ms 3
  let ps ← pointsFrom ms 5 (truncate n).toNat
  let r ← lastFloat ms
  require (code == 4)
  match ps.getLast? with
  | none => .error .indexError
  | some z => do
    require (z == a)
    .ok (.outline on a ps r)

/-- `AMPolygonPrimitive.from_gerber` (am_statements.py:500-527); a missing or unreadable diameter is 0. -/
def polygonOf (s : Str) : PyR AmPrim := do
  let ms := modifiersOf s
  let code ← codeOf ms
  let on ← exposureOf ms
  let n ← floatAt ms 2
  let p ← pointAt ms 3
  let d := match floatAt ms 5 with
    | .ok d => d
    | .error _ => 0
  let r ← floatAt ms 6
  require (code == 5)
  require (3 ≤ truncate n && truncate n ≤ 12)
  .ok (.polygon on (truncate n) p d r)

/-- `AMMoirePrimitive.from_gerber` (am_statements.py:601-630). -/
def moireOf (s : Str) : PyR AmPrim := do
  let ms := modifiersOf s
  let code ← codeOf ms
  let p ← pointAt ms 1
  let d ← floatAt ms 3
  let t ← floatAt ms 4
  let g ← floatAt ms 5
  let n ← floatAt ms 6
  let ct ← floatAt ms 7
  let cl ← floatAt ms 8
  let r ← floatAt ms 9
  require (code == 6)
  .ok (.moire p d t g (truncate n) ct cl r)

/-- `AMThermalPrimitive.from_gerber` (am_statements.py:707-727). -/
def thermalOf (s : Str) : PyR AmPrim := do
  let ms := modifiersOf s
  let code ← codeOf ms
  let p ← pointAt ms 1
  let o ← floatAt ms 3
  let i ← floatAt ms 4
  let g ← floatAt ms 5
  let r ← floatAt ms 6
  require (code == 7)
  .ok (.thermal p o i g r)

/-- `AMCenterLinePrimitive.from_gerber` (am_statements.py:880-900). -/
def centerLineOf (s : Str) : PyR AmPrim := do
  let ms := modifiersOf s
  let code ← codeOf ms
  let on ← exposureOf ms
  let w ← floatAt ms 2
  let h ← floatAt ms 3
  let c ← pointAt ms 4
  let r ← floatAt ms 6
  require (code == 21)
  .ok (.centerLine on w h c r)

/-- `AMLowerLeftLinePrimitive.from_gerber` (am_statements.py:986-1005). -/
def lowerLeftOf (s : Str) : PyR AmPrim := do
  let ms := modifiersOf s
  let code ← codeOf ms
  let on ← exposureOf ms
  let w ← floatAt ms 2
  let h ← floatAt ms 3
  let c ← pointAt ms 4
  let r ← floatAt ms 6
  require (code == 22)
  .ok (.lowerLeft on w h c r)

/-- The choice of the class in `AMParamStmt.build` (gerber_statements.py:431-452). -/
def fromGerber (s : Str) : PyR AmPrim := match s with
  | [] => .error .indexError
  | c :: _ =>
    if c = '0' then commentOf s
    else if c = '1' then circleOf s
    else if s.take 2 = ['2', ','] ∨ s.take 2 = ['2', '0'] then vectorLineOf s
    else if s.take 2 = ['2', '1'] then centerLineOf s
    else if s.take 2 = ['2', '2'] then lowerLeftOf s
    else if c = '4' then outlineOf s
    else if c = '5' then polygonOf s
    else if c = '6' then moireOf s
    else if c = '7' then thermalOf s
    else .ok (.unsupported s)

/-! ## Building -/

/-- `str(x)` of a stack value.  (The code also has the integer 0 on the stack, printed `0` and read
like `0.0`.) (am_eval.py:108) -/
def valText : Macro.Val → Str
  | .num v => pyRepr v
  | .txt s => s

/-- `"%d,%s" % (argument, ",".join([str(x) for x in stack]))` (am_eval.py:108). -/
def outText (o : Macro.Out) : Str := natStr o.1 ++ ',' :: commas (o.2.map valText)

/-- The primitives made by `AMParamStmt.build` (gerber_statements.py:427-452) from the macro text. -/
def build (body : Str) (mods : List ℚ) : PyR (List AmPrim) := do
  let is ← Macro.readMacro body
  let outs ← Macro.evalMacro is mods
  outs.mapM fun o => fromGerber (outText o)

/-- The macro text in `AMParamStmt.to_gerber` (gerber_statements.py:470-471). -/
def bodyText (ps : List AmPrim) : Str := ps.flatMap toGerber

/-! ## The macros of a file -/

/-- The part of the parser's state that concerns macros (rs274x.py:243-265: `macros`, `apertures`, and
the `primitives` of each `AMParamStmt`).  An AM statement is identified by its place in the file. -/
structure AmState where
  /-- `self.macros`: the statement that a name stands for, with its text -/
  macros : Str → Option (ℕ × Str) := fun _ => none
  /-- `stmt.primitives` of the AM statement at a place: those of its last use -/
  prims : ℕ → List AmPrim := fun _ => []
  /-- the macro apertures defined so far: place of the AM statement, aperture number, and the
  primitives that the aperture was made from -/
  uses : List (ℕ × ℕ × List AmPrim) := []

/-- One statement at place `k`: `AMParamStmt.__init__` reads the macro (gerber_statements.py:397-421),
`_evaluate_param` (rs274x.py) enters it in `macros`, and `_define_aperture` (rs274x.py:580) builds it
for an AD statement with any shape but C, R, O, P. -/
def amStep (k : ℕ) (st : AmState) : Stmt → PyR AmState
  | .am n b _ => do
    let _ ← Macro.readMacro b
    .ok { st with macros := Function.update st.macros n (some (k, b))
                  prims := Function.update st.prims k [] }
  | .ad d shape mods =>
    if shape = ['C'] ∨ shape = ['R'] ∨ shape = ['O'] ∨ shape = ['P'] then .ok st
    else match st.macros shape with
      | none => .error .keyError
      | some (i, b) => do
        let m ← firstMods mods
        let ps ← build b m
        .ok { st with prims := Function.update st.prims i ps, uses := st.uses ++ [(i, d, ps)] }
  | _ => .ok st

/-- The statements of a file from place `k` on (rs274x.py:269-271). -/
def amRun (k : ℕ) (st : AmState) : List Stmt → PyR AmState
  | [] => .ok st
  | s :: l => do
    let st ← amStep k st s
    amRun (k + 1) st l

/-- The macro text of a written file as the parser reads it: lines are joined (rs274x.py:329-340) and
the star before the closing `%` is not part of it (rs274x.py, pattern `AM`). -/
def reread (ps : List AmPrim) : Str := ((bodyText ps).filter (· ≠ '\n')).dropLast

/-- The statements read from the file that is written after evaluation: AM statements have the text
made from the primitives of their last use (gerber_statements.py:470-471); without primitives the
written `%AMname*%` matches no pattern and is an unknown statement. -/
def rewritten (prims : ℕ → List AmPrim) (k : ℕ) : List Stmt → List Stmt
  | [] => []
  | .am n _ _ :: l =>
    (if prims k = [] then .unknown (['%', 'A', 'M'] ++ n ++ ['*', '%'])
      else .am n (reread (prims k)) []) :: rewritten prims (k + 1) l
  | s :: l => s :: rewritten prims (k + 1) l

end Verif.Am
