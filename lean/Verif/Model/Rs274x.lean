import Verif.Model.GerberEval

/-! # The Gerber rendering backend (gerber/render/rs274x_backend.py)

`Rs274xContext` as a function from states to states.  Numbers are exact rationals.  What the backend does
with macro groups is delegated to functions given by a `MacroEnv`, so that the theorems hold whatever
these compute.  A macro group is a value here, without its position; `Circle`, `Rectangle`, `Obround` and
`Polygon` have their position beside the shape, too.  Primitives of other classes are not modelled: drills
raise, all others (slots, test records, ...) are passed over without a word by
`GerberContext.render` (gerber/render/render.py:138-173). -/

namespace Verif.Rs274x
open Verif.Py Verif.Cam Verif.Gerber

/-- Attributes `hole_diameter`, `hole_width`, `hole_height`, which may be `None` (primitives.py:532-534). -/
structure HoleAttr where
  diameter : Option ℚ := none
  width : Option ℚ := none
  height : Option ℚ := none
  deriving DecidableEq

/-- Shapes which the backend can flash (render/rs274x_backend.py:309-393). -/
inductive RShape (G : Type)
  | circle (diameter : ℚ) (hole : HoleAttr)
  | rect (width height : ℚ) (hole : HoleAttr)
  | obround (width height : ℚ) (hole : HoleAttr)
  | polygon (sides : ℤ) (radius rotation : ℚ) (hole : HoleAttr)
  | group (g : G)
  deriving DecidableEq

/-- A `Line` or an `Arc`; aperture and level polarity may be `None` (primitives.py:209-215, 327-337). -/
inductive REdge (G : Type)
  | line (start end_ : Pt) (aperture : Option (RShape G)) (polarity : Option String)
  | arc (start end_ center : Pt) (direction : String) (aperture : Option (RShape G))
      (quadrant : String) (polarity : Option String)
  deriving DecidableEq

/-- A primitive; `region` is a `Region` or an `Outline` (primitives.py:1362-1365, 1428-1431). -/
inductive RPrim (G : Type)
  | edge (e : REdge G)
  | flash (shape : RShape G) (position : Pt) (polarity : Option String)
  | region (edges : List (REdge G)) (polarity : Option String)
  deriving DecidableEq

/-- What the backend does with macro groups (render/rs274x_backend.py:398-485). -/
structure MacroEnv (G : Type) where
  /-- `_hash_amacro` (398-428) -/
  hash : G → Str
  /-- `amgroup.equivalent(macro[1], offset)` (451) -/
  equiv : G → G → Bool
  /-- `AMGroupContext.render` (22-55): the macro text of the statement, and what `to_gerber` writes -/
  macroOf : G → PyR (Str × List Str)

/-- The attributes `condensed_flash` and `explicit_region_move_end` (render/rs274x_backend.py:101-110). -/
structure Options where
  condensedFlash : Bool := true
  explicitRegionMoveEnd : Bool := false

/-- Attributes of `Rs274xContext` (render/rs274x_backend.py:86-124).  `comments` is never changed.  `_pos` is a pair of numbers or
`(None, None)`.  The four dictionaries of apertures are one, since their keys are values of different
constructors; only the code of the aperture definition stored there is ever used. -/
structure RState (G : Type) where
  header : List Stmt := []
  body : List Stmt := []
  level : Option String := none
  pos : Option Pt := none
  func : Option Str := none
  quad : Option String := none
  dcode : Option ℕ := none
  next : ℕ := 10
  shapes : RShape G → Option ℕ := fun _ => none
  macros : Str → List (ℕ × G) := fun _ => []

variable {G : Type} [DecidableEq G]

/-- `__init__` with `_start_header` (render/rs274x_backend.py:126-128). -/
def start (st : FileSettings) : RState G :=
  { header := [.fs st.zeroSuppression st.notation_ st.format, .mo st.units] }

/-- `self.body.append(stmt)` (render/rs274x_backend.py:195). -/
def RState.emit (s : RState G) (stmt : Stmt) : RState G := { s with body := s.body ++ [stmt] }

/-- `CoordStmt.FUNC_LINEAR` and so on (gerber_statements.py:885-887). -/
def G01 : Str := ['G', '0', '1']
/-- (gerber_statements.py:885-887) -/
def G02 : Str := ['G', '0', '2']
/-- (gerber_statements.py:885-887) -/
def G03 : Str := ['G', '0', '3']
/-- `CoordStmt.OP_DRAW` and so on (gerber_statements.py:881-883). -/
def D01 : Str := ['D', '0', '1']
/-- (gerber_statements.py:881-883) -/
def D02 : Str := ['D', '0', '2']
/-- (gerber_statements.py:881-883) -/
def D03 : Str := ['D', '0', '3']

/-- `_simplify_point` (render/rs274x_backend.py:130-131). -/
def simplify (pos : Option Pt) (p : Pt) : Option ℚ × Option ℚ :=
  match pos with
  | none => (some p.1, some p.2)
  | some q => (if p.1 ≠ q.1 then some p.1 else none, if p.2 ≠ q.2 then some p.2 else none)

/-- `hole_diameter is not None and hole_diameter > 0` and so on
(gerber_statements.py:272-310). -/
def holeMods (h : HoleAttr) : List ℚ :=
  match h.diameter with
  | some d => if d > 0 then [d] else rectMods h
  | none => rectMods h
where
  rectMods (h : HoleAttr) : List ℚ :=
    match h.width, h.height with
    | some w, some v => if w > 0 ∧ v > 0 then [w, v] else []
    | _, _ => []

/-- `ADParamStmt.circle`, `rect`, `obround`, `polygon` (gerber_statements.py:271-310) as called by the
backend; the polygon is given its diameter (rs274x_backend.py:387). -/
def adOf (d : ℕ) : RShape G → Stmt
  | .circle dia h => .ad d ['C'] [dia :: holeMods h]
  | .rect w v h => .ad d ['R'] [w :: v :: holeMods h]
  | .obround w v h => .ad d ['O'] [w :: v :: holeMods h]
  | .polygon n r rot h => .ad d ['P'] [r * 2 :: (n : ℚ) :: rot :: holeMods h]
  | .group _ => .ad d [] [[]]

/-- `_get_circle`, `_get_rectangle`, `_get_obround`, `_get_polygon` (render/rs274x_backend.py:289-307, 314-332, 341-358, 374-393);
their argument `dcode` is never given. -/
def getShape (s : RState G) (k : RShape G) : RState G × ℕ :=
  match s.shapes k with
  | some d => (s, d)
  | none =>
    ({ s with
      header := s.header ++ [adOf s.next k]
      next := s.next + 1
      shapes := fun k' => if k' = k then some s.next else s.shapes k' }, s.next)

/-- `_get_amacro` (render/rs274x_backend.py:430-485): the loop over the macros with the same hash, then a new definition. -/
def getMacro (env : MacroEnv G) (s : RState G) (g : G) : PyR (RState G × ℕ) :=
  let hash := env.hash g
  match (s.macros hash).find? fun m => env.equiv g m.2 with
  | some m => .ok (s, m.1)
  | none => do
    let (text, built) ← env.macroOf g
    .ok ({ s with
      header := s.header ++ [.am hash text built, .ad s.next hash [[]]]
      next := s.next + 1
      macros := fun h => if h = hash then s.macros hash ++ [(s.next, g)] else s.macros h }, s.next)

/-- `aper.d != self._dcode` (render/rs274x_backend.py:172-174, 277-279). -/
def select (s : RState G) (d : ℕ) : RState G :=
  if s.dcode ≠ some d then { s.emit (.aperture d false) with dcode := some d } else s

/-- `_select_aperture` (render/rs274x_backend.py:157-174). -/
def selectAperture (env : MacroEnv G) (s : RState G) : Option (RShape G) → PyR (RState G)
  | none => .ok s
  | some (.circle d h) => let (s, c) := getShape s (.circle d h); .ok (select s c)
  | some (.rect w v _) => let (s, c) := getShape s (.rect w v {}); .ok (select s c)
  | some (.obround w v _) => let (s, c) := getShape s (.obround w v {}); .ok (select s c)
  | some (.group g) => do
    let (s, c) ← getMacro env s g
    .ok (select s c)
  | some (.polygon _ _ _ _) => .error .notImplementedError

/-- `_render_level_polarity` (267-271).  An `LPParamStmt` whose `lp` is `None` is written as dark
(gerber_statements.py:259-261). -/
def renderLevel (s : RState G) (polarity default : Option String) : RState G :=
  let p := if polarity.isSome then polarity else default
  if p ≠ s.level then { s.emit (.lp (p.getD "dark")) with level := p } else s

/-- `_render_line` (render/rs274x_backend.py:181-207). -/
def renderLine (env : MacroEnv G) (s : RState G) (a b : Pt) (ap : Option (RShape G))
    (polarity default : Option String) : PyR (RState G) := do
  let s ← selectAperture env s ap
  let s := renderLevel s polarity default
  let func := if s.func ≠ some G01 then some G01 else none
  let s := { s with func := some G01 }
  let (s, func) :=
    if s.pos ≠ some a then
      let p := simplify s.pos a
      ({ s.emit (.coord { function := func, x := p.1, y := p.2, op := some D02 }) with
        pos := some a }, none)
    else (s, func)
  let p := simplify s.pos b
  if p.1 ≠ none ∨ p.2 ≠ none then
    .ok { s.emit (.coord { function := func, x := p.1, y := p.2, op := some D01 }) with pos := some b }
  else if func.isSome then .ok (s.emit (.coord { function := func }))
  else .ok s

/-- `_render_arc` (render/rs274x_backend.py:209-245); `_simplify_offset` (133-145) gives the difference, or the attributes
`_i_none` and `_j_none`, which are zero. -/
def renderArc (env : MacroEnv G) (s : RState G) (a b c : Pt) (direction : String)
    (ap : Option (RShape G)) (quadrant : String) (polarity default : Option String) :
    PyR (RState G) := do
  let s :=
    if some quadrant ≠ s.quad then
      { s.emit (.quad (if quadrant ≠ "multi-quadrant" then "single-quadrant" else "multi-quadrant")) with
        quad := some quadrant }
    else s
  let s ← selectAperture env s ap
  let s := renderLevel s polarity default
  let func ← if direction = "clockwise" then .ok G02
    else if direction = "counterclockwise" then .ok G03
    else .error .valueError
  let s := { s with func := some func }
  let s :=
    if s.pos ≠ some a then
      let p := simplify s.pos a
      { s.emit (.coord { function := some G01, x := p.1, y := p.2, op := some D02 }) with pos := some a }
    else s
  let i := if c.1 ≠ a.1 then c.1 - a.1 else 0
  let j := if c.2 ≠ a.2 then c.2 - a.2 else 0
  let p := simplify s.pos b
  let stmt : Coord :=
    { function := some func, x := p.1, y := p.2, i := some i, j := some j, op := some D01 }
  .ok { s.emit (.coord stmt) with pos := some b }

/-- `_render_line` or `_render_arc` (render/rs274x_backend.py:253-260). -/
def renderEdge (env : MacroEnv G) (s : RState G) (default : Option String) : REdge G → PyR (RState G)
  | .line a b ap pol => renderLine env s a b ap pol default
  | .arc a b c dir ap quad pol => renderArc env s a b c dir ap quad pol default

/-- The loop of `_render_region` (render/rs274x_backend.py:253-260). -/
def renderEdges (env : MacroEnv G) (s : RState G) (default : Option String) :
    List (REdge G) → PyR (RState G)
  | [] => .ok s
  | e :: l => do
    let s ← renderEdge env s default e
    renderEdges env s default l

/-- `_render_region` (render/rs274x_backend.py:247-265). -/
def renderRegion (env : MacroEnv G) (o : Options) (s : RState G) (edges : List (REdge G))
    (polarity : Option String) : PyR (RState G) := do
  let s := renderLevel s polarity (some "dark")
  let s := s.emit (.region "on")
  let s ← renderEdges env s polarity edges
  let s := if o.explicitRegionMoveEnd then s.emit (.coord { op := some D02 }) else s
  .ok (s.emit (.region "off"))

/-- `_render_flash` (render/rs274x_backend.py:273-287). -/
def renderFlash (o : Options) (s : RState G) (p : Pt) (polarity : Option String) (d : ℕ) : RState G :=
  let s := renderLevel s polarity (some "dark")
  let s := select s d
  let q := simplify s.pos p
  let s :=
    if o.condensedFlash then s.emit (.coord { x := q.1, y := q.2, op := some D03 })
    else (s.emit (.coord { x := q.1, y := q.2, op := some D02 })).emit (.coord { op := some D03 })
  { s with pos := some p }

/-- `render` (render.py:138-173) with `pre_render_primitive` (176-179): `comment` is the attribute of
that name, if there is one. -/
def render (env : MacroEnv G) (o : Options) (s : RState G) (comment : Option Str) (p : RPrim G) :
    PyR (RState G) :=
  let s := match comment with
    | some t => s.emit (.comment t)
    | none => s
  match p with
  | .edge e => renderEdge env s (some "dark") e
  | .region es pol => renderRegion env o s es pol
  | .flash (.group g) p pol => do
    let (s, d) ← getMacro env s g
    .ok (renderFlash o s p pol d)
  | .flash k p pol => let (s, d) := getShape s k; .ok (renderFlash o s p pol d)

/-- The loop of `CamFile.render` (cam.py:281-282). -/
def renderAll (env : MacroEnv G) (o : Options) (s : RState G) :
    List (Option Str × RPrim G) → PyR (RState G)
  | [] => .ok s
  | (c, p) :: l => do
    let s ← render env o s c p
    renderAll env o s l

/-- The property `statements` (render/rs274x_backend.py:147-149). -/
def RState.statements (s : RState G) : List Stmt := s.header ++ s.body ++ [.eof]

end Verif.Rs274x
