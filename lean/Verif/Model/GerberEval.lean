import Verif.Model.GerberParse

/-! # Interpretation of Gerber statements (gerber/rs274x.py:240-277, 482-784)

`GerberParser.evaluate` as a function from interpreter states to interpreter states.  Everything the
interpreter does with aperture macros and with the choice of an arc centre in single-quadrant mode is
delegated to functions given by an `EvalEnv`, so that the theorems about the interpreter hold
whatever these compute:

* `build` is `AMParamStmt.build` (gerber_statements.py:427-456); `G` is the type of macro groups,
* `center` is the search of `_find_center` (rs274x.py:735-779), which may find nothing.

Objects are values here: an aperture is shared between the table of apertures and the lines drawn
with it in Python, which matters only for later conversions.  `AMParamStmt.build` also stores the
primitives in the statement (see `Stmt.am`); that effect is not part of this model. -/

namespace Verif.Gerber
open Verif.Py Verif.Cam

/-- A point (rs274x.py:642-643). -/
abbrev Pt := ℚ × ℚ

/-- Diameter of a round hole, width and height of a rectangular one (rs274x.py:517-522). -/
structure Hole where
  diameter : ℚ := 0
  width : ℚ := 0
  height : ℚ := 0
  deriving DecidableEq

/-- Shapes of apertures: the primitives `Circle`, `Rectangle`, `Obround`, `Polygon`, `AMGroup` as
constructed by `_define_aperture` (rs274x.py:512-587). -/
inductive Shape (G : Type)
  | circle (diameter : ℚ) (hole : Hole)
  | rect (width height : ℚ) (hole : Hole)
  | obround (width height : ℚ) (hole : Hole)
  | polygon (sides : ℤ) (radius rotation : ℚ) (hole : Hole)
  | group (g : G)
  deriving DecidableEq

/-- An aperture: its shape and its `units` attribute (rs274x.py:586-587). -/
structure Aperture (G : Type) where
  shape : Shape G
  units : Option String
  deriving DecidableEq

/-- A `Line` or an `Arc` (rs274x.py:647-650, 675-679). -/
inductive Edge (G : Type)
  | line (start end_ : Pt) (aperture : Aperture G) (polarity units : String)
  | arc (start end_ : Pt) (center : Option Pt) (direction : String) (aperture : Aperture G)
      (quadrant polarity units : String)
  deriving DecidableEq

/-- A primitive: a line or arc, a flashed aperture, a `Region` (rs274x.py:594-595, 713-716). -/
inductive Prim (G : Type)
  | edge (e : Edge G)
  | flash (shape : Shape G) (position : Pt) (polarity units : String)
  | region (edges : List (Edge G)) (polarity units : String)
  deriving DecidableEq

/-- What the interpreter is given (rs274x.py:584, 673). -/
structure EvalEnv (G : Type) where
  /-- macro text, units of the statement, modifiers -/
  build : Str → String → List ℚ → PyR G
  /-- direction, start, end, offsets -/
  center : String → Pt → Pt → Pt → Option Pt

/-- Attributes of `GerberParser` used by `evaluate` (rs274x.py:240-259); dictionaries are
functions.  (`image_polarity` and `step_and_repeat` are never read.) -/
structure EvalState (G : Type) where
  settings : FileSettings
  primitives : List (Prim G) := []
  apertures : ℕ → Option (Aperture G) := fun _ => none
  macros : Str → Option (Str × String) := fun _ => none
  currentRegion : Option (List (Edge G)) := none
  x : ℚ := 0
  y : ℚ := 0
  op : Str := ['D', '0', '2']
  aperture : ℕ := 0
  interpolation : String := "linear"
  direction : String := "clockwise"
  levelPolarity : String := "dark"
  regionMode : String := "off"
  quadrantMode : String := "multi-quadrant"

variable {G : Type}

/-- `modifiers[0]` (rs274x.py:515). -/
def firstMods : List (List ℚ) → PyR (List ℚ)
  | [] => .error .indexError
  | m :: _ => .ok m

/-- `m[k]` (rs274x.py:515). -/
def modAt (m : List ℚ) (k : ℕ) : PyR ℚ := match m[k]? with
  | some v => .ok v
  | none => .error .indexError

/-- Hole for `k` modifiers before it: one more is a diameter, two more are width and height
(rs274x.py:517-522, 534-539, 550-555). -/
def holeOf (m : List ℚ) (k : ℕ) : Hole :=
  if m.length = k + 1 then { diameter := m.getD k 0 }
  else if m.length = k + 2 then { width := m.getD k 0, height := m.getD (k + 1) 0 }
  else {}

/-- Hole of a polygon, where more than five modifiers are tolerated (rs274x.py:570-575). -/
def polyHole (m : List ℚ) : Hole :=
  if m.length = 4 then { diameter := m.getD 3 0 }
  else if m.length ≥ 5 then { width := m.getD 3 0, height := m.getD 4 0 }
  else {}

/-- `int(x)` of a float (rs274x.py:564). -/
def truncate (q : ℚ) : ℤ := if 0 ≤ q then ⌊q⌋ else ⌈q⌉

/-- `_define_aperture` without the assignment at its end (rs274x.py:512-584). -/
def shapeOf (env : EvalEnv G) (macros : Str → Option (Str × String)) (shape : Str)
    (mods : List (List ℚ)) : PyR (Shape G) :=
  if shape = ['C'] then do
    let m ← firstMods mods
    let d ← modAt m 0
    .ok (.circle d (holeOf m 1))
  else if shape = ['R'] then do
    let m ← firstMods mods
    let w ← modAt m 0
    let h ← modAt m 1
    .ok (.rect w h (holeOf m 2))
  else if shape = ['O'] then do
    let m ← firstMods mods
    let w ← modAt m 0
    let h ← modAt m 1
    .ok (.obround w h (holeOf m 2))
  else if shape = ['P'] then do
    let m ← firstMods mods
    let d ← modAt m 0
    let n ← modAt m 1
    .ok (.polygon (truncate n) (d / 2) (m.getD 2 0) (polyHole m))
  else match macros shape with
    | none => .error .keyError
    | some (body, units) => do
      let m ← firstMods mods
      let g ← env.build body units m
      .ok (.group g)

/-- `_evaluate_mode` for a `RegionModeStmt` (rs274x.py:590-598). -/
def evalRegion (st : EvalState G) (mode : String) : EvalState G :=
  if st.regionMode = "on" ∧ mode = "off" then
    { st with
      primitives := match st.currentRegion with
        | some (e :: es) =>
          st.primitives ++ [.region (e :: es) st.levelPolarity st.settings.units]
        | _ => st.primitives
      currentRegion := none
      regionMode := mode }
  else { st with regionMode := mode }

/-- `CoordStmt.only_function` (gerber_statements.py:1061-1069). -/
def Coord.onlyFunction (c : Coord) : Bool :=
  c.function.isSome && c.op.isNone && c.x.isNone && c.y.isNone && c.i.isNone && c.j.isNone

/-- `stmt.function in ("G01", "G1")` (rs274x.py:622). -/
def isG1 (f : Option Str) : Bool := f = some ['G', '0', '1'] || f = some ['G', '1']
/-- `stmt.function in ("G02", "G2")` (rs274x.py:624-627). -/
def isG2 (f : Option Str) : Bool := f = some ['G', '0', '2'] || f = some ['G', '2']
/-- `stmt.function in ("G03", "G3")` (rs274x.py:624). -/
def isG3 (f : Option Str) : Bool := f = some ['G', '0', '3'] || f = some ['G', '3']
/-- `self.op == "D01" or self.op == "D1"` (rs274x.py:641). -/
def isD1 (o : Str) : Bool := o = ['D', '0', '1'] || o = ['D', '1']
/-- `self.op == "D02" or self.op == "D2"` (rs274x.py:697). -/
def isD2 (o : Str) : Bool := o = ['D', '0', '2'] || o = ['D', '2']
/-- `self.op == "D03" or self.op == "D3"` (rs274x.py:707). -/
def isD3 (o : Str) : Bool := o = ['D', '0', '3'] || o = ['D', '3']

/-- The interpolation mode set by a coordinate statement (rs274x.py:622-627). -/
def setFunction (st : EvalState G) (f : Option Str) : EvalState G :=
  if isG1 f then { st with interpolation := "linear" }
  else if isG2 f then { st with interpolation := "arc", direction := "clockwise" }
  else if isG3 f then { st with interpolation := "arc", direction := "counterclockwise" }
  else st

/-- `_find_center` (rs274x.py:727-781). -/
def findCenter (env : EvalEnv G) (st : EvalState G) (start end_ offsets : Pt) : Option Pt :=
  if st.quadrantMode = "single-quadrant" then env.center st.direction start end_ offsets
  else some (start.1 + offsets.1, start.2 + offsets.2)

/-- `Circle((0, 0), 0)` (rs274x.py:661). -/
def noAperture : Aperture G := ⟨.circle 0 {}, none⟩

/-- The line or arc of a draw operation to `(x, y)` with the given aperture (rs274x.py:645-692). -/
def edgeTo (env : EvalEnv G) (st : EvalState G) (c : Coord) (x y : ℚ) (ap : Aperture G) : Edge G :=
  if st.interpolation = "linear" then
    .line (st.x, st.y) (x, y) ap st.levelPolarity st.settings.units
  else
    .arc (st.x, st.y) (x, y) (findCenter env st (st.x, st.y) (x, y) (c.i.getD 0, c.j.getD 0))
      st.direction ap st.quadrantMode st.levelPolarity st.settings.units

/-- The operation part of `_evaluate_coord` (rs274x.py:641-724), before the position is updated. -/
def evalOp (env : EvalEnv G) (st : EvalState G) (c : Coord) (x y : ℚ) : PyR (EvalState G) :=
  if isD1 st.op then
    if st.regionMode = "off" then
      match st.apertures st.aperture with
      | none => .error .keyError
      | some ap => .ok { st with primitives := st.primitives ++ [.edge (edgeTo env st c x y ap)] }
    else
      let e := edgeTo env st c x y ((st.apertures st.aperture).getD noAperture)
      .ok { st with
        currentRegion := some (match st.currentRegion with
          | none => [e]
          | some l => l ++ [e])
        interpolation := "linear" }
  else if isD2 st.op then
    if st.regionMode = "on" then
      .ok { st with
        primitives := match st.currentRegion with
          | some l => if l.length > 1 then
              st.primitives ++ [.region l st.levelPolarity st.settings.units] else st.primitives
          | none => st.primitives
        currentRegion := none }
    else .ok st
  else if isD3 st.op then
    match st.apertures st.aperture with
    | none => .error .keyError
    | some ap => .ok { st with
        primitives := st.primitives ++ [.flash ap.shape (x, y) st.levelPolarity st.settings.units] }
  else .ok st

/-- `_evaluate_coord` (rs274x.py:618-725): new state, and the statement with its operation code
filled in. -/
def evalCoord (env : EvalEnv G) (st : EvalState G) (c : Coord) : PyR (EvalState G × Coord) :=
  let x := c.x.getD st.x
  let y := c.y.getD st.y
  let st := setFunction st c.function
  if c.onlyFunction then .ok (st, c)
  else
    let (st, c) := match c.op with
      | some (ch :: o) => ({ st with op := ch :: o }, c)
      | _ => (st, { c with op := some st.op })
    do
      let st ← evalOp env st c x y
      .ok ({ st with x := x, y := y }, c)

/-- `evaluate` (rs274x.py:482-510): new state, and the statement as it is afterwards.  `type` of the
statement classes decides as their class does. -/
def evaluate (env : EvalEnv G) (st : EvalState G) : Stmt → PyR (EvalState G × Stmt)
  | .coord c => do
    let (st, c) ← evalCoord env st c
    .ok (st, .coord c)
  | .fs z n f => .ok ({ st with settings :=
      { (st.settings.setZeroSuppression z) with format := f, notation_ := n } }, .fs z n f)
  | .mo m => .ok ({ st with settings := { st.settings with units := m } }, .mo m)
  | .lp p => .ok ({ st with levelPolarity := p }, .lp p)
  | .am n b l => .ok ({ st with
      macros := fun k => if k = n then some (b, st.settings.units) else st.macros k }, .am n b l)
  | .ad d shape mods => do
    let s ← shapeOf env st.macros shape mods
    .ok ({ st with
      apertures := fun k => if k = d then some ⟨s, some st.settings.units⟩ else st.apertures k },
      .ad d shape mods)
  | .aperture d dep => .ok ({ st with aperture := d }, .aperture d dep)
  | .region m => .ok (evalRegion st m, .region m)
  | .quad m => .ok ({ st with quadrantMode := m }, .quad m)
  -- other parameters, comments, unknown, deprecated and end of file statements do nothing
  | s => .ok (st, s)

/-- The loop of `parse_raw` (rs274x.py:269-271) over statements already read.  (Python interleaves
reading and evaluating; a failure of either ends both.) -/
def evalAll (env : EvalEnv G) (st : EvalState G) : List Stmt → PyR (EvalState G × List Stmt)
  | [] => .ok (st, [])
  | s :: l => do
    let (st', s') ← evaluate env st s
    let (st'', l') ← evalAll env st' l
    .ok (st'', s' :: l')

/-- State of a fresh `GerberParser` (rs274x.py:240-259). -/
def initState : EvalState G := { settings := defaultSettings }

/-- `GerberFile`: statements, settings and primitives (rs274x.py:103-106). -/
structure GerberFile (G : Type) where
  statements : List Stmt
  settings : FileSettings
  primitives : List (Prim G)

/-- `GerberParser().parse_raw(data)` (rs274x.py:267-277). -/
def loads (env : EvalEnv G) (fs : Str → Option Str) (data : Str) : PyR (GerberFile G) := do
  let (stmts, settings) ← parseText fs data
  let (st, stmts) ← evalAll env initState stmts
  .ok ⟨stmts, settings, st.primitives⟩

end Verif.Gerber
