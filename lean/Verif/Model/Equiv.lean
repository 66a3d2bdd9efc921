import Verif.Model.AmShape

/-! # Comparing macro groups (`equivalent`, gerber/primitives.py; `nearly_equal`, gerber/utils.py;
`_hash_amacro`, gerber/render/rs274x_backend.py)

Real numbers instead of doubles.  An object has the attributes that matter for what it draws; caches are left out
(the boxes are those of `bounding_box` computed afresh). -/

namespace Verif.Equiv

open Verif.Py Verif.Geom

/-- Python's `round(x)` to the nearest integer, halves to the even one (utils.py:303-306). -/
noncomputable def roundEven (x : ℝ) : ℤ :=
  open Classical in
  if x - ⌊x⌋ < 1 / 2 then ⌊x⌋
  else if x - ⌊x⌋ = 1 / 2 ∧ Even ⌊x⌋ then ⌊x⌋
  else ⌊x⌋ + 1

/-- `round(x, ndigits)` (utils.py:303-306). -/
noncomputable def pyRound (x : ℝ) (ndigits : ℕ) : ℝ := roundEven (x * 10 ^ ndigits) / 10 ^ ndigits

/-- `nearly_equal` (utils.py:303-306). -/
noncomputable def nearlyEqual (p q : RPt) (ndigits : ℕ := 6) : Bool :=
  open Classical in
  decide (pyRound (p.1 - q.1) ndigits = 0) && decide (pyRound (p.2 - q.2) ndigits = 0)

/-- `hole_diameter`, `hole_width`, `hole_height` (primitives.py:526-534). -/
structure Hole where
  diameter : ℝ := 0
  width : ℝ := 0
  height : ℝ := 0

/-- The classes that have a method `equivalent`; `other` is an object of another class, of which only the name of
the class and the box are kept (primitives.py:306-315, 582-593, 767-778, 1242-1253, 1409-1421). -/
inductive Shape
  /-- a line drawn with a round aperture -/
  | line (s e : RPt) (width : ℝ)
  | circle (pos : RPt) (d : ℝ) (hole : Hole)
  | rectangle (pos : RPt) (w h rot : ℝ) (hole : Hole)
  | polygon (pos : RPt) (sides : ℤ) (r rot : ℝ) (hole : Hole)
  /-- `Outline`, of lines with a round aperture of diameter 0 -/
  | outline (lines : List (RPt × RPt))
  | other (cls : Str) (box : Box)

/-- A part of a group with its polarity (primitives.py:1340-1353). -/
structure Drawn where
  dark : Bool
  shape : Shape

/-- `tuple(map(add, p, offset))` (primitives.py:311-312). -/
def shift (p d : RPt) : RPt := (p.1 + d.1, p.2 + d.2)

/-- `Line.equivalent` (primitives.py:306-315) for two lines. -/
noncomputable def lineEquiv (l m : RPt × RPt) (d : RPt) : Bool :=
  nearlyEqual l.1 (shift m.1 d) && nearlyEqual l.2 (shift m.2 d)

/-- The loops over two lists of the same length (primitives.py:1349-1354, 1418-1422), stopping at the first
difference. -/
def allEquiv {α : Type} (f : α → α → PyR Bool) : List α → List α → PyR Bool
  | a :: as, b :: bs => do
    let r ← f a b
    if r then allEquiv f as bs else .ok false
  | _, _ => .ok true

/-- `equivalent` of the classes: lines (primitives.py:306-315), circles (582-593), rectangles (767-778), polygons
(1242-1253) and outlines (1409-1422). -/
noncomputable def Shape.equivalent (a b : Shape) (d : RPt) : PyR Bool :=
  open Classical in
  match a with
  | .line s e _ => match b with
    | .line s' e' _ => .ok (lineEquiv (s, e) (s', e') d)
    | _ => .ok false
  | .circle p dia h => match b with
    | .circle p' dia' h' =>
      if dia ≠ dia' ∨ h.diameter ≠ h'.diameter then .ok false else .ok (nearlyEqual p (shift p' d))
    | _ => .ok false
  | .rectangle p w v rot h => match b with
    | .rectangle p' w' v' rot' h' =>
      if w ≠ w' ∨ v ≠ v' ∨ rot ≠ rot' ∨ h.diameter ≠ h'.diameter then .ok false
      else .ok (nearlyEqual p (shift p' d))
    | _ => .ok false
  | .polygon p n r _ _ => match b with
    | .polygon p' n' r' _ _ =>
      if n ≠ n' ∨ r ≠ r' then .ok false else .ok (nearlyEqual p (shift p' d))
    | _ => .ok false
  | .outline ls => match b with
    | .outline ls' =>
      if ls.length ≠ ls'.length then .ok false
      else allEquiv (fun l m => .ok (lineEquiv l m d)) ls ls'
    | _ => .ok false
  | .other _ _ => .error .attributeError

/-- `AMGroup.equivalent` (primitives.py:1340-1354). -/
noncomputable def equivalent (g h : List Drawn) (d : RPt) : PyR Bool :=
  if g.length ≠ h.length then .ok false
  else allEquiv (fun a b => a.shape.equivalent b.shape d) g h

/-! ## Moving (`offset`, and `position` of groups) -/

/-- `offset` of the classes (primitives.py:299-304, 579-580, 177-186, 1226-1227, 1387-1390). -/
def Shape.move (d : RPt) : Shape → Shape
  | .line s e w => .line (shift s d) (shift e d) w
  | .circle p dia h => .circle (shift p d) dia h
  | .rectangle p w v rot h => .rectangle (shift p d) w v rot h
  | .polygon p n r rot h => .polygon (shift p d) n r rot h
  | .outline ls => .outline (ls.map fun l => (shift l.1 d, shift l.2 d))
  | .other c b => .other c ((b.1.1 + d.1, b.1.2 + d.1), (b.2.1 + d.2, b.2.2 + d.2))

/-- The parts of a group after its position has been set for the first time (primitives.py:1322-1338). -/
def moveTo (d : RPt) (g : List Drawn) : List Drawn := g.map fun a => { a with shape := a.shape.move d }

/-! ## The hash -/

/-- `Line.bounding_box` (primitives.py:247-260) with a round aperture. -/
noncomputable def lineBox (s e : RPt) (width : ℝ) : Box :=
  ((min s.1 e.1 - width / 2, max s.1 e.1 + width / 2), (min s.2 e.2 - width / 2, max s.2 e.2 + width / 2))

/-- `bounding_box` of the classes (primitives.py:247-260, 570-577, 736-743, 1217-1224, 1375-1385). -/
noncomputable def Shape.box : Shape → PyR Box
  | .line s e w => .ok (lineBox s e w)
  | .circle p d _ => .ok (around p (d / 2) (d / 2))
  | .rectangle p w h rot _ => .ok (around p (axisAlignedWidth rot w h / 2) (axisAlignedHeight rot w h / 2))
  | .polygon p _ r _ _ => .ok (around p r r)
  | .outline ls => match unionBox (ls.map fun l => lineBox l.1 l.2 0) with
    | some b => .ok b
    | none => .error .valueError
  | .other _ b => .ok b

/-- `primitive.__class__.__name__[0]` (render/rs274x_backend.py:408). -/
def Shape.letter : Shape → Str
  | .line .. => ['L']
  | .circle .. => ['C']
  | .rectangle .. => ['R']
  | .polygon .. => ['P']
  | .outline .. => ['O']
  | .other c _ => c.take 1

/-- What one part adds to the hash (rs274x_backend.py:408-421); `two x` is `str(x)[0:2]`. -/
noncomputable def partHash (two : ℝ → Str) (a : Shape) : PyR Str := do
  let b ← a.box
  let size := two ((b.1.2 - b.1.1) * 100000) ++ two ((b.2.2 - b.2.1) * 100000)
  .ok (a.letter ++ size ++ match a with
    | .outline ls => natStr ls.length
    | .rectangle _ w h _ _ => two (w * 1000000) ++ two (h * 1000000)
    | .circle _ d _ => two (d * 1000000)
    | _ => [])

/-- The loop (rs274x_backend.py:405-426): it stops once the hash is longer than 20. -/
noncomputable def hashFrom (two : ℝ → Str) (hash : Str) : List Drawn → PyR Str
  | [] => .ok hash
  | a :: as => do
    let p ← partHash two a.shape
    let hash := hash ++ p
    if hash.length > 20 then .ok hash else hashFrom two hash as

/-- `_hash_amacro` (rs274x_backend.py:398-428). -/
noncomputable def hashOf (two : ℝ → Str) (g : List Drawn) : PyR Str := hashFrom two ['X'] g

/-! ## Groups of files -/

/-- The parts of groups made of macros (`Verif.Model.AmShape`) as objects: circles and polygons have no holes
(primitives.py:1259-1275). -/
def ofAm (a : Verif.Am.Drawn) : Drawn where
  dark := a.dark
  shape := match a.shape with
    | .circle p d => .circle p d {}
    | .outline ls => .outline ls
    | .polygon p n r rot => .polygon p n r rot {}

end Verif.Equiv
