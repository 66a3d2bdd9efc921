import Verif.Model.Angle

/-! # Primitives as objects (gerber/primitives.py)

Primitives are mutable objects that refer to each other: a line or arc to its aperture, a region,
outline or macro aperture (`AMGroup`) to its parts.  Several lines usually share one aperture.  The
model is a heap of objects addressed by numbers, each with its attributes and its cached bounding box.

Simplifications: real numbers instead of doubles; attributes which no bounding box and no conversion
depends on (`level_polarity`, `net_name` and
`AMGroup.stmt`) are left out; attribute names are two enumerations, and a `Kind` says which of them are
properties with a setter.  `TestRecord` is left out: it has no bounding box. -/

namespace Verif.Geom

/-- The classes of primitives.py (primitives.py:205-1697). -/
inductive Kind
  | line | arc | circle | ellipse | rectangle | diamond | chamferRectangle | roundRectangle
  | obround | polygon | amGroup | outline | region | roundButterfly | squareButterfly | donut
  | squareRoundDonut | drill | slot
  deriving DecidableEq, Repr

/-- Attributes holding a point.  For an `AMGroup`, `position` is the attribute `_position`
(primitives.py:209-214, 327-332, 526-530). -/
inductive PA | start | stop | center | position
  deriving DecidableEq, Repr

/-- Attributes holding a number (or `None`) (primitives.py:526-534, 599-604, 866-873). -/
inductive NA
  | width | height | diameter | radius | chamfer | side | innerDiameter | outerDiameter
  | holeDiameter | holeWidth | holeHeight
  deriving DecidableEq, Repr

/-- `((min_x, max_x), (min_y, max_y))` (primitives.py:106-115). -/
abbrev Box := (ℝ × ℝ) × (ℝ × ℝ)

/-- A primitive: its attributes, `_bounding_box`, `_vertices` and `_segments` (primitives.py:51-63). -/
structure Obj where
  kind : Kind
  units : Option String
  rotation : ℝ
  pts : PA → Option RPt
  nums : NA → Option ℝ
  direction : String
  quadrantMode : String
  aperture : Option ℕ
  parts : List ℕ
  sides : ℕ := 0
  corners : List Bool := []
  box : Option Box := none
  vertices : Option (List RPt) := none
  segs : Option (List (RPt × RPt)) := none

/-- (primitives.py:51-63) -/
abbrev Heap := ℕ → Obj

/-- Point attributes whose assignment calls `_changed()`: property setters of the class.  The others
are plain attributes (Slot 1657-1664, RoundButterfly 1460-1465, Donut 1520-1545, ...) (primitives.py:226-228). -/
def ptSetter : Kind → PA → Bool
  | .line, .start | .line, .stop => true                            -- primitives.py:221-237
  | .arc, .start | .arc, .stop | .arc, .center => true              -- 343-368
  | .circle, .position | .ellipse, .position | .rectangle, .position | .diamond, .position
  | .chamferRectangle, .position | .roundRectangle, .position | .obround, .position
  | .polygon, .position | .drill, .position => true
  | _, _ => false

/-- Number attributes whose assignment calls `_changed()` (primitives.py:555-557). -/
def numSetter : Kind → NA → Bool
  | .circle, .diameter | .drill, .diameter => true
  | .ellipse, .width | .ellipse, .height | .rectangle, .width | .rectangle, .height
  | .diamond, .width | .diamond, .height | .obround, .width | .obround, .height
  | .chamferRectangle, .width | .chamferRectangle, .height | .chamferRectangle, .chamfer
  | .roundRectangle, .width | .roundRectangle, .height | .roundRectangle, .radius => true
  | .polygon, .radius => true
  | _, _ => false

/-- The point attributes in `_to_convert` (primitives.py:215, 337, 535). -/
def ptConvert : Kind → List PA
  | .line | .slot => [.start, .stop]
  | .arc => [.start, .stop, .center]
  | .outline | .region => []
  | _ => [.position]

/-- The number attributes in `_to_convert` (primitives.py:535, 605, 681). -/
def numConvert : Kind → List NA
  | .line | .arc | .amGroup | .outline | .region => []
  | .circle => [.diameter, .holeDiameter, .holeWidth, .holeHeight]
  | .ellipse | .diamond => [.width, .height]
  | .rectangle | .obround => [.width, .height, .holeDiameter, .holeWidth, .holeHeight]
  | .chamferRectangle => [.width, .height, .chamfer]
  | .roundRectangle => [.width, .height, .radius]
  | .polygon => [.radius, .holeDiameter, .holeWidth, .holeHeight]
  | .roundButterfly | .drill | .slot => [.diameter]
  | .squareButterfly => [.side]
  | .donut => [.width, .height, .innerDiameter, .outerDiameter]
  | .squareRoundDonut => [.innerDiameter, .outerDiameter]

/-- `_changed()` (primitives.py:191-203). -/
def Obj.changed (o : Obj) : Obj := { o with box := none, vertices := none, segs := none }

/-- Storing a computed box (primitives.py:247-260). -/
def Obj.withBox (o : Obj) (b : Box) : Obj := { o with box := some b }

/-- Assignment to a point attribute (primitives.py:226-228). -/
def Obj.setPt (o : Obj) (a : PA) (v : Option RPt) : Obj :=
  let o' := { o with pts := Function.update o.pts a v }
  if ptSetter o.kind a then o'.changed else o'

/-- Assignment to a number attribute (primitives.py:555-557). -/
def Obj.setNum (o : Obj) (a : NA) (v : Option ℝ) : Obj :=
  let o' := { o with nums := Function.update o.nums a v }
  if numSetter o.kind a then o'.changed else o'

/-- The `units` setter (primitives.py:77-80). -/
def Obj.setUnits (o : Obj) (u : Option String) : Obj := { o.changed with units := u }

/-- The `rotation` setter (primitives.py:86-91). -/
def Obj.setRotation (o : Obj) (r : ℝ) : Obj := { o.changed with rotation := r }

/-! ## Unit conversion (primitives.py:127-175, 1278-1293) -/

/-- The conversion of the attributes of one object: `units` first, then the values that were read
before.  `f` is `inch` or `metric`; `None` stays (the `except` branch) (primitives.py:127-175). -/
def Obj.convertOwn (f : ℝ → ℝ) (u : String) (o : Obj) : Obj :=
  let o1 := o.setUnits (some u)
  let o2 := (ptConvert o.kind).foldl
    (fun x a => x.setPt a ((o.pts a).map fun p => (f p.1, f p.2))) o1
  (numConvert o.kind).foldl (fun x a => x.setNum a ((o.nums a).map f)) o2

/-- Objects a conversion is passed on to: the aperture, and the parts if there are at least two
(`if len(value) > 1`) (primitives.py:134-141). -/
def Obj.children (o : Obj) : List ℕ :=
  match o.kind with
  | .line | .arc => o.aperture.toList
  | .amGroup | .outline | .region => if 1 < o.parts.length then o.parts else []
  | _ => []

/-- `to_inch` and `to_metric`: `src` is the unit from which is converted.  `fuel` bounds the nesting
(primitives.py:127-175). -/
noncomputable def convert (f : ℝ → ℝ) (src dst : String) : ℕ → Heap → ℕ → Heap
  | 0, h, _ => h
  | n + 1, h, i =>
    if (h i).units = some src then
      ((h i).children).foldl (convert f src dst n)
        (Function.update h i ((h i).convertOwn f dst))
    else h

/-- `to_inch()` (primitives.py:127-150). -/
noncomputable def toInch : ℕ → Heap → ℕ → Heap := convert (· / (127 / 5)) "metric" "inch"

/-- `to_metric()` (primitives.py:152-175). -/
noncomputable def toMetric : ℕ → Heap → ℕ → Heap := convert (· * (127 / 5)) "inch" "metric"

/-! ## Moving -/

/-- `p + (dx, dy)` (primitives.py:184). -/
def shift (dx dy : ℝ) (p : RPt) : RPt := (p.1 + dx, p.2 + dy)

/-- `offset` of the objects without parts: `Primitive.offset` (primitives.py:177-186), `Line.offset` (299-304),
`Arc.offset` (515-519), `Circle.offset` (579-580), `Polygon.offset` (1226-1227), `Drill.offset`
(1646-1648), `Slot.offset` (1682-1684). -/
def Obj.offset (dx dy : ℝ) (o : Obj) : Obj :=
  let mv (x : Obj) (a : PA) : Obj := x.setPt a ((x.pts a).map (shift dx dy))
  match o.kind with
  | .line => mv (mv o.changed .start) .stop
  | .arc => mv (mv (mv o.changed .start) .stop) .center
  | .slot => mv (mv o .start) .stop
  | .circle | .polygon => mv o .position
  | .amGroup | .outline | .region => o.changed
  | _ => mv o.changed .position

/-- `offset` (also `AMGroup.offset` 1315-1319, `Outline.offset` 1387-1390, `Region.offset`
1450-1453).  An `AMGroup` whose
position is still `None` raises before anything moves (primitives.py:177-186). -/
noncomputable def offset (dx dy : ℝ) : ℕ → Heap → ℕ → Heap
  | 0, h, _ => h
  | n + 1, h, i =>
    let o := h i
    match o.kind with
    | .amGroup =>
      match o.pts .position with
      | none => h
      | some p =>
        o.parts.foldl (offset dx dy n)
          (Function.update h i { o with pts := Function.update o.pts .position (some (shift dx dy p)) })
    | .outline | .region => o.parts.foldl (offset dx dy n) (Function.update h i o.changed)
    | _ => Function.update h i (o.offset dx dy)

/-- How far the `position` setter of an `AMGroup` moves the parts (primitives.py:1328-1333). -/
def Obj.groupDelta (o : Obj) (new : RPt) : RPt :=
  match o.pts .position with
  | some p => (new.1 - p.1, new.2 - p.2)
  | none => new

/-- Storing `_position` (primitives.py:1338). -/
def Obj.withPosition (o : Obj) (p : RPt) : Obj :=
  { o with pts := Function.update o.pts .position (some p) }

/-- The `position` setter of an `AMGroup` (primitives.py:1321-1338). -/
noncomputable def setGroupPosition (new : RPt) (n : ℕ) (h : Heap) (i : ℕ) : Heap :=
  let d := (h i).groupDelta new
  let h' := (h i).parts.foldl (offset d.1 d.2 n) h
  Function.update h' i ((h' i).withPosition new)

/-! ## Bounding boxes -/

/-- (primitives.py:746-765) -/
noncomputable def cosD (a : ℝ) : ℝ := Real.cos (radians a)
/-- (primitives.py:746-765) -/
noncomputable def sinD (a : ℝ) : ℝ := Real.sin (radians a)

/-- A box around a centre with half sizes (primitives.py:570-577). -/
def around (p : RPt) (w2 h2 : ℝ) : Box := ((p.1 - w2, p.1 + w2), (p.2 - h2, p.2 + h2))

/-- `axis_aligned_width` (e.g. primitives.py:760-761); used by rectangles, diamonds, chamfered and
round rectangles and obrounds. -/
noncomputable def axisAlignedWidth (rot w h : ℝ) : ℝ := cosD rot * w + sinD rot * h

/-- `axis_aligned_height` (e.g. 764-765) (primitives.py:764-765). -/
noncomputable def axisAlignedHeight (rot w h : ℝ) : ℝ := cosD rot * h + sinD rot * w

/-- `Ellipse.axis_aligned_width` (primitives.py:649-653). -/
noncomputable def ellipseWidth (rot w h : ℝ) : ℝ :=
  let ux := w / 2 * Real.cos (radians rot)
  let vx := h / 2 * Real.cos (radians rot + Real.pi / 2)
  2 * Real.sqrt (ux * ux + vx * vx)

/-- `Ellipse.axis_aligned_height` (primitives.py:656-660). -/
noncomputable def ellipseHeight (rot w h : ℝ) : ℝ :=
  let uy := w / 2 * Real.sin (radians rot)
  let vy := h / 2 * Real.sin (radians rot + Real.pi / 2)
  2 * Real.sqrt (uy * uy + vy * vy)

/-- The `radius` attribute, if the class has one (primitives.py:560-561). -/
noncomputable def Obj.radius? (o : Obj) : Option ℝ :=
  match o.kind with
  | .circle | .roundButterfly | .drill => (o.nums .diameter).map (· / 2)
  | .polygon | .roundRectangle => o.nums .radius
  | _ => none

/-- The `width` and `height` attributes, if the class has them (primitives.py:621-622, 630-631). -/
def Obj.size? (o : Obj) : Option (ℝ × ℝ) :=
  match o.kind with
  | .ellipse | .rectangle | .diamond | .chamferRectangle | .roundRectangle | .obround | .donut =>
    match o.nums .width, o.nums .height with
    | some w, some h => some (w, h)
    | _, _ => none
  | _ => none

/-- Half sizes of the aperture of a line (primitives.py:249-254): `none` if an attribute is missing. -/
noncomputable def lineMargin (ap : Obj) : Option (ℝ × ℝ) :=
  if ap.kind = .circle then ap.radius?.map fun r => (r, r)
  else ap.size?.map fun s => (s.1 / 2, s.2 / 2)

/-- Margins around an arc (primitives.py:448-457): the radius, or the whole width and height. -/
noncomputable def arcMargin (ap : Obj) : Option (ℝ × ℝ) :=
  match ap.radius? with
  | some r => some (r, r)
  | none => ap.size?

/-- `Line.bounding_box_no_aperture` (primitives.py:263-269). -/
def segBox (s e : RPt) : Box := ((min s.1 e.1, max s.1 e.1), (min s.2 e.2, max s.2 e.2))

/-- `Arc.radius` (primitives.py:380-383). -/
noncomputable def arcRadius (s c : RPt) : ℝ := Real.sqrt ((s.1 - c.1) ^ 2 + (s.2 - c.2) ^ 2)

/-- The tests "passes through" of `Arc.bounding_box` for an arc travelled counterclockwise from `t0`
to `t1` (primitives.py:416-430); a clockwise arc uses the same tests with the ends exchanged (432-446).  The first is
for 0 degrees. -/
def passesZero (t0 t1 : ℝ) : Prop := t0 ≥ t1

/-- The test for 90, 180 and 270 degrees (primitives.py:416-446). -/
def passes (q t0 t1 : ℝ) : Prop := (t0 ≤ q ∧ (t1 ≥ q ∨ t1 ≤ t0)) ∨ (t1 > q ∧ t1 ≤ t0)

open Classical in
/-- The extreme points of the circle that the arc from `a` to `b` passes (primitives.py:416-430). -/
noncomputable def arcExtra (c : RPt) (r a b : ℝ) : List RPt :=
  (if passesZero a b then [(c.1 + r, c.2)] else []) ++
  (if passes (Real.pi / 2) a b then [(c.1, c.2 + r)] else []) ++
  (if passes Real.pi a b then [(c.1 - r, c.2)] else []) ++
  (if passes (Real.pi * (3 / 2)) a b then [(c.1, c.2 - r)] else [])

/-- The points whose extremes make the box of an arc (primitives.py:411-446). -/
noncomputable def arcPoints (direction mode : String) (s e c : RPt) : List RPt :=
  [s, e] ++ (if mode = "multi-quadrant" then
    (if direction = "counterclockwise" then arcExtra c (arcRadius s c) (theta s c) (theta e c)
    else arcExtra c (arcRadius s c) (theta e c) (theta s c)) else [])

/-- The box of a nonempty list of points (primitives.py:448-453). -/
def hullBox : List RPt → Box
  | [] => ((0, 0), (0, 0))
  | p :: l => (((l.map (·.1)).foldl min p.1, (l.map (·.1)).foldl max p.1),
      ((l.map (·.2)).foldl min p.2, (l.map (·.2)).foldl max p.2))

/-- `Arc.bounding_box_no_aperture` (primitives.py:464-513). -/
noncomputable def arcBox (direction mode : String) (s e c : RPt) : Box :=
  hullBox (arcPoints direction mode s e c)

/-- A box with margins (primitives.py:454-461). -/
def Box.grow (b : Box) (m : ℝ × ℝ) : Box :=
  ((b.1.1 - m.1, b.1.2 + m.1), (b.2.1 - m.2, b.2.2 + m.2))

/-- The smallest box around boxes (`Region.bounding_box` 1438-1448 and the same code for outlines and
macro apertures); no boxes: ValueError (primitives.py:1438-1448). -/
def unionBox : List Box → Option Box
  | [] => none
  | b :: l => some (((l.map (·.1.1)).foldl min b.1.1, (l.map (·.1.2)).foldl max b.1.2),
      ((l.map (·.2.1)).foldl min b.2.1, (l.map (·.2.2)).foldl max b.2.2))

/-- The bounding box computed from the attributes of an object without parts; `ap` is its aperture.
`none`: an attribute is missing and Python raises (primitives.py:247-1680). -/
noncomputable def Obj.ownBox (o : Obj) (ap : Option Obj) : Option Box :=
  let pt (a : PA) := o.pts a
  let num (a : NA) := o.nums a
  match o.kind with
  | .line => do                                                    -- 247-260
      let m ← lineMargin (← ap); let s ← pt .start; let e ← pt .stop
      return (segBox s e).grow m
  | .arc => do                                                     -- 409-461
      let m ← arcMargin (← ap); let s ← pt .start; let e ← pt .stop; let c ← pt .center
      return (arcBox o.direction o.quadrantMode s e c).grow m
  | .circle | .roundButterfly | .drill => do                       -- 570-577
      return around (← pt .position) ((← num .diameter) / 2) ((← num .diameter) / 2)
  | .polygon => do return around (← pt .position) (← num .radius) (← num .radius)
  | .ellipse => do                                                 -- 639-646
      let w ← num .width; let h ← num .height
      return around (← pt .position) (ellipseWidth o.rotation w h / 2)
        (ellipseHeight o.rotation w h / 2)
  | .rectangle | .diamond | .chamferRectangle | .roundRectangle | .obround => do  -- 736-743
      let w ← num .width; let h ← num .height
      return around (← pt .position) (axisAlignedWidth o.rotation w h / 2)
        (axisAlignedHeight o.rotation w h / 2)
  | .squareButterfly => do
      return around (← pt .position) ((← num .side) / 2) ((← num .side) / 2)
  | .donut => do
      return around (← pt .position) ((← num .width) / 2) ((← num .height) / 2)
  | .squareRoundDonut => do
      return around (← pt .position) ((← num .outerDiameter) / 2) ((← num .outerDiameter) / 2)
  | .slot => do                                                    -- 1672-1680
      let d ← num .diameter; let s ← pt .start; let e ← pt .stop
      return (segBox s e).grow (d / 2, d / 2)
  | .amGroup | .outline | .region => none

/-- Left to right over the parts, stopping at the first exception (primitives.py:1438-1448). -/
def readParts (read : Heap → ℕ → Option Box × Heap) : Heap → List ℕ → Option (List Box) × Heap
  | h, [] => (some [], h)
  | h, i :: l =>
    match read h i with
    | (none, h') => (none, h')
    | (some b, h') =>
      match readParts read h' l with
      | (none, h'') => (none, h'')
      | (some bs, h'') => (some (b :: bs), h'')

/-- `bounding_box_no_aperture` of lines and arcs (not cached) (primitives.py:263-269, 464-513). -/
noncomputable def Obj.bareBox (o : Obj) : Option Box :=
  match o.kind with
  | .line => do return segBox (← o.pts .start) (← o.pts .stop)
  | .arc => do
      return arcBox o.direction o.quadrantMode (← o.pts .start) (← o.pts .stop) (← o.pts .center)
  | _ => none

/-- Reading `bounding_box_no_aperture`: of lines and arcs without the aperture, of the base class
(primitives.py:117-125) the bounding box. -/
noncomputable def readBare (read : Heap → ℕ → Option Box × Heap) (h : Heap) (i : ℕ) :
    Option Box × Heap :=
  match (h i).kind with
  | .line | .arc => ((h i).bareBox, h)
  | _ => read h i

/-- Reading `bounding_box`: the value (`none` if Python raises) and the heap with its new caches
(primitives.py:247-1680). -/
noncomputable def readBox : ℕ → Heap → ℕ → Option Box × Heap
  | 0, h, _ => (none, h)
  | n + 1, h, i =>
    match (h i).kind with
    | .amGroup =>                                                  -- 1300-1309, not cached
      match readParts (readBox n) h (h i).parts with
      | (bs, h') => (bs.bind unionBox, h')
    | .outline | .region =>
      match (h i).box with
      | some b => (some b, h)
      | none =>
        match readParts (if (h i).kind = .region then readBare (readBox n) else readBox n) h
            (h i).parts with
        | (bs, h') =>
          match bs.bind unionBox with
          | none => (none, h')
          | some b => (some b, Function.update h' i ((h' i).withBox b))
    | _ =>
      match (h i).box with
      | some b => (some b, h)
      | none =>
        match (h i).ownBox ((h i).aperture.map h) with
        | none => (none, h)
        | some b => (some b, Function.update h i ((h i).withBox b))

end Verif.Geom
