import Verif.Model.Vertices
import Verif.Spec.Shapes
import Verif.Model.Theme

/-! # Rendering with cairo (gerber/render/cairo_backend.py, `GerberContext.render` in gerber/render/render.py)

What is modelled are the calls of cairo and the coordinates given to them.  The effect of a call is an ideal one:
a surface is a set of painted points of the plane (no resolution, no antialiasing); `paint` and `mask` with the
operator OVER add points and with CLEAR remove them; `arc` over a whole turn followed by `fill` paints a disc,
`rectangle` and `fill` a rectangle, `stroke` of a segment or an arc with round caps the points at most half of the
line width away from it (nothing for width 0).  The areas of general closed paths and of arcs with square caps are
parameters (`Engine`).

Simplifications: real numbers instead of doubles; the scale is the same on both axes, as every caller sets it
(41, 120-121); texts at test points are left out; a primitive is a value with the attributes the renderer reads;
the polarity is a flag for `level_polarity == 'dark'`; SVG surfaces have no border (points outside the picture are
not removed, but the size of the picture is part of the model). -/

namespace Verif.Cairo

open Verif.Py Verif.Geom Verif.Render

/-! ## Primitives -/

/-- The hole of an aperture: `hole_diameter`, `hole_width`, `hole_height` (primitives.py:526-534). -/
structure Hole where
  diameter : ℝ := 0
  width : ℝ := 0
  height : ℝ := 0

/-- The aperture of a line or an arc (primitives.py:209-215). -/
inductive Aperture
  | circle (d : ℝ)
  | rectangle (w h rot : ℝ)
  | obround (w h : ℝ)
  | polygon (sides : ℕ) (r rot : ℝ)

/-- A part of a region or an outline (primitives.py:1362-1365). -/
inductive Part
  | line (s e : RPt)
  | arc (s e c : RPt) (direction mode : String)

/-- The classes of primitives that are drawn, without groups (render/render.py:138-170). -/
inductive Shape
  | line (s e : RPt) (ap : Aperture)
  | arc (s e c : RPt) (direction mode : String) (ap : Aperture)
  | region (parts : List Part)
  | circle (pos : RPt) (d rot : ℝ) (hole : Hole)
  | rectangle (pos : RPt) (w h rot : ℝ) (hole : Hole)
  | obround (pos : RPt) (w h rot : ℝ) (hole : Hole)
  | polygon (pos : RPt) (sides : ℕ) (r rot : ℝ) (hole : Hole)
  | drill (pos : RPt) (d : ℝ)
  | slot (s e : RPt) (d : ℝ)

/-- A primitive of a layer.  The parts of a group come with their own polarity (render/render.py:138-170). -/
inductive Prim
  | shape (dark : Bool) (s : Shape)
  /-- `AMGroup` -/
  | group (parts : List (Bool × Shape))
  /-- `TestRecord` -/
  | testRecord (pos : RPt)
  /-- A class `GerberContext.render` does not know: ellipse, diamond, chamfered and round rectangle, butterflies,
  donuts -/
  | undrawn

/-! ## Areas of drawing calls -/

/-- `arc(x, y, r, 0, 2π); fill()` (render/cairo_backend.py:302-324). -/
def discAt (c : RPt) (r : ℝ) : Set RPt := {p | (p.1 - c.1) ^ 2 + (p.2 - c.2) ^ 2 ≤ r ^ 2}

/-- `rectangle(x, y, w, h)` with `w` and `h` not negative (render/cairo_backend.py:343-384). -/
def rectAt (x y w h : ℝ) : Set RPt := {p | x ≤ p.1 ∧ p.1 ≤ x + w ∧ y ≤ p.2 ∧ p.2 ≤ y + h}

/-- `stroke()` with round caps along the points `path` (render/cairo_backend.py:212-218). -/
def strokeOf (path : Set RPt) (width : ℝ) : Set RPt := {q | 0 < width ∧ ∃ c ∈ path, q ∈ discAt c (width / 2)}

/-- Pieces of a path: `line_to`, `arc` and `arc_negative` (render/cairo_backend.py:284-298). -/
inductive Piece
  | line (p : RPt)
  | arc (c : RPt) (r a1 a2 : ℝ) (negative : Bool)

/-- The areas that are parameters (render/cairo_backend.py:202-490). -/
structure Engine where
  /-- `move_to(start)`, the pieces, `fill()` -/
  fill : RPt → List Piece → Set RPt
  /-- `stroke()` of an arc with square caps and the given width -/
  squareArc : RPt → ℝ → ℝ → ℝ → Bool → ℝ → Set RPt

/-- The angles of `arc(..., a1, a2)` (the second is increased by whole turns until it is not less than the first) and
of `arc_negative` (decreased until it is not greater) (render/cairo_backend.py:254-258). -/
def angles (a1 a2 : ℝ) (negative : Bool) : Set ℝ :=
  {t | ∃ k : ℕ, if negative then a2 - k * (2 * Real.pi) ≤ a1 ∧ (k = 0 ∨ a1 < a2 - (k - 1 : ℝ) * (2 * Real.pi)) ∧
      a2 - k * (2 * Real.pi) ≤ t ∧ t ≤ a1
    else a1 ≤ a2 + k * (2 * Real.pi) ∧ (k = 0 ∨ a2 + (k - 1 : ℝ) * (2 * Real.pi) < a1) ∧
      a1 ≤ t ∧ t ≤ a2 + k * (2 * Real.pi)}

/-- The points of an arc (render/cairo_backend.py:254-258). -/
noncomputable def arcPath (c : RPt) (r a1 a2 : ℝ) (negative : Bool) : Set RPt :=
  {q | ∃ t ∈ angles a1 a2 negative, q = onCircle c r t}

/-! ## The frame of a picture -/

/-- `scale_point` (render/cairo_backend.py:615-616). -/
def scalePoint (s : ℝ) (p : RPt) : RPt := (p.1 * s, p.2 * s)

/-- Scale, `origin_in_inch` and `size_in_inch` of a context whose bounds are set (render/cairo_backend.py:39-52). -/
structure Frame where
  scale : ℝ
  origin : RPt
  size : RPt

/-- `cairo.Matrix` with `xy = yx = 0` (render/cairo_backend.py:71-73). -/
structure Matrix where
  xx : ℝ
  yy : ℝ
  x0 : ℝ
  y0 : ℝ

/-- (render/cairo_backend.py:71-73) -/
def Matrix.apply (m : Matrix) (p : RPt) : RPt := (m.xx * p.1 + m.x0, m.yy * p.2 + m.y0)

/-- `set_bounds` on a new context (render/cairo_backend.py:64-70). -/
noncomputable def Frame.of (scale : ℝ) (bounds : Box) : Frame where
  scale := scale
  origin := (bounds.1.1, bounds.2.1)
  size := (|bounds.1.2 - bounds.1.1|, |bounds.2.2 - bounds.2.1|)

/-- `origin_in_pixels` (render/cairo_backend.py:54-57). -/
def Frame.originPx (f : Frame) : RPt := scalePoint f.scale f.origin

/-- `size_in_pixels` (render/cairo_backend.py:59-62): the size of the surfaces. -/
def Frame.sizePx (f : Frame) : RPt := scalePoint f.scale f.size

/-- The matrix of a layer: `_xform_matrix` (render/cairo_backend.py:71-73), changed for mirrored layers (543-545). -/
def Frame.matrix (f : Frame) (mirror : Bool) : Matrix :=
  if mirror then ⟨-1, -1, f.originPx.1 + f.sizePx.1, f.sizePx.2⟩
  else ⟨1, -1, -f.originPx.1, f.sizePx.2⟩

/-- From the coordinates of a mask (which is translated, 183) to those of the context of the layer, where it is
placed at `(origin_in_pixels[0], 0)` (`mask_surface` without `y`, e.g. 227) (render/cairo_backend.py:183, 227). -/
def Frame.placeMask (f : Frame) (p : RPt) : RPt :=
  let onMask : RPt := (p.1 - f.originPx.1, p.2 - f.originPx.2)
  (onMask.1 + f.originPx.1, onMask.2 + 0)

/-! ## Masks -/

/-- `mask.ctx.move_to(*points[-1])`, `line_to` every point, `fill()` (render/cairo_backend.py:221-226). -/
def Engine.polygon (K : Engine) (points : List RPt) : Set RPt :=
  match points.getLast? with
  | none => ∅
  | some p => K.fill p (points.map .line)

/-- The rectangular hole of an aperture (render/cairo_backend.py:326-340; the same code for rectangles 374-383, obrounds 422-435 and
polygons 475-488). -/
noncomputable def Engine.holeArea (K : Engine) (s : ℝ) (pos : RPt) (rot : ℝ) (hole : Hole) : Set RPt :=
  let c := scalePoint s pos
  let w := hole.width * s
  let h := hole.height * s
  K.polygon [rotatePoint (c.1 - w / 2, c.2 - h / 2) rot c, rotatePoint (c.1 + w / 2, c.2 - h / 2) rot c,
    rotatePoint (c.1 + w / 2, c.2 + h / 2) rot c, rotatePoint (c.1 - w / 2, c.2 + h / 2) rot c]

open Classical in
/-- Holes: the round one is made with CLEAR or OVER, then the rectangular one (render/cairo_backend.py:302-341). -/
noncomputable def Engine.holes (K : Engine) (s : ℝ) (pos : RPt) (rot : ℝ) (hole : Hole) (clearRound clearRect : Bool)
    (area : Set RPt) : Set RPt :=
  let round := discAt (scalePoint s pos) (hole.diameter / 2 * s)
  let area := if 0 < hole.diameter then (if clearRound then area \ round else area ∪ round) else area
  let rect := K.holeArea s pos rot hole
  if 0 < hole.width ∧ 0 < hole.height then (if clearRect then area \ rect else area ∪ rect) else area

/-- The pieces of the path of a region (285-298), with the angles of `Arc.start_angle` and `Arc.end_angle`
(primitives.py:385-395), which are not reduced here. -/
noncomputable def Part.piece (s : ℝ) : Part → Piece
  | .line _ e => .line (scalePoint s e)
  | .arc a e c d _ => .arc (scalePoint s c) (s * arcRadius a c) (atan2 (a.2 - c.2) (a.1 - c.1))
    (atan2 (e.2 - c.2) (e.1 - c.1)) (d ≠ "counterclockwise")

/-- `primitives[0].start` (render/cairo_backend.py:284). -/
def Part.start : Part → RPt
  | .line s _ => s
  | .arc s .. => s

open Classical in
/-- The width of the stroke of an arc (render/cairo_backend.py:240-243): apertures without width raise `AttributeError`. -/
noncomputable def arcWidth : Aperture → PyR ℝ
  | .circle d => .ok (if d = 0 then 1 / 1000 else d)
  | .rectangle w h _ | .obround w h => .ok (max (max w h) (1 / 1000))
  | .polygon .. => .error .attributeError

/-- What `Line.vertices` distinguishes (primitives.py:272-297). -/
def Aperture.pen : Aperture → Pen
  | .rectangle w h rot => .rectangle w h rot
  | .polygon n r rot => .polygon n r rot
  | _ => .other

open Classical in
/-- The area of a primitive on its mask, in scaled coordinates: `_render_line` (render/cairo_backend.py:202-227),
`_render_arc` (229-274), `_render_region` (276-300), `_render_circle` (302-341), `_render_rectangle` (343-384),
`_render_obround` (386-437), `_render_polygon` (439-490), `_render_drill` (492-494), `_render_slot` (496-512). -/
noncomputable def Engine.mask (K : Engine) (s : ℝ) (dark invert : Bool) : Shape → PyR (Set RPt)
  | .line a e (.circle d) => .ok (strokeOf (straight (scalePoint s a) (scalePoint s e)) (d * s))
  | .line a e ap => do
    match ← lineVertices a e ap.pen with
    | none => .ok ∅
    | some [] => .error .indexError
    | some vs => .ok (K.polygon (vs.map (scalePoint s)))
  | .arc a e c d mode ap => do
    let a1 := theta a c
    let a2 := if theta a c = theta e c ∧ mode ≠ "single-quadrant" then theta e c - 1 / 1000000000 else theta e c
    let w ← arcWidth ap
    match ap with
    | .circle _ => .ok (strokeOf (arcPath (scalePoint s c) (s * arcRadius a c) a1 a2 (d ≠ "counterclockwise")) (w * s))
    | _ => .ok (K.squareArc (scalePoint s c) (s * arcRadius a c) a1 a2 (d ≠ "counterclockwise") (w * s))
  | .region [] => .error .indexError
  | .region (p :: ps) => .ok (K.fill (scalePoint s p.start) ((p :: ps).map (Part.piece s)))
  | .circle pos d rot hole =>
    .ok (K.holes s pos rot hole true (dark && !invert) (discAt (scalePoint s pos) (d / 2 * s)))
  | .rectangle pos w h rot hole =>
    .ok (K.holes s pos rot hole (dark && !invert) (dark && !invert)
      (rectAt ((pos.1 - axisAlignedWidth rot w h / 2) * s) ((pos.2 - axisAlignedHeight rot w h / 2) * s)
        |w * s| |h * s|))
  | .obround pos w h rot hole =>
    let area :=
      if h > w then
        discAt (scalePoint s (pos.1, pos.2 + (h - w) / 2)) (w / 2 * s) ∪
        discAt (scalePoint s (pos.1, pos.2 - (h - w) / 2)) (w / 2 * s) ∪
        rectAt ((pos.1 - w / 2) * s) ((pos.2 - (h - w) / 2) * s) |w * s| |(h - w) * s|
      else
        discAt (scalePoint s (pos.1 - (h - w) / 2, pos.2)) (h / 2 * s) ∪
        discAt (scalePoint s (pos.1 + (h - w) / 2, pos.2)) (h / 2 * s) ∪
        rectAt ((pos.1 - (w - h) / 2) * s) ((pos.2 - h / 2) * s) |(w - h) * s| |h * s|
    .ok (K.holes s pos rot hole true (!invert) area)
  | .polygon pos n r rot hole => do
    let vs ← polygonVertices pos n r rot
    .ok (K.holes s pos rot hole (dark && !invert) (dark && !invert) (K.polygon (vs.map (scalePoint s))))
  | .drill pos d => .ok (discAt (scalePoint s pos) (d / 2 * s))
  | .slot a e d => .ok (strokeOf (straight (scalePoint s a) (scalePoint s e)) (d * s))

/-! ## Clipping -/

/-- `bounding_box_no_aperture` of a part (primitives.py:263-269, 464-513). -/
noncomputable def Part.box : Part → Box
  | .line s e => segBox s e
  | .arc s e c d mode => arcBox d mode s e c

/-- `bounding_box` of a primitive (see `Obj.ownBox`).  The lines of outlines have an aperture of diameter 0
(primitives.py:106-115). -/
noncomputable def Shape.box : Shape → PyR Box
  | .line s e (.circle d) => .ok ((segBox s e).grow (d / 2, d / 2))
  | .line s e (.rectangle w h _) | .line s e (.obround w h) => .ok ((segBox s e).grow (w / 2, h / 2))
  | .line _ _ (.polygon ..) => .error .attributeError
  | .arc s e c d mode (.circle di) => .ok ((arcBox d mode s e c).grow (di / 2, di / 2))
  | .arc s e c d mode (.rectangle w h _) | .arc s e c d mode (.obround w h) => .ok ((arcBox d mode s e c).grow (w, h))
  | .arc s e c d mode (.polygon _ r _) => .ok ((arcBox d mode s e c).grow (r, r))
  | .region parts => match unionBox (parts.map Part.box) with
    | none => .error .valueError
    | some b => .ok b
  | .circle pos d _ _ | .drill pos d => .ok (around pos (d / 2) (d / 2))
  | .rectangle pos w h rot _ | .obround pos w h rot _ =>
    .ok (around pos (axisAlignedWidth rot w h / 2) (axisAlignedHeight rot w h / 2))
  | .polygon pos _ r _ _ => .ok (around pos r r)
  | .slot s e d => .ok ((segBox s e).grow (d / 2, d / 2))

/-- The rectangle drawing is clipped to, in the coordinates of the context of the layer (render/cairo_backend.py:568-613). -/
noncomputable def Frame.clip (f : Frame) (b : Box) : Set RPt :=
  let xmin := ⌊f.scale * b.1.1⌋
  let xmax := ⌈f.scale * b.1.2⌉
  let ymin := ⌊f.scale * b.2.1 - ⌈f.originPx.2⌉⌋
  let ymax := ⌊f.scale * b.2.2 - ⌊f.originPx.2⌋⌋
  rectAt xmin ymin |xmax - xmin| |ymax - ymin|

/-! ## Layers -/

/-- The points of the picture covered by one primitive: its mask, placed, clipped and transformed
(render/cairo_backend.py:202-227). -/
noncomputable def Engine.covered (K : Engine) (f : Frame) (invert mirror dark : Bool) (s : Shape) :
    PyR (Set RPt) := do
  let b ← s.box
  let m ← K.mask f.scale dark invert s
  .ok ((f.matrix mirror).apply '' ((f.placeMask '' m) ∩ f.clip b))

/-- What is drawn for a primitive (`GerberContext.render`, render/render.py:138-170; `_render_amgroup` 514-516;
`_render_test_record` 518-532 without the text). -/
noncomputable def Frame.shapes (f : Frame) : Prim → List (Bool × Shape)
  | .shape dark s => [(dark, s)]
  | .group parts => parts
  | .testRecord pos => [(true, .circle (pos.1 + f.origin.1, pos.2 + f.origin.2) (15 / 1000) 0 {})]
  | .undrawn => []

/-- Painting one primitive on the layer: OVER for dark ones of layers that are not inverted, CLEAR otherwise
(render/cairo_backend.py:205-208). -/
noncomputable def Engine.draw (K : Engine) (f : Frame) (invert mirror : Bool) (P : Set RPt) (x : Bool × Shape) :
    PyR (Set RPt) := do
  let D ← K.covered f invert mirror x.1 x.2
  .ok (if !invert && x.1 then P ∪ D else P \ D)

/-- `_render_layer` (render/cairo_backend.py:193-200) up to flattening: the painted points of the layer.
Inverted layers begin painted (539-542). -/
noncomputable def Engine.layer (K : Engine) (f : Frame) (invert mirror : Bool) (prims : List Prim) : PyR (Set RPt) :=
  (prims.flatMap f.shapes).foldlM (K.draw f invert mirror) (if invert then Set.univ else ∅)

/-! ## Pictures -/

/-- What is painted on the picture (render/cairo_backend.py:551-566). -/
inductive Paint
  | background (color : List ℚ) (alpha : ℚ)
  | layer (color : List ℚ) (alpha : ℚ) (area : Set RPt)

/-- The state of a `GerberCairoContext`: the scale, the frame once the bounds are set (`origin_in_inch`,
`size_in_inch` and `_xform_matrix` are set together), what has been painted, `has_bg` and `_render_count`
(render/cairo_backend.py:39-52). -/
structure Ctx where
  scale : ℝ := 300
  frame : Option Frame := none
  paints : List Paint := []
  hasBg : Bool := false
  count : ℕ := 0

/-- A layer as the renderer sees it (layers.py:223-236). -/
structure Layer where
  cls : String
  bounds : Option Box
  prims : List Prim

/-- `clear` (render/cairo_backend.py:166-174). -/
def Ctx.clear (c : Ctx) : Ctx := { c with frame := none, paints := [], hasBg := false, count := 0 }

/-- `set_bounds` (render/cairo_backend.py:64-77): the first bounds stay. -/
noncomputable def Ctx.setBounds (c : Ctx) (b : Box) : Ctx :=
  { c with frame := some (c.frame.getD (Frame.of c.scale b)) }

/-- `paint_background` (render/cairo_backend.py:560-566). -/
def Ctx.paintBackground (c : Ctx) (s : Settings) : Ctx :=
  if c.hasBg then c else { c with hasBg := true, paints := c.paints ++ [.background s.color s.alpha] }

/-- `_render_layer` (render/cairo_backend.py:193-200) with `flatten` (551-558). -/
noncomputable def Ctx.paintLayer (K : Engine) (c : Ctx) (l : Layer) (s : Settings) : PyR Ctx :=
  match c.frame with
  | none => .error .typeError
  | some f => do
    let area ← K.layer f s.invert s.mirror l.prims
    .ok { c with paints := c.paints ++ [.layer s.color s.alpha area] }

/-- `render_layer` (render/cairo_backend.py:79-100) with settings given; `bounds` is not `None` if the caller wants other
bounds than those of the layer.  Without bounds at all `set_bounds(None)` raises. -/
noncomputable def Ctx.renderLayer (K : Engine) (c : Ctx) (l : Layer) (s bg : Settings) (bounds : Option Box := none) :
    PyR Ctx := do
  let c ← if c.count = 0 then
      match bounds.or l.bounds with
      | none => .error .typeError
      | some b => .ok ((c.clear.setBounds b).paintBackground bg)
    else .ok c
  ({ c with count := c.count + 1 }).paintLayer K l s

/-- The ranges computed by `render_layers` (render/cairo_backend.py:107-116). -/
noncomputable def ranges (layers : List Layer) : Box :=
  layers.foldl (fun r l => match l.bounds with
    | none => r
    | some b => ((min r.1.1 b.1.1, max r.1.2 b.1.2), (min r.2.1 b.2.1, max r.2.2 b.2.2)))
    ((10000, -10000), (10000, -10000))

/-- The scale of `render_layers` (render/cairo_backend.py:117-121). -/
noncomputable def fitScale (b : Box) (maxWidth maxHeight : ℝ) : PyR ℝ :=
  open Classical in
  if b.1.2 - b.1.1 = 0 ∨ b.2.2 - b.2.1 = 0 then .error .zeroDivisionError
  else .ok ⌊min (maxWidth / (b.1.2 - b.1.1)) (maxHeight / (b.2.2 - b.2.1))⌋

/-- The loop of `render_layers` (render/cairo_backend.py:127-130). -/
noncomputable def Ctx.renderAll (K : Engine) (bg : Settings) : Ctx → FullTheme → List Layer → PyR (Ctx × FullTheme)
  | c, t, [] => .ok (c, t)
  | c, t, l :: ls =>
    match t.get l.cls with
    | (_, .error e) => .error e
    | (t, .ok s) => do
      let c ← c.renderLayer K l s bg
      c.renderAll K bg t ls

/-- `render_layers` (render/cairo_backend.py:102-131) without writing the file. -/
noncomputable def Ctx.renderLayers (K : Engine) (c : Ctx) (layers : List Layer) (t : FullTheme)
    (maxWidth maxHeight : ℝ) : PyR (Ctx × FullTheme) := do
  let scale ← fitScale (ranges layers) maxWidth maxHeight
  ({ c with scale := scale } : Ctx).clear.renderAll K t.background t layers

end Verif.Cairo
