import Verif.Model.Vertices

/-! # Stored corners, and histories of primitives (gerber/primitives.py)

`_vertices` and `_segments` are filled when `vertices` and `segments` are read and forgotten by `_changed()`.  A missing
attribute (`None`) that is used in arithmetic raises `TypeError`. -/

namespace Verif.Geom

open Verif.Py

/-- `Line.vertices` with an aperture (primitives.py:271-297): only rectangles and polygons count; the corners of a polygon
are computed first, and need its position. -/
noncomputable def lineCorners (s e : Option RPt) (ap : Option Obj) : PyR (Option (List RPt)) :=
  match ap with
  | none => .ok none
  | some a =>
    match a.kind with
    | .rectangle =>
      match s, e, a.nums .width, a.nums .height with
      | some s, some e, some w, some h => lineVertices s e (.rectangle w h a.rotation)
      | _, _, _, _ => .error .typeError
    | .polygon =>
      if a.sides = 0 then .error .zeroDivisionError
      else
        match s, e, a.pts .position, a.nums .radius with
        | some s, some e, some _, some r => lineVertices s e (.polygon a.sides r a.rotation)
        | _, _, _, _ => .error .typeError
    | _ => .ok none

/-- The corners computed from the attributes; `ap` is the aperture.  `Outline.vertices` (primitives.py:1392-1402) uses the
attributes `sides`, `position` and `radius`, which outlines do not have. -/
noncomputable def Obj.ownVertices (o : Obj) (ap : Option Obj) : PyR (Option (List RPt)) :=
  match o.kind with
  | .rectangle =>
    match o.pts .position, o.nums .width, o.nums .height with
    | some p, some w, some h => .ok (some (rectVertices p w h o.rotation))
    | _, _, _ => .error .typeError
  | .diamond =>
    match o.pts .position, o.nums .width, o.nums .height with
    | some p, some w, some h => .ok (some (diamondVertices p w h o.rotation))
    | _, _, _ => .error .typeError
  | .chamferRectangle =>
    match o.pts .position, o.nums .width, o.nums .height, o.nums .chamfer with
    | some p, some w, some h, some c => .ok (some (chamferVertices p w h c o.corners o.rotation))
    | _, _, _, _ => .error .typeError
  | .polygon =>
    if o.sides = 0 then .error .zeroDivisionError
    else
      match o.pts .position, o.nums .radius with
      | some p, some r => (polygonVertices p o.sides r o.rotation).map some
      | _, _ => .error .typeError
  | .line => lineCorners (o.pts .start) (o.pts .stop) ap
  | .outline => .error .attributeError
  | _ => .ok none

/-- Reading `vertices`: the value and the heap with what is stored.  Those of polygons are not stored
(primitives.py:1229-1239); the base class has none (93-95). -/
noncomputable def readVertices (h : Heap) (i : ℕ) : PyR (Option (List RPt)) × Heap :=
  match (h i).kind with
  | .polygon => ((h i).ownVertices ((h i).aperture.map h), h)
  | .rectangle | .diamond | .chamferRectangle | .line | .outline =>
    match (h i).vertices with
    | some vs => (.ok (some vs), h)
    | none =>
      match (h i).ownVertices ((h i).aperture.map h) with
      | .error x => (.error x, h)
      | .ok r => (.ok r, Function.update h i { h i with vertices := r })
  | _ => (.ok none, h)

/-- Reading `segments` (primitives.py:97-103): the corners are read, and if there are some, all pairs of them stored. -/
noncomputable def readSegments (h : Heap) (i : ℕ) : PyR (Option (List (RPt × RPt))) × Heap :=
  match (h i).segs with
  | some l => (.ok (some l), h)
  | none =>
    match readVertices h i with
    | (.error x, h') => (.error x, h')
    | (.ok vs, h') =>
      match segments vs with
      | none => (.ok none, h')
      | some l => (.ok (some l), Function.update h' i { h' i with segs := some l })

/-- The `corners` setters of chamfered (primitives.py:920-923) and round (1040-1043) rectangles; for other classes a new attribute. -/
def Obj.setCorners (o : Obj) (l : List Bool) : Obj :=
  if o.kind = .chamferRectangle ∨ o.kind = .roundRectangle then { o.changed with corners := l } else { o with corners := l }

/-! ## Histories -/

/-- Something a program does with a primitive (primitives.py:74-1697). -/
inductive Act
  | setPt (i : ℕ) (a : PA) (v : RPt)
  | setNum (i : ℕ) (a : NA) (v : ℝ)
  | setRotation (i : ℕ) (v : ℝ)
  | setUnits (i : ℕ) (u : Option String)
  | setDirection (i : ℕ) (d : String)
  | setQuadrantMode (i : ℕ) (q : String)
  | setAperture (i : ℕ) (a : Option ℕ)
  | setParts (i : ℕ) (l : List ℕ)
  | offset (i : ℕ) (dx dy : ℝ)
  | toInch (i : ℕ)
  | toMetric (i : ℕ)
  | setSides (i : ℕ) (n : ℕ)
  | setCorners (i : ℕ) (l : List Bool)
  | readBox (i : ℕ)
  | readVertices (i : ℕ)
  | readSegments (i : ℕ)

/-- What it does to the heap (primitives.py:74-1697). -/
noncomputable def Act.run (n : ℕ) (h : Heap) : Act → Heap
  | .setPt i a v =>
    if (h i).kind = .amGroup ∧ a = .position then setGroupPosition v n h i
    else Function.update h i ((h i).setPt a (some v))
  | .setNum i a v => Function.update h i ((h i).setNum a (some v))
  | .setRotation i v => Function.update h i ((h i).setRotation v)
  | .setUnits i u => Function.update h i ((h i).setUnits u)
  | .setDirection i d => Function.update h i { h i with direction := d }     -- plain attribute
  | .setQuadrantMode i q => Function.update h i { (h i).changed with quadrantMode := q }
  | .setAperture i a => Function.update h i { h i with aperture := a }       -- plain attribute
  | .setParts i l => Function.update h i { h i with parts := l }             -- plain attribute
  | .offset i dx dy => Geom.offset dx dy n h i
  | .toInch i => Geom.toInch n h i
  | .toMetric i => Geom.toMetric n h i
  | .setSides i k => Function.update h i { h i with sides := k }             -- plain attribute
  | .setCorners i l => Function.update h i ((h i).setCorners l)
  | .readBox i => (Geom.readBox n h i).2
  | .readVertices i => (Geom.readVertices h i).2
  | .readSegments i => (Geom.readSegments h i).2

/-- A history (primitives.py:74-1697). -/
noncomputable def runActs (n : ℕ) (h : Heap) (l : List Act) : Heap := l.foldl (Act.run n) h

end Verif.Geom
