import Verif.Py.Basic
import Mathlib.Data.List.Sort

/-!
# Board layers (`gerber/layers.py:166-295`, `gerber/pcb.py`)

A layer is represented by the attributes the code looks at.  `cam_source` is replaced by the result
of its `bounds` property; `surface` and `primitives` are never read by the modelled functions.
-/

namespace Verif.Layers

open Verif.Py

/-- `((x_min, x_max), (y_min, y_max))` (layers.py:232-236). -/
abbrev Box := (ℚ × ℚ) × (ℚ × ℚ)

/-- `PCBLayer`, `DrillLayer`, `InternalLayer` (layers.py:196-295). -/
structure Layer where
  /-- `filename` -/
  filename : Str
  /-- `layer_class` -/
  cls : String
  /-- `order`; only an `InternalLayer` has this attribute -/
  order : Option ℤ := none
  /-- `layers`; only a `DrillLayer` has this attribute -/
  sides : Option (List String) := none
  /-- the value of the property `bounds` (layers.py:231-236), `none` without source -/
  bounds : Option Box := none
  deriving DecidableEq, Repr

/-- `PCBLayer(filename, layer_class, source)` (layers.py:223-229). -/
def Layer.plain (filename : Str) (cls : String) (bounds : Option Box := none) : Layer :=
  { filename, cls, bounds }

/-- `DrillLayer(filename, source, layers)` (layers.py:247-249). -/
def Layer.drill (filename : Str) (layers : Option (List String) := none)
    (bounds : Option Box := none) : Layer :=
  { filename, cls := "drill", sides := some (layers.getD ["top", "bottom"]), bounds }

/-- `InternalLayer(filename, source, order)` (layers.py:263-265). -/
def Layer.internal (filename : Str) (order : ℤ := 0) (bounds : Option Box := none) : Layer :=
  { filename, cls := "internal", order := some order, bounds }

/-- `self < other` for layers (layers.py:282-285): an `InternalLayer` raises `TypeError` when the
other has no `order`; a layer without `order` has no `__lt__`, and the reflected comparison or its
absence raises `TypeError`, too. -/
def Layer.lt (a b : Layer) : PyR Bool :=
  match a.order, b.order with
  | some x, some y => .ok (x < y)
  | _, _ => .error .typeError

/-- The comparison used for sorting once every layer has an `order` (layers.py:174-175). -/
def Layer.le (a b : Layer) : Prop := a.order.getD 0 ≤ b.order.getD 0

instance : DecidableRel Layer.le := fun _ _ => inferInstanceAs (Decidable (_ ≤ _))

/-- `list(sorted(l))` (layers.py:174).  Python's sort is stable and compares with `<` only; it
compares every element of a list of two or more at least once, hence fails with the `TypeError` of
the comparison if one has no `order`; a list of one is not compared.  Every stable sort gives the
same list: insertion sort. -/
def sortInternal (l : List Layer) : PyR (List Layer) :=
  if l.length ≤ 1 then .ok l
  else if l.all (·.order.isSome) then .ok (l.insertionSort Layer.le)
  else .error .typeError

/-- `layer_order` (layers.py:167-169). -/
def layerOrder : List String :=
  ["outline", "toppaste", "topsilk", "topmask", "top", "internal", "bottom", "bottommask",
   "bottomsilk", "bottompaste"]

/-- `append_after` (layers.py:170). -/
def appendAfter : List String := ["drill", "drawing"]

/-- The loop of layers.py:177-185: what one entry of `layer_order` appends. -/
def classLayers (layers internal : List Layer) (c : String) : List Layer :=
  if c = "internal" then internal
  else if c = "drill" then layers.filter (·.cls = "drill")
  else layers.filter (·.cls = c)

/-- `sort_layers` (layers.py:166-193). -/
def sortLayers (layers : List Layer) (fromTop : Bool := true) : PyR (List Layer) := do
  let internal ← sortInternal (layers.filter (·.cls = "internal"))
  let output := layerOrder.flatMap (classLayers layers internal)
  let output := if fromTop then output else output.reverse
  .ok (output ++ appendAfter.flatMap fun c => layers.filter (·.cls = c))

/-! ## `PCB` (pcb.py:26-124): a board is its list of layers (the name is left out) -/

/-- `PCB.__init__` (pcb.py:71-73). -/
def pcb (layers : List Layer) : PyR (List Layer) := sortLayers layers

/-- `PCB.drill_layers` (pcb.py:94-96). -/
def drillLayers (board : List Layer) : List Layer := board.filter (·.cls = "drill")

/-- `side in l.layers`: `AttributeError` if the layer has no attribute `layers` (pcb.py:82, 90). -/
def hasSide (side : String) (l : Layer) : PyR Bool :=
  match l.sides with
  | some s => .ok (side ∈ s)
  | none => .error .attributeError

/-- `[l for l in ls if side in l.layers]` (pcb.py:82, 90). -/
def filterSide (side : String) : List Layer → PyR (List Layer)
  | [] => .ok []
  | l :: ls => do
    let b ← hasSide side l
    let r ← filterSide side ls
    .ok (if b then l :: r else r)

/-- `[board_layers[0]] + drill_layers + board_layers[1:]`: `IndexError` for no board layer (pcb.py:84, 92). -/
def insertDrills (board drills : List Layer) : PyR (List Layer) :=
  match board with
  | [] => .error .indexError
  | b :: bs => .ok ([b] ++ drills ++ bs)

/-- `PCB.top_layers` (pcb.py:78-84). -/
def topLayers (board : List Layer) : PyR (List Layer) := do
  let bl := board.reverse.filter (·.cls ∈ ["topsilk", "topmask", "top"])
  let dl ← filterSide "top" (drillLayers board)
  insertDrills bl dl

/-- `PCB.bottom_layers` (pcb.py:86-92). -/
def bottomLayers (board : List Layer) : PyR (List Layer) := do
  let bl := board.filter (·.cls ∈ ["bottomsilk", "bottommask", "bottom"])
  let dl ← filterSide "bottom" (drillLayers board)
  insertDrills bl dl

/-- `PCB.copper_layers` (pcb.py:98-102). -/
def copperLayers (board : List Layer) : List Layer :=
  (board.filter (·.cls ∈ ["top", "bottom", "internal"])).reverse

/-- `PCB.layer_count` (pcb.py:110-115). -/
def layerCount (board : List Layer) : ℕ :=
  (board.filter (·.cls ∈ ["top", "bottom", "internal"])).length

/-- `PCB.outline_layer` (pcb.py:104-108). -/
def outlineLayer (board : List Layer) : Option Layer := board.find? (·.cls = "outline")

/-- `PCB.board_bounds` (pcb.py:117-124): the bounds of the first outline layer, else of the first
top layer, else `None`. -/
def boardBounds (board : List Layer) : Option Box :=
  match board.find? (·.cls = "outline") with
  | some l => l.bounds
  | none => match board.find? (·.cls = "top") with
    | some l => l.bounds
    | none => none

end Verif.Layers
