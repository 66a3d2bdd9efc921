import Verif.Model.Prim

/-! # Attributes computed from others: `Line.angle`, `lower_left`, `upper_right` (gerber/primitives.py)

Unlike bounding boxes these are computed anew each time.  `None` stands for raising. -/

namespace Verif.Geom

/-- `Line.angle` (primitives.py:239-244). -/
noncomputable def Obj.lineAngle (o : Obj) : Option ℝ := do
  let e ← o.pts .stop
  let s ← o.pts .start
  some (atan2 (e.2 - s.2) (e.1 - s.1))

/-- `lower_left` of rectangles (primitives.py:730-733) and donuts (primitives.py:1551-1554). -/
noncomputable def Obj.lowerLeft (o : Obj) : Option RPt := do
  let p ← o.pts .position
  let w ← o.nums .width
  let h ← o.nums .height
  match o.kind with
  | .rectangle => some (p.1 - axisAlignedWidth o.rotation w h / 2, p.2 - axisAlignedHeight o.rotation w h / 2)
  | .donut => some (p.1 - w / 2, p.2 - h / 2)
  | _ => none

/-- `upper_right` of rectangles (primitives.py:725-728) and donuts (primitives.py:1556-1559). -/
noncomputable def Obj.upperRight (o : Obj) : Option RPt := do
  let p ← o.pts .position
  let w ← o.nums .width
  let h ← o.nums .height
  match o.kind with
  | .rectangle => some (p.1 + axisAlignedWidth o.rotation w h / 2, p.2 + axisAlignedHeight o.rotation w h / 2)
  | .donut => some (p.1 + w / 2, p.2 + h / 2)
  | _ => none

end Verif.Geom
