import Verif.Model.GerberEval

/-! # What a sequence of Gerber statements draws (for C14, C15, C16, C18)

Written without interpreter state: everything is looked up in the statements that came before.  A
history `h` lists these statements, the latest first. -/

namespace Verif.Gerber
open Verif.Py Verif.Cam

/-- The three operations. -/
inductive Action
  | draw | move | flash
  deriving DecidableEq

/-- Operation named by a code. -/
def actionOf (o : Str) : Option Action :=
  if o ∈ [['D', '0', '1'], ['D', '1']] then some .draw
  else if o ∈ [['D', '0', '2'], ['D', '2']] then some .move
  else if o ∈ [['D', '0', '3'], ['D', '3']] then some .flash
  else none

/-- A coordinate statement with nothing but an interpolation code. -/
def Coord.Bare (c : Coord) : Prop := ∃ f, c = { function := some f }

instance (c : Coord) : Decidable c.Bare :=
  if h : ∃ f, c.function = some f ∧ c = { function := some f } then .isTrue (by
    obtain ⟨f, _, h⟩ := h; exact ⟨f, h⟩)
  else .isFalse (by rintro ⟨f, rfl⟩; exact h ⟨f, rfl, rfl⟩)

/-- X of the current point: the latest x given, 0 if none. -/
def penX : List Stmt → ℚ
  | [] => 0
  | .coord c :: h => c.x.getD (penX h)
  | _ :: h => penX h

/-- Y of the current point. -/
def penY : List Stmt → ℚ
  | [] => 0
  | .coord c :: h => c.y.getD (penY h)
  | _ :: h => penY h

/-- The current point. -/
def pen (h : List Stmt) : Pt := (penX h, penY h)

/-- The latest operation code given, `D02` if none. -/
def opOf : List Stmt → Str
  | [] => ['D', '0', '2']
  | .coord c :: h => if c.op.getD [] = [] then opOf h else c.op.getD []
  | _ :: h => opOf h

/-- The aperture number selected last, 0 if none. -/
def selected : List Stmt → ℕ
  | [] => 0
  | .aperture d _ :: _ => d
  | _ :: h => selected h

/-- The level polarity set last, dark if none. -/
def polarityOf : List Stmt → String
  | [] => "dark"
  | .lp p :: _ => p
  | _ :: h => polarityOf h

/-- The units set last, inch if none. -/
def unitsOf : List Stmt → String
  | [] => "inch"
  | .mo m :: _ => m
  | _ :: h => unitsOf h

/-- Whether region mode is on. -/
def regionOn : List Stmt → Bool
  | [] => false
  | .region m :: _ => m = "on"
  | _ :: h => regionOn h

/-- The quadrant mode set last. -/
def quadrantOf : List Stmt → String
  | [] => "multi-quadrant"
  | .quad m :: _ => m
  | _ :: h => quadrantOf h

/-- The definition of a macro in force: its text and the units at that place. -/
def macroDef : List Stmt → Str → Option (Str × String)
  | [], _ => none
  | .am n b _ :: h, k => if k = n then some (b, unitsOf h) else macroDef h k
  | _ :: h, k => macroDef h k

/-- Interpolation mode: linear, or circular. -/
structure Mode where
  linear : Bool
  clockwise : Bool
  deriving DecidableEq

/-- Mode after an interpolation code. -/
def Mode.after (m : Mode) (f : Option Str) : Mode :=
  if f ∈ [some ['G', '0', '1'], some ['G', '1']] then { m with linear := true }
  else if f ∈ [some ['G', '0', '2'], some ['G', '2']] then ⟨false, true⟩
  else if f ∈ [some ['G', '0', '3'], some ['G', '3']] then ⟨false, false⟩
  else m

/-- The action of a coordinate statement, if it has one. -/
def actionAt (h : List Stmt) (c : Coord) : Option Action :=
  if c.Bare then none else actionOf (opOf (.coord c :: h))

/-- The interpolation mode in force.  (Sic: an arc inside a region sets the mode back to linear.) -/
def modeOf : List Stmt → Mode
  | [] => ⟨true, true⟩
  | .coord c :: h =>
    if regionOn h ∧ actionAt h c = some .draw then { (modeOf h).after c.function with linear := true }
    else (modeOf h).after c.function
  | _ :: h => modeOf h

variable {G : Type}

/-- The aperture with a number: the latest definition. -/
def apertureDef (env : EvalEnv G) : List Stmt → ℕ → Option (Aperture G)
  | [], _ => none
  | .ad d s m :: h, k =>
    if k = d then
      match shapeOf env (macroDef h) s m with
      | .ok sh => some ⟨sh, some (unitsOf h)⟩
      | .error _ => none
    else apertureDef env h k
  | _ :: h, k => apertureDef env h k

/-- The current aperture. -/
def currentAperture (env : EvalEnv G) (h : List Stmt) : Option (Aperture G) :=
  apertureDef env h (selected h)

/-- The line or arc drawn by a coordinate statement with the given aperture: from the current point
to the new one. -/
def segment (env : EvalEnv G) (h : List Stmt) (c : Coord) (ap : Aperture G) : Edge G :=
  let m := (modeOf h).after c.function
  let stop := pen (.coord c :: h)
  let off := (c.i.getD 0, c.j.getD 0)
  let dir := if m.clockwise then "clockwise" else "counterclockwise"
  if m.linear then .line (pen h) stop ap (polarityOf h) (unitsOf h)
  else .arc (pen h) stop
    (if quadrantOf h = "single-quadrant" then env.center dir (pen h) stop off
      else some ((pen h).1 + off.1, (pen h).2 + off.2))
    dir ap (quadrantOf h) (polarityOf h) (unitsOf h)

/-- The segments of the contour that is being collected. -/
def contour (env : EvalEnv G) : List Stmt → List (Edge G)
  | [] => []
  | .coord c :: h =>
    if regionOn h then
      match actionAt h c with
      | some .draw => contour env h ++ [segment env h c ((currentAperture env h).getD noAperture)]
      | some .move => []
      | _ => contour env h
    else contour env h
  | .region m :: h => if regionOn h ∧ m = "off" then [] else contour env h
  | _ :: h => contour env h

/-- The primitives added by one statement. -/
def added (env : EvalEnv G) (h : List Stmt) : Stmt → List (Prim G)
  | .coord c => match actionAt h c, regionOn h with
    | some .draw, false => (currentAperture env h).toList.map fun ap => .edge (segment env h c ap)
    | some .move, true =>
      -- sic: a contour of a single segment is dropped
      if 2 ≤ (contour env h).length then [.region (contour env h) (polarityOf h) (unitsOf h)] else []
    | some .flash, _ => (currentAperture env h).toList.map fun ap =>
        .flash ap.shape (pen (.coord c :: h)) (polarityOf h) (unitsOf h)
    | _, _ => []
  | .region m =>
    if regionOn h ∧ m = "off" ∧ contour env h ≠ [] then
      [.region (contour env h) (polarityOf h) (unitsOf h)]
    else []
  | _ => []

/-- The primitives drawn by a history. -/
def picture (env : EvalEnv G) : List Stmt → List (Prim G)
  | [] => []
  | s :: h => picture env h ++ added env h s

/-- The mode statements have a mode (their constructors check it, gerber_statements.py:1136, 1164). -/
def Stmt.ModeOK : Stmt → Prop
  | .region m => m = "on" ∨ m = "off"
  | _ => True

/-- Everything a statement refers to is defined. -/
def Defined (env : EvalEnv G) (h : List Stmt) : Stmt → Prop
  | .coord c => match actionAt h c, regionOn h with
    | some .draw, false => (currentAperture env h).isSome
    | some .flash, _ => (currentAperture env h).isSome
    | _, _ => True
  | .ad _ s m => ∃ sh, shapeOf env (macroDef h) s m = .ok sh
  | _ => True

/-- Everything is defined where it is used. -/
def AllDefined (env : EvalEnv G) : List Stmt → Prop
  | [] => True
  | s :: h => AllDefined env h ∧ Defined env h s

/-- The statement with the operation code that is used to interpret it. -/
def explicit (h : List Stmt) : Stmt → Stmt
  | .coord c => if c.Bare then .coord c else .coord { c with op := some (opOf (.coord c :: h)) }
  | s => s

/-- Polarity of a primitive. -/
def Prim.polarity : Prim G → String
  | .edge (.line _ _ _ p _) => p
  | .edge (.arc _ _ _ _ _ _ p _) => p
  | .flash _ _ p _ => p
  | .region _ p _ => p

/-- Start of a segment. -/
def Edge.start : Edge G → Pt
  | .line s _ _ _ _ => s
  | .arc s _ _ _ _ _ _ _ => s

/-- End of a segment. -/
def Edge.stop : Edge G → Pt
  | .line _ e _ _ _ => e
  | .arc _ e _ _ _ _ _ _ => e

/-- Aperture of a segment. -/
def Edge.ap : Edge G → Aperture G
  | .line _ _ a _ _ => a
  | .arc _ _ _ _ a _ _ _ => a

end Verif.Gerber
