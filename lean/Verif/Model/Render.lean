import Verif.Py.Basic

/-!
# Settings of a render context and themes (`gerber/render/render.py:34-136`, `240-246`,
`gerber/render/theme.py`)

The values assigned here are any Python values, so numbers include the special floats: the
comparisons that guard the assignments behave differently for them.
-/

namespace Verif.Render

open Verif.Py

/-- A component value: a number, a special float, or an object that cannot be compared with
numbers (render/render.py:86-92). -/
inductive Val
  | num (q : ℚ)
  | nan | posInf | negInf
  /-- comparison with a number raises `TypeError` -/
  | other
  deriving DecidableEq, Repr

/-- `v < 0 or v > 1` (render/render.py:88-90). -/
def Val.outside : Val → PyR Bool
  | .num q => .ok (q < 0 || 1 < q)
  | .nan => .ok false
  | .posInf => .ok true
  | .negInf => .ok true
  | .other => .error .typeError

/-- A value assigned as a colour: an immutable sequence of components, or an object without length
(render/render.py:86-92). -/
inductive Colour
  | seq (l : List Val)
  | noLen
  deriving DecidableEq, Repr

/-- `GerberContext` attributes (render.py:62-69). -/
structure Ctx where
  units : String
  color : Colour
  backgroundColor : Colour
  drillColor : Colour
  alpha : Val
  invert : Bool
  deriving DecidableEq, Repr

/-- `GerberContext(units)` (render.py:62-69). -/
def Ctx.init (units : String := "inch") : Ctx where
  units := units
  color := .seq [.num (7215 / 10000), .num (451 / 1000), .num (200 / 1000)]
  backgroundColor := .seq [.num 0, .num 0, .num 0]
  drillColor := .seq [.num 0, .num 0, .num 0]
  alpha := .num 1
  invert := false

/-- The loop `for c in color: if c < 0 or c > 1: raise ValueError` (render.py:89-91). -/
def checkComps : List Val → PyR Unit
  | [] => .ok ()
  | v :: l => do
    if ← v.outside then .error .valueError else checkComps l

/-- The checks of the colour setters (render.py:87-91, 100-104, 113-117). -/
def checkColour : Colour → PyR Unit
  | .noLen => .error .typeError
  | .seq l => if l.length ≠ 3 then .error .typeError else checkComps l

/-- An assignment to a property of a context (render/render.py:75-136). -/
inductive Assign
  | units (u : String)
  | color (c : Colour)
  | drillColor (c : Colour)
  | backgroundColor (c : Colour)
  | alpha (v : Val)
  | invert (b : Bool)
  deriving DecidableEq, Repr

/-- The setters (render.py:75-136): the context afterwards and whether an exception was raised. -/
def Ctx.assign (x : Ctx) : Assign → Ctx × PyR Unit
  | .units u =>
    if u ∈ ["inch", "metric"] then ({ x with units := u }, .ok ())
    else (x, .error .valueError)
  | .color c => match checkColour c with
    | .ok _ => ({ x with color := c }, .ok ())
    | .error e => (x, .error e)
  | .drillColor c => match checkColour c with
    | .ok _ => ({ x with drillColor := c }, .ok ())
    | .error e => (x, .error e)
  | .backgroundColor c => match checkColour c with
    | .ok _ => ({ x with backgroundColor := c }, .ok ())
    | .error e => (x, .error e)
  | .alpha v => match v.outside with
    | .ok true => (x, .error .valueError)
    | .ok false => ({ x with alpha := v }, .ok ())
    | .error e => (x, .error e)
  | .invert b => ({ x with invert := b }, .ok ())

/-- A history of assignments, each possibly failing (render/render.py:75-136). -/
def Ctx.run (x : Ctx) (as : List Assign) : Ctx := as.foldl (fun x a => (x.assign a).1) x

/-! ## Themes -/

/-- `RenderSettings` (render.py:240-246). -/
structure Settings where
  color : List ℚ
  alpha : ℚ := 1
  invert : Bool := false
  mirror : Bool := false
  deriving DecidableEq, Repr

/-- `SPECTRUM` (theme.py:39-48). -/
def spectrum : List (List ℚ) := [
  [804 / 1000, 216 / 1000, 0], [78 / 100, 776 / 1000, 251 / 1000],
  [545 / 1000, 451 / 1000, 333 / 1000], [545 / 1000, 137 / 1000, 137 / 1000],
  [329 / 1000, 545 / 1000, 329 / 1000], [133 / 1000, 545 / 1000, 133 / 1000],
  [0, 525 / 1000, 545 / 1000], [227 / 1000, 373 / 1000, 804 / 1000]]

/-- The part of a `Theme` that changes (theme.py:64-65): the settings for internal layers and the
generator over them (what it has still to yield). -/
structure Theme where
  internal : List Settings
  gen : Option (List Settings) := none
  deriving DecidableEq, Repr

/-- `Theme(internal=…)` (theme.py:53-65). -/
def Theme.init (internal : Option (List Settings) := none) : Theme where
  internal := internal.getD (spectrum.map fun c => { color := c })

/-- The property `internal` (theme.py:70-78): `next` of the generator, which is made at the first
request; an exhausted generator raises `StopIteration`. -/
def Theme.request (t : Theme) : Theme × PyR Settings :=
  match t.gen.getD t.internal with
  | [] => ({ t with gen := some [] }, .error .stopIteration)
  | s :: l => ({ t with gen := some l }, .ok s)

/-- The theme after `n` requests (render/theme.py:70-78). -/
def Theme.after (t : Theme) : ℕ → Theme
  | 0 => t
  | n + 1 => (t.after n).request.1

end Verif.Render
