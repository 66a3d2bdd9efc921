import Verif.Model.Render

/-! # Themes (gerber/render/theme.py)

Keys are restricted to `background` and the classes of layers; other names of attributes (`name`, `get`, ...)
are not looked up by the renderer. -/

namespace Verif.Render

open Verif.Py

/-- `COLORS` (theme.py:21-36). -/
def colors : List (String × List ℚ) := [
  ("black", [0, 0, 0]), ("white", [1, 1, 1]), ("red", [1, 0, 0]), ("green", [0, 1, 0]), ("yellow", [1, 1, 0]),
  ("blue", [0, 0, 1]), ("fr-4", [290 / 1000, 345 / 1000, 0]), ("green soldermask", [0, 412 / 1000, 278 / 1000]),
  ("blue soldermask", [59 / 1000, 478 / 1000, 651 / 1000]),
  ("red soldermask", [968 / 1000, 169 / 1000, 165 / 1000]),
  ("black soldermask", [298 / 1000, 275 / 1000, 282 / 1000]), ("purple soldermask", [2 / 10, 0, 334 / 1000]),
  ("enig copper", [694 / 1000, 533 / 1000, 514 / 1000]), ("hasl copper", [871 / 1000, 851 / 1000, 839 / 1000])]

/-- `COLORS[name]`, for names that are there (render/theme.py:55-63). -/
def colorOf (name : String) : List ℚ := ((colors.find? (·.1 = name)).map (·.2)).getD []

/-- `RenderSettings()` (render/render.py:240-246). -/
def defaultSettings : Settings := { color := [0, 0, 0] }

/-- A `Theme` with all its settings (theme.py:51-65); the defaults are those of `Theme.__init__`. -/
structure FullTheme where
  name : String := "Default"
  background : Settings := { color := colorOf "fr-4" }
  topsilk : Settings := { color := colorOf "white" }
  bottomsilk : Settings := { color := colorOf "white", mirror := true }
  topmask : Settings := { color := colorOf "green soldermask", alpha := 85 / 100, invert := true }
  bottommask : Settings := { color := colorOf "green soldermask", alpha := 85 / 100, invert := true, mirror := true }
  top : Settings := { color := colorOf "hasl copper" }
  bottom : Settings := { color := colorOf "hasl copper", mirror := true }
  drill : Settings := { color := colorOf "black" }
  ipcNetlist : Settings := { color := colorOf "red" }
  inner : Theme := Theme.init
  deriving DecidableEq, Repr

/-- `theme.get(key, RenderSettings())` (theme.py:80-82): internal layers take the next of the generator, whose
`StopIteration` is not caught by `getattr`. -/
def FullTheme.get (t : FullTheme) (key : String) : FullTheme × PyR Settings :=
  if key = "background" then (t, .ok t.background)
  else if key = "topsilk" then (t, .ok t.topsilk)
  else if key = "bottomsilk" then (t, .ok t.bottomsilk)
  else if key = "topmask" then (t, .ok t.topmask)
  else if key = "bottommask" then (t, .ok t.bottommask)
  else if key = "top" then (t, .ok t.top)
  else if key = "bottom" then (t, .ok t.bottom)
  else if key = "drill" then (t, .ok t.drill)
  else if key = "ipc_netlist" then (t, .ok t.ipcNetlist)
  else if key = "internal" then ({ t with inner := t.inner.request.1 }, t.inner.request.2)
  else (t, .ok defaultSettings)

/-- `THEMES` (theme.py:85-112). -/
def themes : List (String × FullTheme) := [
  ("default", {}),
  ("OSH Park", {
    name := "OSH Park", background := { color := colorOf "purple soldermask" },
    top := { color := colorOf "enig copper" },
    bottom := { color := colorOf "enig copper", mirror := true },
    topmask := { color := colorOf "purple soldermask", alpha := 85 / 100, invert := true },
    bottommask := { color := colorOf "purple soldermask", alpha := 85 / 100, invert := true, mirror := true },
    topsilk := { color := colorOf "white", alpha := 8 / 10 },
    bottomsilk := { color := colorOf "white", alpha := 8 / 10, mirror := true } }),
  ("Blue", {
    name := "Blue",
    topmask := { color := colorOf "blue soldermask", alpha := 8 / 10, invert := true },
    bottommask := { color := colorOf "blue soldermask", alpha := 8 / 10, invert := true } }),
  ("Transparent Copper", {
    name := "Transparent", background := { color := [9 / 10, 9 / 10, 9 / 10] },
    top := { color := colorOf "red", alpha := 5 / 10 }, bottom := { color := colorOf "blue", alpha := 5 / 10 },
    drill := { color := [3 / 10, 3 / 10, 3 / 10] } }),
  ("Transparent Multilayer", {
    name := "Transparent Multilayer", background := { color := [0, 0, 0] },
    top := { color := spectrum.headD [], alpha := 8 / 10 },
    bottom := { color := spectrum.getLastD [], alpha := 8 / 10 },
    drill := { color := [3 / 10, 3 / 10, 3 / 10] },
    inner := Theme.init (some ((spectrum.drop 1).dropLast.map fun c => { color := c, alpha := 5 / 10 })) })]

/-- The settings the renderer takes for a list of layer classes, one after the other
(render/cairo_backend.py:127-128). -/
def FullTheme.settings (t : FullTheme) : List String → FullTheme × PyR (List Settings)
  | [] => (t, .ok [])
  | c :: l =>
    match t.get c with
    | (t, .error e) => (t, .error e)
    | (t, .ok s) =>
      match t.settings l with
      | (t, .error e) => (t, .error e)
      | (t, .ok ss) => (t, .ok (s :: ss))

end Verif.Render
