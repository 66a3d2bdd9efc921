import Verif.Model.Cairo
import Verif.Model.Layers

/-!
# The command line program (`main`, gerber/__main__.py)

Options are parsed already.  The only backend is `cairo` (render/__init__.py:29-31).  Writing a picture to a file
succeeds.
-/

namespace Verif.Cli

open Verif.Py Verif.Cairo Verif.Render

/-- The options (`__main__.py:37-54`).  `--outfile` without a name gives `None`; the parser admits names of themes
only. -/
structure Args where
  outfile : Option Str := some "out".toList
  theme : String := "default"
  width : ℤ := 1920
  height : ℤ := 1080

/-- `THEMES`: themes change when internal layers are drawn (render/theme.py:85-112). -/
abbrev Store := String → FullTheme

/-- The themes at the start (theme.py:85-112). -/
def Store.start : Store := fun name => ((themes.find? (·.1 = name)).map (·.2)).getD {}

/-- A layer of a board as the renderer sees it; `prims` gives what is drawn for the file of a layer
(layers.py:223-236). -/
noncomputable def drawn (prims : Layers.Layer → List Prim) (l : Layers.Layer) : Layer where
  cls := l.cls
  bounds := l.bounds.map fun b => ((b.1.1, b.1.2), (b.2.1, b.2.2))
  prims := prims l

/-- `'{0}.side.{1}'.format(args.outfile, outext)` (`__main__.py:98, 103, 108`). -/
def pictureFile (a : Args) (side : String) : Str :=
  a.outfile.getD "None".toList ++ ('.' :: side.toList) ++ ".png".toList

/-- The three pictures of a board: file, theme and layers (`__main__.py:84-108`).  All lists are made before anything
is drawn. -/
def boardPictures (a : Args) (board : List Layers.Layer) : PyR (List (Str × String × List Layers.Layer)) := do
  let top ← Layers.topLayers board
  let bottom ← Layers.bottomLayers board
  let copper := Layers.copperLayers board
  let (top, bottom, copper) := match Layers.outlineLayer board with
    | some o => ([o] ++ top, [o] ++ bottom, [o] ++ copper ++ Layers.drillLayers board)
    | none => (top, bottom, copper)
  .ok [(pictureFile a "top", a.theme, top), (pictureFile a "bottom", a.theme, bottom),
    (pictureFile a "copper", "Transparent Multilayer", copper)]

/-- The calls of `render_layers`, which also write the file (`__main__.py:95-108`, render/cairo_backend.py:131): the
files written and the exception, if one is raised.  Without any layer there is no surface to write. -/
noncomputable def renderPictures (K : Engine) (a : Args) (prims : Layers.Layer → List Prim) :
    Cairo.Ctx → Store → List (Str × String × List Layers.Layer) → List (Str × Cairo.Ctx) × Option PyErr
  | _, _, [] => ([], none)
  | c, S, (file, name, ls) :: more =>
    match c.renderLayers K (ls.map (drawn prims)) (S name) a.width a.height with
    | .error e => ([], some e)
    | .ok (c', t') =>
      if c'.frame.isNone then ([], some .attributeError)
      else
        let r := renderPictures K a prims c' (Function.update S name t') more
        ((file, c') :: r.1, r.2)

/-- The attributes that every theme has (theme.py:51-65, 70-78). -/
def themeKeys : List String :=
  ["background", "topsilk", "bottomsilk", "topmask", "bottommask", "top", "bottom", "drill", "ipc_netlist", "internal"]

/-- The settings of a single file (`__main__.py:115`, render/cairo_backend.py:81-82): those of the theme, or without
such the ones of the theme `default`. -/
def Store.single (S : Store) (name cls : String) : Store × PyR Settings :=
  let name := if cls ∈ themeKeys then name else "default"
  let r := (S name).get cls
  (Function.update S name r.1, r.2)

/-- The loop over single files (`__main__.py:112-116`); the background is that of the theme `default`
(render/cairo_backend.py:83-84). -/
noncomputable def renderFiles (K : Engine) (a : Args) (prims : Layers.Layer → List Prim) :
    Cairo.Ctx → Store → List (PyR Layers.Layer) → PyR Cairo.Ctx
  | c, _, [] => .ok c
  | c, S, f :: fs => do
    let l ← f
    match S.single a.theme l.cls with
    | (_, .error e) => .error e
    | (S, .ok s) => do
      let c ← c.renderLayer K (drawn prims l) s (S "default").background
      renderFiles K a prims c S fs

/-- What the first argument is: a directory, for which there are the layers of the board or the exception of
`PCB.from_directory`, or a file, for which as for all further ones there is the layer or the exception of
`load_layer` (__main__.py:80-82, 112-114). -/
inductive Input
  | directory (board : PyR (List Layers.Layer))
  | files (layers : List (PyR Layers.Layer))

/-- `main` (`__main__.py:71-117`): the pictures written, and the exception the program ends with. -/
noncomputable def main (K : Engine) (a : Args) (prims : Layers.Layer → List Prim) :
    Input → List (Str × Cairo.Ctx) × Option PyErr
  | .directory board =>
    match board.bind (boardPictures a) with
    | .error e => ([], some e)
    | .ok ps => renderPictures K a prims {} .start ps
  | .files layers =>
    match renderFiles K a prims {} .start layers with
    | .error e => ([], some e)
    | .ok c =>
      if c.frame.isNone then ([], some .attributeError)
      else ([(a.outfile.getD "None".toList ++ ".png".toList, c)], none)

end Verif.Cli
