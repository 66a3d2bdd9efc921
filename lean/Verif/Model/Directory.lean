import Verif.Model.LayerGuess

/-! # Boards from directories (`gerber/pcb.py:28-69`, `gerber/utils.py:316-343`) -/

namespace Verif.Layers

open Verif.Py

/-- `listdir(directory, True, True)` (utils.py:337-343) of the names that `os.listdir` gives. -/
def listDir (files : List Str) : List Str :=
  (files.filter fun f => !(['.'].isPrefixOf f)).filter fun f =>
    !([".DS_Store".toList, "Thumbs.db".toList, "ethumbs.db".toList].contains f)

/-- What there is in a directory: its absolute path and the names in it, and for each name the lines of the
file (or the exception of reading it as text) and what `gerber.common.read` gives: the kind of the file and its
bounds (pcb.py:29-69). -/
structure Dir where
  path : Str
  names : List Str
  lines : Str → PyR (List Str)
  read : Str → PyR (CamKind × Option Box)

/-- The layer of a file (pcb.py:41-42). -/
def Dir.layer (found : String → Str → Bool) (d : Dir) (f : Str) : PyR Layer := do
  let r ← d.read f
  let path := d.path ++ '/' :: f
  .ok (fromCam r.1 path (guessLayerClass found (d.lines f) path) r.2)

/-- The name of the board that a file suggests (pcb.py:44-50).  `splitext` always gives a pair. -/
def boardName (f : Str) (cls : String) : Str :=
  let name := (splitExt f).1
  let ne := splitExt name
  let name' := if (layerSignatures cls).any (fun s => s.toList == ne.2.drop 1) then ne.1 else name
  if cls = "drill" ∧ isInfix "drill".toList ne.2 then ne.1 else name'

/-- The loop (pcb.py:39-60): layers and set of names (without repetitions). -/
def Dir.load (found : String → Str → Bool) (d : Dir) : List Str → PyR (List Layer × List Str)
  | [] => .ok ([], [])
  | f :: fs =>
    match d.layer found f with
    | .ok l => do
      let (ls, ns) ← d.load found fs
      .ok (l :: ls, (boardName f l.cls :: ns).dedup)
    | .error .parseError => d.load found fs
    | .error .ioError => d.load found fs
    | .error e => .error e

/-- `names.pop()` if there is exactly one name, else the given one (pcb.py:64-67). -/
def onlyName (names : List Str) (other : Str) : Str :=
  match names with
  | [n] => n
  | _ => other

/-- `PCB.from_directory` (pcb.py:28-69) of an existing directory: layers and name. -/
def fromDirectory (found : String → Str → Bool) (d : Dir) (name : Option Str) : PyR (List Layer × Str) := do
  let (ls, ns) ← d.load found (listDir d.names)
  let nm := match name with
    | some n => n
    | none => onlyName ns (baseName d.path)
  let board ← pcb ls
  .ok (board, nm)

end Verif.Layers
