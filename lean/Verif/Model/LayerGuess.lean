import Verif.Model.Layers

/-!
# Guessing the class of a layer from its file name (`gerber/layers.py:27-163`, `196-265`)

Case and word characters are those of ASCII (Python's `lower`, `\w` and `IGNORECASE` know further
letters); paths are POSIX paths.
-/

namespace Verif.Layers

open Verif.Py

/-- `Hint` (layers.py:27).  `regex` is `''` in every hint of the table and is left out together with
the branch at layers.py:139-141 that uses it. -/
structure Hint where
  layer : String
  ext : List String
  name : List String
  content : List String := []
  deriving DecidableEq, Repr

/-- `hints` (layers.py:29-109). -/
def hints : List Hint := [
  { layer := "top"
    ext := ["gtl", "cmp", "top"]
    name := ["art01", "top", "GTL", "layer1", "soldcom", "comp", "F.Cu"] },
  { layer := "bottom"
    ext := ["gbl", "sld", "bot", "sol", "bottom"]
    name := ["art02", "bottom", "bot", "GBL", "layer2", "soldsold", "B.Cu"] },
  { layer := "internal"
    ext := ["in", "gt1", "gt2", "gt3", "gt4", "gt5", "gt6",
            "g1", "g2", "g3", "g4", "g5", "g6"]
    name := ["art", "internal", "pgp", "pwr", "gnd", "ground",
             "gp1", "gp2", "gp3", "gp4", "gt5", "gp6",
             "In1.Cu", "In2.Cu", "In3.Cu", "In4.Cu",
             "group3", "group4", "group5", "group6", "group7", "group8"] },
  { layer := "topsilk"
    ext := ["gto", "sst", "plc", "ts", "skt", "topsilk"]
    name := ["sst01", "topsilk", "silk", "slk", "sst", "F.SilkS"] },
  { layer := "bottomsilk"
    ext := ["gbo", "ssb", "pls", "bs", "skb", "bottomsilk"]
    name := ["bsilk", "ssb", "botsilk", "bottomsilk", "B.SilkS"] },
  { layer := "topmask"
    ext := ["gts", "stc", "tmk", "smt", "tr", "topmask"]
    name := ["sm01", "cmask", "tmask", "mask1", "maskcom", "topmask", "mst", "F.Mask"] },
  { layer := "bottommask"
    ext := ["gbs", "sts", "bmk", "smb", "br", "bottommask"]
    name := ["sm", "bmask", "mask2", "masksold", "botmask", "bottommask", "msb", "B.Mask"] },
  { layer := "toppaste"
    ext := ["gtp", "tm", "toppaste"]
    name := ["sp01", "toppaste", "pst", "F.Paste"] },
  { layer := "bottompaste"
    ext := ["gbp", "bm", "bottompaste"]
    name := ["sp02", "botpaste", "bottompaste", "psb", "B.Paste"] },
  { layer := "outline"
    ext := ["gko", "outline"]
    name := ["BDR", "border", "out", "outline", "Edge.Cuts"] },
  { layer := "ipc_netlist"
    ext := ["ipc"]
    name := [] },
  { layer := "drawing"
    ext := ["fab"]
    name := ["assembly drawing", "assembly", "fabrication", "fab drawing", "fab"] }]

/-- `layer_signatures` (layers.py:112-116). -/
def layerSignatures (cls : String) : List String :=
  match hints.find? (·.layer = cls) with
  | some h => h.ext ++ h.name
  | none => []

/-- `s.lower()`, ASCII letters (layers.py:137). -/
def lower (s : Str) : Str := s.map Char.toLower

/-- `s[s.rfind(c)+1:]`: what follows the last `c`; everything if there is none (layers.py:136-137). -/
def afterLast (c : Char) (s : Str) : Str := (s.reverse.takeWhile (· != c)).reverse

/-- `os.path.split(s)[1]` (layers.py:136). -/
def baseName (s : Str) : Str := afterLast '/' s

/-- `os.path.splitext(s)` for a name without `/` (genericpath `_splitext`): split at the last dot,
unless only dots precede it (layers.py:137). -/
def splitExt (s : Str) : Str × Str :=
  if s.contains '.' then
    let ext := afterLast '.' s
    let root := s.take (s.length - (ext.length + 1))
    if root.any (· != '.') then (root, '.' :: ext) else (s, [])
  else (s, [])

/-- `[.-]` (layers.py:143). -/
def isSep (c : Char) : Bool := c == '.' || c == '-'

/-- `\w`, ASCII (layers.py:143). -/
def isWord (c : Char) : Bool :=
  ('a' ≤ c && c ≤ 'z') || ('A' ≤ c && c ≤ 'Z') || isDig c || c == '_'

/-- `\w*[.-]`: the text after the match.  There is only one way to match, since a separator is no
word character (layers.py:143). -/
def wordSep (s : Str) : Option Str :=
  match s.dropWhile isWord with
  | c :: r => if isSep c then some r else none
  | [] => none

/-- `(\w*[.-])*`: what may follow, most repetitions first.  `n` bounds their number (layers.py:143). -/
def wordSeps : ℕ → Str → List Str
  | 0, s => [s]
  | n + 1, s => match wordSep s with
    | some r => wordSeps n r ++ [s]
    | none => [s]

/-- One character of a name pattern, with `IGNORECASE`: `.` is any character but a newline (layers.py:143). -/
def patChar (p c : Char) : Bool := if p = '.' then c != '\n' else p.toLower == c.toLower

/-- The text after a match of the name pattern (layers.py:143). -/
def patMatch : Str → Str → Option Str
  | [], s => some s
  | _ :: _, [] => none
  | p :: ps, c :: s => if patChar p c then patMatch ps s else none

/-- `$`: the end, possibly before a final newline (layers.py:143). -/
def atEnd (s : Str) : Bool := s == [] || s == ['\n']

/-- `([.-]\w*)?$` (layers.py:143). -/
def patTail (s : Str) : Bool :=
  (match s with
    | c :: r => isSep c && (atEnd (r.dropWhile isWord))
    | [] => false) || atEnd s

/-- `re.findall(r'^(\w*[.-])*{}([.-]\w*)?$'.format(x), name, re.IGNORECASE)` is not empty
(layers.py:143-144). -/
def nameMatch (x name : Str) : Bool :=
  (wordSeps name.length name).any fun r =>
    match patMatch x r with
    | some t => patTail t
    | none => false

/-- The condition of layers.py:143-144 for one hint. -/
def hintMatch (name ext : Str) (h : Hint) : Bool :=
  h.ext.any (fun e => e.toList == ext.drop 1) || h.name.any (fun x => nameMatch x.toList name)

/-- `guess_layer_class_by_content` (layers.py:151-163): the first hint with content one of whose
patterns occurs in a line, for each line.  `file` is the content of the file as lines, or the
exception raised by opening or reading; `found x line` is the test with the pattern made of `x`. -/
def guessByContent (found : String → Str → Bool) (file : PyR (List Str)) : Option String :=
  match file with
  | .error _ => none
  | .ok lines =>
    lines.findSome? fun line =>
      (hints.find? fun h => decide (0 < h.content.length) && h.content.any (found · line)).map
        (·.layer)

/-- `guess_layer_class` (layers.py:127-148).  `file` is what reading the named file gives. -/
def guessLayerClass (found : String → Str → Bool) (file : PyR (List Str)) (filename : Str) :
    String :=
  match guessByContent found file with
  | some layer => layer
  | none =>
    let ne := splitExt (lower (baseName filename))
    match hints.find? (hintMatch ne.1 ne.2) with
    | some h => h.layer
    | none => "unknown"

/-- Kind of a `CamFile` object (layers.py:215-220). -/
inductive CamKind
  | gerber | excellon | ipc
  deriving DecidableEq, Repr

/-- `re.search(r'\d+', s)`: the first run of digits (layers.py:258). -/
def firstDigits (s : Str) : Str := (s.dropWhile (fun c => !isDig c)).takeWhile isDig

/-- `InternalLayer.from_cam` (layers.py:254-261). -/
def internalOrder (filename : Str) : ℤ :=
  if firstDigits filename = [] then 0 else natVal (firstDigits filename)

/-- `PCBLayer.from_cam` (layers.py:211-221) with `cls = guess_layer_class(filename)`. -/
def fromCam (kind : CamKind) (filename : Str) (cls : String) (bounds : Option Box) : Layer :=
  if kind = .excellon ∨ cls = "drill" then .drill filename none bounds
  else if cls = "internal" then .internal filename (internalOrder filename) bounds
  else .plain filename (if kind = .ipc then "ipc_netlist" else cls) bounds

end Verif.Layers
