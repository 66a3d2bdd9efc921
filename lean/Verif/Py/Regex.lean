import Verif.Py.Basic

/-!
# Regular expressions

The constructs of Python's `re` that the code uses: character classes, concatenation, optional
parts, greedy repetition of a character class, alternation, named groups.  The semantics lists all
ways to match a prefix in the order in which a backtracking matcher tries them; `re.match` returns
the first.
-/

namespace Verif.Py

/-- Syntax of the regular expressions used. -/
inductive Re
  /-- one character of a class -/
  | chr (p : Char → Bool)
  /-- empty text -/
  | eps
  | seq (a b : Re)
  /-- `a|b` -/
  | alt (a b : Re)
  /-- `[class]*`, greedy -/
  | star (p : Char → Bool)
  /-- `(?P<name>a)` -/
  | grp (name : String) (a : Re)

/-- Captured groups. -/
abbrev Caps := List (String × Str)

/-- A match: consumed text, captured groups, remaining text. -/
abbrev M := Str × Caps × Str

/-- Greedy repetition: longest first. -/
def starMatch (p : Char → Bool) : Str → List (Str × Str)
  | [] => [([], [])]
  | c :: s => if p c then (starMatch p s).map (fun x => (c :: x.1, x.2)) ++ [([], c :: s)]
              else [([], c :: s)]

/-- All matches of a prefix, in the order of a backtracking matcher. -/
def Re.run : Re → Str → List M
  | .chr _, [] => []
  | .chr p, c :: s => if p c then [([c], [], s)] else []
  | .eps, s => [([], [], s)]
  | .seq a b, s => (a.run s).flatMap fun x =>
      (b.run x.2.2).map fun y => (x.1 ++ y.1, x.2.1 ++ y.2.1, y.2.2)
  | .alt a b, s => a.run s ++ b.run s
  | .star p, s => (starMatch p s).map fun x => (x.1, [], x.2)
  | .grp n a, s => (a.run s).map fun x => (x.1, (n, x.1) :: x.2.1, x.2.2)

/-- `re.match`: the first match, as (groups, rest of the text). -/
def Re.pyMatch (a : Re) (s : Str) : Option (Caps × Str) :=
  (a.run s).head?.map fun x => x.2

/-- `groupdict().get(name)`: `None` if the group did not take part. -/
def Caps.get (cs : Caps) (n : String) : Option Str := cs.lookup n

namespace Re

/-- A single literal character. -/
def lit (c : Char) : Re := .chr (· == c)

/-- A literal text. -/
def str : Str → Re
  | [] => .eps
  | [c] => lit c
  | c :: s => .seq (lit c) (str s)

/-- `a?`, greedy. -/
def opt (a : Re) : Re := .alt a .eps

/-- `[class]+`, greedy. -/
def plus (p : Char → Bool) : Re := .seq (.chr p) (.star p)

/-- A sequence of expressions. -/
def cat : List Re → Re
  | [] => .eps
  | [a] => a
  | a :: l => .seq a (cat l)

end Re

end Verif.Py
