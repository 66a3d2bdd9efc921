import Verif.Model.MacroPicture

/-! # Negatives of pictures -/

namespace Verif.Cairo

open Verif.Py

/-- The same picture, except that the last layer shows exactly the other points. -/
def Negative (c d : Cairo.Ctx) : Prop :=
  c.scale = d.scale ∧ c.frame = d.frame ∧ c.hasBg = d.hasBg ∧ c.count = d.count ∧
    ∃ before color alpha area, c.paints = before ++ [.layer color alpha area] ∧
      d.paints = before ++ [.layer color alpha areaᶜ]

/-- Both raise the same exception, or the second picture is the negative of the first. -/
def NegativeOf : PyR Cairo.Ctx → PyR Cairo.Ctx → Prop
  | .ok c, .ok d => Negative c d
  | .error e, .error e' => e = e'
  | _, _ => False

end Verif.Cairo

namespace Verif.Gerber

open Verif.Am

/-- Apertures without holes, or round with a round hole; macros without parts that remove something. -/
def Shape.Solid : Shape (List AmPrim) → Prop
  | .circle _ h => h.width ≤ 0 ∨ h.height ≤ 0
  | .rect _ _ h | .obround _ _ h | .polygon _ _ _ h => h.diameter ≤ 0 ∧ (h.width ≤ 0 ∨ h.height ≤ 0)
  | .group g => ∀ a ∈ g, match a with
    | .circle on .. | .vectorLine _ on .. | .outline on .. | .polygon on .. | .centerLine on .. => on = true
    | _ => True

/-- Primitives that only add something: macros have their own polarity. -/
def Prim.Adds : Prim (List AmPrim) → Prop
  | .flash (.group g) _ _ _ => Shape.Solid (.group g)
  | .flash sh _ pol _ => pol = "dark" ∧ sh.Solid
  | .edge (.line _ _ _ pol _) => pol = "dark"
  | .edge (.arc _ _ _ _ _ _ pol _) => pol = "dark"
  | .region _ pol _ => pol = "dark"

/-- Statements that remove nothing: no clear polarity, no holes except round ones of round apertures, no macros with
parts that remove something. -/
def Stmt.Plain : Stmt → Prop
  | .lp p => p = "dark"
  | .ad _ shape mods => ∀ m ∈ mods, (shape ∈ [['C'], ['R'], ['O']] → m.length ≤ 2) ∧ (shape = ['P'] → m.length ≤ 3)
  | .am _ body _ => ∀ m g, build body m = .ok g → Shape.Solid (.group g)
  | _ => True

end Verif.Gerber
