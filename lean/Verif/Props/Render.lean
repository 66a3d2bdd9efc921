import Verif.Model.Render
import Mathlib.Tactic.NormNum

/-!
# C45, C46: themes and the settings of render contexts
-/

namespace Verif.Render

open Verif.Py

/-! ## C45 -/

/-- The `n`-th request (from 0) gives the `n`-th colour of the theme's list, for as many requests as
the list has entries, and raises `StopIteration` ever after. -/
theorem C45_request_partial (t : Theme) (hg : t.gen = none) (n : ℕ) :
    (t.after n).request.2 =
      match t.internal[n]? with
      | some s => .ok s
      | none => .error .stopIteration := by
  have inv : ∀ n, (t.after n).internal = t.internal ∧
      (t.after n).gen.getD t.internal = t.internal.drop n := by
    intro n
    induction n with
    | zero => simp [Theme.after, hg]
    | succ n ih =>
      simp only [Theme.after, Theme.request]
      rw [ih.1, ih.2]
      match hd : t.internal.drop n with
      | [] =>
        refine ⟨rfl, ?_⟩
        simp only [Option.getD_some]
        rw [List.drop_eq_nil_iff] at hd
        rw [List.drop_eq_nil_of_le (by omega)]
      | s :: l =>
        refine ⟨rfl, ?_⟩
        simp only [Option.getD_some]
        rw [← List.drop_drop, hd, List.drop_one, List.tail_cons]
  simp only [Theme.request]
  rw [(inv n).1, (inv n).2]
  match hd : t.internal.drop n with
  | [] =>
    rw [List.drop_eq_nil_iff] at hd
    rw [List.getElem?_eq_none hd]
  | s :: l =>
    have : t.internal[n]? = some s := by
      rw [← List.head?_drop, hd]; rfl
    rw [this]

example : ((Theme.init).after 7).request.2 =
    .ok { color := [227 / 1000, 373 / 1000, 804 / 1000] } := by decide +kernel

/-- The claim fails: the ninth request to the default theme raises `StopIteration`. -/
theorem C45_exhausted_violated : ¬ ∀ (t : Theme) (n : ℕ), ∃ s, (t.after n).request.2 = .ok s := by
  intro h
  obtain ⟨s, hs⟩ := h Theme.init 8
  rw [C45_request_partial _ rfl] at hs
  have : (Theme.init.internal)[8]? = none := by decide +kernel
  rw [this] at hs
  cases hs

/-- No theme at all gives a colour for every internal layer. -/
theorem C45_every_theme_violated (t : Theme) (hg : t.gen = none) :
    ∃ n, (t.after n).request.2 = .error .stopIteration := by
  refine ⟨t.internal.length, ?_⟩
  rw [C45_request_partial t hg, List.getElem?_eq_none le_rfl]

/-! ## C46 -/

/-- A number within `[0, 1]`. -/
def Val.Unit : Val → Prop
  | .num q => 0 ≤ q ∧ q ≤ 1
  | _ => False

/-- Three numbers within `[0, 1]`. -/
def Colour.Valid (c : Colour) : Prop := ∃ r g b : Val, c = .seq [r, g, b] ∧ r.Unit ∧ g.Unit ∧ b.Unit

/-- The settings of a context are valid. -/
structure Ctx.Valid (x : Ctx) : Prop where
  units : x.units = "inch" ∨ x.units = "metric"
  color : x.color.Valid
  drill : x.drillColor.Valid
  background : x.backgroundColor.Valid
  alpha : x.alpha.Unit

/-- No component is the float `nan`. -/
def Assign.NoNan : Assign → Prop
  | .color (.seq l) | .drillColor (.seq l) | .backgroundColor (.seq l) => Val.nan ∉ l
  | .alpha v => v ≠ .nan
  | _ => True

theorem outside_ok {v : Val} (hn : v ≠ .nan) : v.outside = .ok false ↔ v.Unit := by
  cases v with
  | num q => simp [Val.outside, Val.Unit]
  | nan => exact (hn rfl).elim
  | posInf => simp [Val.outside, Val.Unit]
  | negInf => simp [Val.outside, Val.Unit]
  | other => simp [Val.outside, Val.Unit]

theorem checkComps_iff {l : List Val} (hn : Val.nan ∉ l) :
    checkComps l = .ok () ↔ ∀ v ∈ l, v.Unit := by
  induction l with
  | nil => simp [checkComps]
  | cons v l ih =>
    have hv : v ≠ .nan := fun e => hn (by simp [e])
    have hl : Val.nan ∉ l := fun e => hn (by simp [e])
    unfold checkComps
    match ho : v.outside with
    | .ok false =>
      simp only [bind, Except.bind, Bool.false_eq_true, if_false, ih hl, List.mem_cons,
        forall_eq_or_imp, (outside_ok hv).1 ho, true_and]
    | .ok true =>
      simp only [bind, Except.bind, if_true]
      constructor
      · intro h; cases h
      · intro h
        have := (outside_ok hv).2 (h v (by simp))
        rw [ho] at this
        cases this
    | .error e =>
      simp only [bind, Except.bind]
      constructor
      · intro h; cases h
      · intro h
        have := (outside_ok hv).2 (h v (by simp))
        rw [ho] at this
        cases this

theorem checkColour_iff {c : Colour} (hn : ∀ l, c = .seq l → Val.nan ∉ l) :
    checkColour c = .ok () ↔ c.Valid := by
  cases c with
  | noLen =>
    constructor
    · intro h; cases h
    · rintro ⟨_, _, _, h, _⟩; cases h
  | seq l =>
    constructor
    · intro h
      change (if l.length ≠ 3 then _ else checkComps l) = _ at h
      by_cases h3 : l.length ≠ 3
      · rw [if_pos h3] at h; cases h
      · rw [if_neg h3] at h
        have h3 : l.length = 3 := not_not.1 h3
        have := (checkComps_iff (hn l rfl)).1 h
        match l, h3 with
        | [r, g, b], _ => exact ⟨r, g, b, rfl, this r (by simp), this g (by simp), this b (by simp)⟩
    · rintro ⟨r, g, b, h, h1, h2, h3⟩
      cases h
      simp only [checkColour, List.length_cons, List.length_nil, ne_eq, not_true_eq_false, if_false]
      rw [checkComps_iff (hn _ rfl)]
      simp [h1, h2, h3]

theorem Ctx.init_valid (units : String) (h : units = "inch" ∨ units = "metric") :
    (Ctx.init units).Valid where
  units := h
  color := ⟨_, _, _, rfl, by constructor <;> norm_num, by constructor <;> norm_num,
    by constructor <;> norm_num⟩
  drill := ⟨_, _, _, rfl, by constructor <;> norm_num, by constructor <;> norm_num,
    by constructor <;> norm_num⟩
  background := ⟨_, _, _, rfl, by constructor <;> norm_num, by constructor <;> norm_num,
    by constructor <;> norm_num⟩
  alpha := by constructor <;> norm_num

/-- What an assignment asks for. -/
def Assign.Acceptable : Assign → Prop
  | .units u => u = "inch" ∨ u = "metric"
  | .color c | .drillColor c | .backgroundColor c => c.Valid
  | .alpha v => v.Unit
  | .invert _ => True

/-- **C46** (one assignment) An assignment succeeds exactly if the value is acceptable; otherwise it
raises and the context is unchanged. -/
theorem C46_assign_partial (x : Ctx) (a : Assign) (hn : a.NoNan) :
    ((x.assign a).2 = .ok () ↔ a.Acceptable) ∧
      ((x.assign a).2 ≠ .ok () → (x.assign a).1 = x) := by
  cases a with
  | units u =>
    unfold Ctx.assign
    by_cases h : u ∈ ["inch", "metric"]
    · simp only [h, if_true]
      simp at h
      simp [Assign.Acceptable, h]
    · simp only [h, if_false]
      simp at h
      simp [Assign.Acceptable, h]
  | color c =>
    have := checkColour_iff (c := c) (fun l hl => by subst hl; exact hn)
    unfold Ctx.assign
    cases hc : checkColour c with
    | ok u => simp only [Assign.Acceptable, ← this, hc]; simp
    | error e => simp only [Assign.Acceptable, ← this, hc]; simp
  | drillColor c =>
    have := checkColour_iff (c := c) (fun l hl => by subst hl; exact hn)
    unfold Ctx.assign
    cases hc : checkColour c with
    | ok u => simp only [Assign.Acceptable, ← this, hc]; simp
    | error e => simp only [Assign.Acceptable, ← this, hc]; simp
  | backgroundColor c =>
    have := checkColour_iff (c := c) (fun l hl => by subst hl; exact hn)
    unfold Ctx.assign
    cases hc : checkColour c with
    | ok u => simp only [Assign.Acceptable, ← this, hc]; simp
    | error e => simp only [Assign.Acceptable, ← this, hc]; simp
  | alpha v =>
    have := outside_ok (v := v) hn
    unfold Ctx.assign
    match hc : v.outside with
    | .ok false => simp only [Assign.Acceptable, ← this, hc]; simp
    | .ok true => simp only [Assign.Acceptable, ← this, hc]; simp
    | .error e => simp only [Assign.Acceptable, ← this, hc]; simp
  | invert b => simp [Ctx.assign, Assign.Acceptable]

/-- An accepted assignment stores the value and nothing else changes. -/
theorem C46_stored (x : Ctx) (a : Assign) (h : (x.assign a).2 = .ok ()) :
    (x.assign a).1 = match a with
      | .units u => { x with units := u }
      | .color c => { x with color := c }
      | .drillColor c => { x with drillColor := c }
      | .backgroundColor c => { x with backgroundColor := c }
      | .alpha v => { x with alpha := v }
      | .invert b => { x with invert := b } := by
  cases a with
  | units u => simp only [Ctx.assign] at h ⊢; split at h <;> simp_all
  | color c => simp only [Ctx.assign] at h ⊢; split at h <;> simp_all
  | drillColor c => simp only [Ctx.assign] at h ⊢; split at h <;> simp_all
  | backgroundColor c => simp only [Ctx.assign] at h ⊢; split at h <;> simp_all
  | alpha v => simp only [Ctx.assign] at h ⊢; split at h <;> simp_all
  | invert b => rfl

theorem assign_valid {x : Ctx} {a : Assign} (hx : x.Valid) (hn : a.NoNan) :
    (x.assign a).1.Valid := by
  by_cases h : (x.assign a).2 = .ok ()
  · have ha := (C46_assign_partial x a hn).1.1 h
    rw [C46_stored x a h]
    cases a with
    | units u => exact ⟨ha, hx.color, hx.drill, hx.background, hx.alpha⟩
    | color c => exact ⟨hx.units, ha, hx.drill, hx.background, hx.alpha⟩
    | drillColor c => exact ⟨hx.units, hx.color, ha, hx.background, hx.alpha⟩
    | backgroundColor c => exact ⟨hx.units, hx.color, hx.drill, ha, hx.alpha⟩
    | alpha v => exact ⟨hx.units, hx.color, hx.drill, hx.background, ha⟩
    | invert b => exact ⟨hx.units, hx.color, hx.drill, hx.background, hx.alpha⟩
  · rw [(C46_assign_partial x a hn).2 h]
    exact hx

/-- **C46** (histories) After every history of assignments, accepted or not, all settings of the
context are valid. -/
theorem C46_history_partial (units : String) (hu : units = "inch" ∨ units = "metric")
    (as : List Assign) (hn : ∀ a ∈ as, a.NoNan) : ((Ctx.init units).run as).Valid := by
  have : ∀ (as : List Assign) (x : Ctx), x.Valid → (∀ a ∈ as, a.NoNan) → (x.run as).Valid := by
    intro as
    induction as with
    | nil => intro x hx _; exact hx
    | cons a as ih =>
      intro x hx hn
      exact ih _ (assign_valid hx (hn a (by simp))) fun b hb => hn b (by simp [hb])
  exact this as _ (Ctx.init_valid units hu) hn

example : (Ctx.init.run [.alpha (.num 2), .color (.seq [.num 1, .num 0, .num (1 / 2)]),
    .color (.seq [.num 1, .num 0, .num (-1)]), .drillColor (.seq [.num 1]),
    .backgroundColor (.seq [.num 0, .other, .num 1]), .alpha .posInf, .units "mm",
    .backgroundColor .noLen]) = { Ctx.init with color := .seq [.num 1, .num 0, .num (1 / 2)] } := by
  decide +kernel

/-- The claim fails for the float `nan`, which is neither below 0 nor above 1: it is accepted. -/
theorem C46_nan_violated : ¬ ∀ as : List Assign, (Ctx.init.run as).Valid := by
  intro h
  exact (h [.alpha .nan]).alpha

end Verif.Render
