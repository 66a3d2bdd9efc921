import Verif.Model.ToolEquiv
import Verif.Props.ExcellonStmts

/-! # C96: drill tools are compared by what they do -/

namespace Verif.Excellon
open Verif.Py Verif.Py.Re Verif.Cam Verif.Utils Spec

/-! ## Specification -/

/-- The unit of a tool. -/
def Tool.unit (t : Tool) : Option String := t.settings.map (·.units)

/-- Under the same number both tools are written the same in all settings. -/
def WrittenAlike (a b : Tool) : Prop :=
  ∀ (n : ℤ) (st : FileSettings), Tool.toExcellon { a with number := n } st = Tool.toExcellon { b with number := n } st

/-! ## Proofs -/

theorem equivalent_iff {a b : Tool} : a.equivalent b = .ok true ↔
    (a.diameter = b.diameter ∧ a.feedRate = b.feedRate ∧ a.retractRate = b.retractRate ∧ a.rpm = b.rpm ∧
      a.depthOffset = b.depthOffset ∧ a.maxHitCount = b.maxHitCount ∧ a.plated = b.plated) ∧
      ∃ u, a.unit = some u ∧ b.unit = some u := by
  unfold Tool.equivalent Tool.unit
  constructor
  · intro h
    split at h
    · rename_i hs
      refine ⟨hs, ?_⟩
      rcases ha : a.settings with _ | s <;> rcases hb : b.settings with _ | t <;> rw [ha, hb] at h
      · simp at h
      · simp at h
      · simp at h
      · simp only [Except.ok.injEq, decide_eq_true_eq] at h
        exact ⟨s.units, rfl, by simp [h]⟩
    · simp at h
  · rintro ⟨hs, u, h1, h2⟩
    rw [if_pos hs]
    rcases ha : a.settings with _ | s <;> rcases hb : b.settings with _ | t <;> rw [ha] at h1 <;> rw [hb] at h2
    · cases h1
    · cases h1
    · cases h2
    · cases h1
      simp only [Option.map_some, Option.some.injEq] at h2
      simp [h2]

/-- **C96** (what is compared).  Two tools whose numbers fit the format of some settings are equivalent exactly if they are
written the same under the same number, have the same plating and the same unit. -/
theorem C96_lines_partial {st : FileSettings} (hf : GoodFormat st.format) {a b : Tool} (ha : GoodTool st.format a)
    (hb : GoodTool st.format b) :
    a.equivalent b = .ok true ↔ WrittenAlike a b ∧ a.plated = b.plated ∧ ∃ u, a.unit = some u ∧ b.unit = some u := by
  rw [equivalent_iff]
  constructor
  · rintro ⟨⟨h1, h2, h3, h4, h5, h6, h7⟩, h8⟩
    refine ⟨fun n st => ?_, h7, h8⟩
    simp only [Tool.toExcellon, h1, h2, h3, h4, h5, h6]
  · rintro ⟨h, h7, h8⟩
    have ha' : GoodTool st.format { a with number := 1 } :=
      ⟨ha.retract, ha.feed, ha.maxHit, ha.depth, ha.rpm, ha.diameter⟩
    have hb' : GoodTool st.format { b with number := 1 } :=
      ⟨hb.retract, hb.feed, hb.maxHit, hb.depth, hb.rpm, hb.diameter⟩
    obtain ⟨t, e1, e2⟩ := C29_tool_partial hf ha' none
    obtain ⟨t', e3, e4⟩ := C29_tool_partial hf hb' none
    have e5 := h 1 st
    rw [e1, e3] at e5
    cases e5
    rw [e2] at e4
    injection e4 with e4
    injection e4 with _ _ f1 f2 f3 f4 f5 f6
    exact ⟨⟨f4, f1, f2, f3, f6, f5, h7⟩, h8⟩

/-- **C96** (text).  Equivalent tools are written the same, whatever their numbers are. -/
theorem C96_text {a b : Tool} (h : a.equivalent b = .ok true) : WrittenAlike a b := by
  obtain ⟨⟨h1, h2, h3, h4, h5, h6, -⟩, -⟩ := equivalent_iff.1 h
  intro n st
  simp only [Tool.toExcellon, h1, h2, h3, h4, h5, h6]

/-- **C96** (relation).  On tools with settings the comparison always answers, and it is an equivalence relation. -/
theorem C96_relation : (∀ a b : Tool, a.settings ≠ none → b.settings ≠ none → ∃ r, a.equivalent b = .ok r) ∧
    (∀ a : Tool, a.settings ≠ none → a.equivalent a = .ok true) ∧ (∀ a b : Tool, a.equivalent b = b.equivalent a) ∧
    (∀ a b c : Tool, a.equivalent b = .ok true → b.equivalent c = .ok true → a.equivalent c = .ok true) := by
  refine ⟨fun a b ha hb => ?_, fun a ha => ?_, fun a b => ?_, fun a b c h1 h2 => ?_⟩
  · obtain ⟨s, hs⟩ := Option.ne_none_iff_exists'.1 ha
    obtain ⟨t, ht⟩ := Option.ne_none_iff_exists'.1 hb
    unfold Tool.equivalent
    rw [hs, ht]
    split <;> exact ⟨_, rfl⟩
  · obtain ⟨s, hs⟩ := Option.ne_none_iff_exists'.1 ha
    exact equivalent_iff.2 ⟨by simp, s.units, by simp [Tool.unit, hs], by simp [Tool.unit, hs]⟩
  · unfold Tool.equivalent
    by_cases h : a.diameter = b.diameter ∧ a.feedRate = b.feedRate ∧ a.retractRate = b.retractRate ∧ a.rpm = b.rpm ∧
      a.depthOffset = b.depthOffset ∧ a.maxHitCount = b.maxHitCount ∧ a.plated = b.plated
    · rw [if_pos h, if_pos ⟨h.1.symm, h.2.1.symm, h.2.2.1.symm, h.2.2.2.1.symm, h.2.2.2.2.1.symm, h.2.2.2.2.2.1.symm,
        h.2.2.2.2.2.2.symm⟩]
      rcases a.settings with _ | s <;> rcases b.settings with _ | t <;> simp [eq_comm]
    · rw [if_neg h, if_neg fun k => h ⟨k.1.symm, k.2.1.symm, k.2.2.1.symm, k.2.2.2.1.symm, k.2.2.2.2.1.symm, k.2.2.2.2.2.1.symm,
        k.2.2.2.2.2.2.symm⟩]
  · obtain ⟨⟨a1, a2, a3, a4, a5, a6, a7⟩, u, a8, a9⟩ := equivalent_iff.1 h1
    obtain ⟨⟨b1, b2, b3, b4, b5, b6, b7⟩, v, b8, b9⟩ := equivalent_iff.1 h2
    rw [a9] at b8
    cases b8
    exact equivalent_iff.2 ⟨⟨a1.trans b1, a2.trans b2, a3.trans b3, a4.trans b4, a5.trans b5, a6.trans b6, a7.trans b7⟩, u, a8,
      b9⟩

theorem inch_inj : Function.Injective Utils.inch := fun a b h => by
  simp only [Utils.inch, Utils.mmPerInch] at h
  linarith

theorem metric_inj : Function.Injective Utils.metric := fun a b h => by
  simp only [Utils.metric, Utils.mmPerInch] at h
  linarith

theorem convert_equivalent {u : String} {f : ℚ → ℚ} (hf : Function.Injective f) {a b a' b' : Tool} (hu : a.unit = b.unit)
    (ha : a.convert u f = .ok a') (hb : b.convert u f = .ok b') : a'.equivalent b' = a.equivalent b := by
  unfold Tool.convert at ha hb
  unfold Tool.unit at hu
  rcases hs : a.settings with _ | s <;> rw [hs] at ha hu
  · cases ha
  rcases ht : b.settings with _ | t <;> rw [ht] at hb hu
  · cases hb
  simp only [Option.map_some, Option.some.injEq] at hu
  simp only at ha hb
  rw [hu] at ha
  have key : ∀ x y : Option ℚ, x.map f = y.map f ↔ x = y := fun x y => (Option.map_injective hf).eq_iff
  by_cases h : t.units = u
  · rw [if_neg (by simpa using h)] at ha hb
    cases ha
    cases hb
    rfl
  · rw [if_pos h] at ha hb
    cases ha
    cases hb
    simp only [Tool.equivalent, hs, ht, key, hu]

/-- **C96** (units).  The answer for tools of the same unit is the same after both are converted. -/
theorem C96_convert {a b a' b' : Tool} (hu : a.unit = b.unit) :
    (a.toInch = .ok a' → b.toInch = .ok b' → a'.equivalent b' = a.equivalent b) ∧
    (a.toMetric = .ok a' → b.toMetric = .ok b' → a'.equivalent b' = a.equivalent b) :=
  ⟨convert_equivalent inch_inj hu, convert_equivalent metric_inj hu⟩

/-- **C96** (copies).  A copy is written like its original wherever settings are given, and given settings of the same unit it
is equivalent to it; it has not made a hole. -/
theorem C96_copy_partial (t : Tool) (st : FileSettings) : t.fromTool.toExcellon st = t.toExcellon st ∧
    (t.unit = some st.units → Tool.equivalent { t.fromTool with settings := some st } t = .ok true) ∧
    t.fromTool.hitCount = 0 :=
  ⟨rfl, fun h => equivalent_iff.2 ⟨⟨rfl, rfl, rfl, rfl, rfl, rfl, rfl⟩, st.units, rfl, h⟩, rfl⟩

/-- **C96** (text).  A tool that is written in its own settings and read back with its plating is equivalent to what it was. -/
theorem C96_own_partial {t : Tool} {st : FileSettings} (hs : t.settings = some st) (hf : GoodFormat st.format)
    (ht : GoodTool st.format t) : ∃ text t', t.ownText = .ok text ∧ Tool.fromExcellon text st t.plated = .ok t' ∧
      t'.equivalent t = .ok true ∧ t'.number = t.number := by
  obtain ⟨text, h1, h2⟩ := C29_tool_partial hf ht t.plated
  refine ⟨text, _, ?_, h2, equivalent_iff.2 ⟨⟨rfl, rfl, rfl, rfl, rfl, rfl, rfl⟩, st.units, rfl, by simp [Tool.unit, hs]⟩, rfl⟩
  unfold Tool.ownText
  rw [hs]
  exact h1

/-- No copy can be compared with its original or be written without settings: both are errors. -/
theorem C96_copy_violated (t : Tool) : t.fromTool.equivalent t = .error .attributeError ∧
    t.equivalent t.fromTool = .error .attributeError ∧ t.fromTool.ownText = .error .attributeError := by
  refine ⟨?_, ?_, rfl⟩
  · simp [Tool.equivalent, Tool.fromTool]
  · unfold Tool.equivalent Tool.fromTool
    simp only [and_self, if_true]
    split
    · rename_i h
      cases h
    · rfl

/-- Tools of the same size in different units are not equivalent, although they are after both are converted. -/
theorem C96_units_violated : ∃ a b a' b' : Tool, a.equivalent b = .ok false ∧ a.toInch = .ok a' ∧ b.toInch = .ok b' ∧
    a'.equivalent b' = .ok true :=
  ⟨{ settings := some inch24, number := 1, diameter := some 1 },
    { settings := some { inch24 with units := "metric" }, number := 1, diameter := some (127 / 5) },
    { settings := some inch24, number := 1, diameter := some 1 },
    { settings := some inch24, number := 1, diameter := some 1 },
    by decide +kernel, by decide +kernel, by decide +kernel, by decide +kernel⟩

/-! ## Examples -/

example : fullTool.equivalent { fullTool with number := 3, hitCount := 7 } = .ok true ∧
    fullTool.equivalent { fullTool with depthOffset := none } = .ok false ∧
    fullTool.equivalent { fullTool with plated := some "plated" } = .ok false ∧
    fullTool.equivalent { fullTool with settings := none, rpm := some 1 } = .ok false := by decide +kernel

example : fullTool.unit = some "inch" ∧ (∃ t, fullTool.toMetric = .ok t ∧ t.diameter = some (3937 / 5000)) :=
  ⟨rfl, _, rfl, by decide +kernel⟩

example : fullTool.ownText = .ok "T12B025F85H99S305C0.0310Z-000625".toList := by decide +kernel

end Verif.Excellon
