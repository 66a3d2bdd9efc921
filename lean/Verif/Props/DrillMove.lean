import Verif.Props.DrillSave
import Verif.Props.ExcellonEdit

/-! # C86: a drill file that is moved, written and read again drills the same, moved -/

namespace Verif.Excellon
open Verif.Py Verif.Cam Verif.Excellon.Spec

/-! ## Moving keeps the form of the file -/

theorem offset_kept {dx dy : ℚ} {heap : List Tool} {st : FileSettings} {x : Stmt}
    (h : HeaderStmt heap st x ∨ x.kind = .headerBegin ∨ x.kind = .rewindStop ∨ x.kind = .headerEnd) :
    x.offset dx dy = x := by
  obtain ⟨u, k⟩ := x
  cases k <;> first | rfl | (rcases h with h | h | h | h <;> cases h)

theorem isSelection_offset (dx dy : ℚ) (x : Stmt) : isSelection (x.offset dx dy) = isSelection x := by
  obtain ⟨u, k⟩ := x
  cases k <;> rfl

theorem Plain.moved {dx dy : ℚ} {f g : XFile} {st : FileSettings} (hp : Plain f st) (h : f.offset dx dy = .ok g)
    (hg : ∀ t p, Hit.hole t p ∈ f.hits → OnGrid st.format (p.1 + dx) ∧ OnGrid st.format (p.2 + dy)) :
    Plain g st ∧ g.defined = f.defined ∧ ∀ x ∈ g.hits, ∃ y ∈ f.hits, g.numberOf x = f.numberOf y ∧
      x.diameter g.heap = y.diameter f.heap := by
  obtain ⟨h1, h2, h3, h4, h5⟩ := XFile.offset_ok h
  have hw : g.statements.takeWhile (fun s => !isSelection s) = f.statements.takeWhile fun s => !isSelection s := by
    rw [h2, List.takeWhile_map]
    have e : ((fun s => !isSelection s) ∘ Stmt.offset dx dy) = fun s => !isSelection s :=
      funext fun x => by simp [isSelection_offset]
    rw [e]
    obtain ⟨a, mid, b, e, ha, hmid, hb⟩ := hp.header
    conv_rhs => rw [← List.map_id (f.statements.takeWhile _)]
    refine List.map_congr_left fun x hx => ?_
    rw [e] at hx
    simp only [List.mem_cons, List.mem_append, List.not_mem_nil, or_false] at hx
    rcases hx with rfl | hx | rfl
    · exact offset_kept (heap := f.heap) (st := st) (.inr (.inl ha))
    · exact offset_kept (.inl (hmid x hx))
    · exact offset_kept (heap := f.heap) (st := st) (.inr (.inr hb))
  have hx : ∀ x ∈ g.hits, ∃ y ∈ f.hits, y.offset dx dy = .ok x := by
    intro x hx
    obtain ⟨i, hi, rfl⟩ := List.getElem_of_mem hx
    have hl := h1.length_eq
    exact ⟨f.hits[i], List.getElem_mem _, h1.get (i := i) (by omega) hi⟩
  have hn : ∀ x ∈ g.hits, ∃ y ∈ f.hits, g.numberOf x = f.numberOf y ∧ x.diameter g.heap = y.diameter f.heap := by
    intro x hm
    obtain ⟨y, hy, e⟩ := hx x hm
    refine ⟨y, hy, ?_, ?_⟩ <;> simp only [XFile.numberOf, Hit.diameter, h3, (Hit.offset_spec e).2]
  refine ⟨⟨by rw [h5]; exact hp.settings, hp.absolute, hp.format, ?_, by rw [h4]; exact hp.numbers, ?_, ?_⟩, ?_, hn⟩
  · rw [hw, h3]; exact hp.header
  · intro x hm
    obtain ⟨y, hy, e⟩ := hx x hm
    obtain ⟨p, ⟨t, rfl⟩, -⟩ := hp.holes y hy
    cases e
    exact ⟨_, ⟨t, rfl⟩, hg t p hy⟩
  · intro x hm
    obtain ⟨y, hy, e, -⟩ := hn x hm
    rw [h4, e]; exact hp.known y hy
  · unfold XFile.defined
    rw [hw, h3]

/-! ## C86 -/

/-- **C86 for drill files.**  Every parsed file of the form described in C28 whose tool numbers mean one size can be
moved and written, and the text, read with the settings of the file, drills the same holes, moved, with the same
diameters (sorted by tools).  Provided that the moved holes fit the number format. -/
theorem C86_drilled_partial {settings : Option FileSettings} {ext : List (ℤ × Tool)} {data : Str} {f : XFile}
    {st : FileSettings} (hx : FreshTools ext) (h : parseRaw settings ext data = .ok f) (hp : Plain f st)
    (hs : OneSize f) (dx dy : ℚ)
    (hg : ∀ t p, Hit.hole t p ∈ f.hits → OnGrid st.format (p.1 + dx) ∧ OnGrid st.format (p.2 + dy)) :
    ∃ g text f', f.offset dx dy = .ok g ∧ g.write = .ok text ∧ parseRaw (some st) [] text = .ok f' ∧
      f'.drilled.Perm (f.drilled.map fun x => (x.1.moved dx dy, x.2)) := by
  obtain ⟨hR, hk⟩ := parsed_tools hx h
  obtain ⟨g, e⟩ := C49_defined (dx := dx) (dy := dy) (f := f) (by
    intro x hx e
    obtain ⟨n, -, hn⟩ := hp.known x hx
    simp [XFile.numberOf, e] at hn) (by
    intro t a b k hm
    obtain ⟨p, ⟨t', h'⟩, -⟩ := hp.holes _ hm
    cases h')
  obtain ⟨h1, h2, h3, h4, h5⟩ := XFile.offset_ok e
  obtain ⟨p1, p2, p3⟩ := hp.moved e hg
  have hs' : OneSize g := by
    refine ⟨by rw [p2]; exact hs.same, fun x hx => ?_⟩
    obtain ⟨y, hy, e1, e2⟩ := p3 x hx
    rw [p2, e1, e2]
    exact hs.hits y hy
  obtain ⟨text, f', t1, t2, t3⟩ := drilled_again (by rw [h3, h4]; exact hR) (by rw [h4]; exact hk) p1 hs'
  refine ⟨g, text, f', e, t1, t2, ?_⟩
  have ed : g.drilled = f.drilled.map fun x => (x.1.moved dx dy, x.2) := by
    unfold XFile.drilled
    rw [List.map_map]
    refine forall₂_map_eq h1 fun a b e => ?_
    simp only [Function.comp_apply, (Hit.offset_spec e).1, Hit.diameter, (Hit.offset_spec e).2, h3]
  rw [← ed]
  exact t3

/-! ## Examples and violations -/

/-- What a file drills before and after being moved, written and read again. -/
def drilledMoved (dx dy : ℚ) (data : Str) : PyR (List (Feature × Option ℚ) × Str × List (Feature × Option ℚ)) := do
  let f ← parseRaw none [] data
  let st ← f.cam.settings
  let g ← f.offset dx dy
  let text ← g.write
  let f' ← parseRaw (some st) [] text
  .ok (f.drilled, text, f'.drilled)

-- the file of C28, moved to the right and down
example : ∃ f, parseRaw none [] turns = .ok f ∧ Plain f metric24 ∧ OneSize f ∧ f.hits ≠ [] ∧
    ∀ t p, Hit.hole t p ∈ f.hits → OnGrid metric24.format (p.1 + 5 / 2) ∧ OnGrid metric24.format (p.2 + (-3)) := by
  refine ⟨_, rfl, plainB_sound (by decide +kernel), oneSizeB_sound (by decide +kernel), by decide +kernel, ?_⟩
  have key : ∀ l : List Hit, (l.all fun h => match h with
      | .hole _ p => onGridB metric24.format (p.1 + 5 / 2) && onGridB metric24.format (p.2 + (-3))
      | .slot _ _ _ _ => false) = true →
      ∀ t p, Hit.hole t p ∈ l → OnGrid metric24.format (p.1 + 5 / 2) ∧ OnGrid metric24.format (p.2 + (-3)) := by
    intro l h t p hm
    have := List.all_eq_true.1 h _ hm
    simp only [Bool.and_eq_true] at this
    exact ⟨onGridB_sound this.1, onGridB_sound this.2⟩
  exact key _ (by decide +kernel)

/-- **C86 fails** for offsets that do not fit the number format: 0.00001 mm are lost, and 101 mm are read as 10.1 mm. -/
theorem C86_drill_format_violated :
    drilledMoved (1 / 100000) 100 (prog ["M48", "METRIC,LZ", "T01C0.5", "%", "T01", "X01Y01", "M30"]) =
      .ok ([(.hole (1, 1), some (1 / 2))],
        prog ["M48", "METRIC,LZ", "T01C0.5000", "%", "T01", "X01Y101", "M30"],
        [(.hole (1, 101 / 10), some (1 / 2))]) := by
  decide +kernel

end Verif.Excellon
