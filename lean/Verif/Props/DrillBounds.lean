import Verif.Model.DrillBounds
import Verif.Props.ExcellonHoles

/-! # C89: the bounds the parser of drill files reports -/

namespace Verif.Excellon
open Verif.Py Verif.Cam Verif.Excellon.Spec

/-! ## Specification -/

/-- The coordinates given for an axis. -/
def givenX (l : List Stmt) : List ℚ := l.filterMap fun s => match s.kind with
  | .coord x _ _ => x
  | _ => none

def givenY (l : List Stmt) : List ℚ := l.filterMap fun s => match s.kind with
  | .coord _ y _ => y
  | _ => none

/-- A statement of a file that uses absolute coordinates for holes only. -/
def absoluteOnly : Kind → Bool
  | .incr mode => decide (mode ≠ "on")
  | .rep _ _ _ => false
  | .slot _ _ _ _ => false
  | _ => true

/-- The first coordinates give both axes. -/
def beginsWithBoth : List Stmt → Bool
  | [] => true
  | s :: l => match s.kind with
    | .coord x y _ => x.isSome && y.isSome
    | _ => beginsWithBoth l

/-! ## Lemmas -/

theorem widen_foldl (l : List (Option ℚ)) (b : ℚ × ℚ) :
    (∀ v, some v ∈ l → (l.foldl widen b).1 ≤ v ∧ v ≤ (l.foldl widen b).2) ∧
    (l.foldl widen b).1 ≤ b.1 ∧ b.2 ≤ (l.foldl widen b).2 ∧
    ((l.foldl widen b).1 = b.1 ∨ some (l.foldl widen b).1 ∈ l) ∧
    ((l.foldl widen b).2 = b.2 ∨ some (l.foldl widen b).2 ∈ l) := by
  induction l generalizing b with
  | nil => simp
  | cons o l ih =>
    cases o with
    | none =>
      obtain ⟨h1, h2, h3, h4, h5⟩ := ih b
      refine ⟨fun v hv => h1 v (by simpa using hv), h2, h3, ?_, ?_⟩
      · rcases h4 with h | h
        · exact .inl h
        · exact .inr (List.mem_cons_of_mem _ h)
      · rcases h5 with h | h
        · exact .inl h
        · exact .inr (List.mem_cons_of_mem _ h)
    | some w =>
      obtain ⟨h1, h2, h3, h4, h5⟩ := ih (widen b (some w))
      have e1 : (widen b (some w)).1 ≤ w ∧ (widen b (some w)).1 ≤ b.1 ∧
          ((widen b (some w)).1 = b.1 ∨ (widen b (some w)).1 = w) := by
        simp only [widen, lessOr]
        split
        · rename_i h; exact ⟨le_refl _, h.le, .inr rfl⟩
        · rename_i h; exact ⟨not_lt.1 h, le_refl _, .inl rfl⟩
      have e2 : w ≤ (widen b (some w)).2 ∧ b.2 ≤ (widen b (some w)).2 ∧
          ((widen b (some w)).2 = b.2 ∨ (widen b (some w)).2 = w) := by
        simp only [widen, moreOr]
        split
        · rename_i h; exact ⟨le_refl _, h.le, .inr rfl⟩
        · rename_i h; exact ⟨not_lt.1 h, le_refl _, .inl rfl⟩
      rw [List.foldl_cons]
      refine ⟨fun v hv => ?_, h2.trans e1.2.1, e2.2.1.trans h3, ?_, ?_⟩
      · rcases List.mem_cons.1 hv with hv | hv
        · cases hv
          exact ⟨h2.trans e1.1, e2.1.trans h3⟩
        · exact h1 v hv
      · rcases h4 with h | h
        · rcases e1.2.2 with h' | h'
          · exact .inl (h.trans h')
          · exact .inr (by rw [h, h']; simp)
        · exact .inr (List.mem_cons_of_mem _ h)
      · rcases h5 with h | h
        · rcases e2.2.2 with h' | h'
          · exact .inl (h.trans h')
          · exact .inr (by rw [h, h']; simp)
        · exact .inr (List.mem_cons_of_mem _ h)

theorem foldl_axes (l : List (Option ℚ × Option ℚ)) (b : (ℚ × ℚ) × (ℚ × ℚ)) :
    l.foldl (fun b c => (widen b.1 c.1, widen b.2 c.2)) b =
      ((l.map (·.1)).foldl widen b.1, (l.map (·.2)).foldl widen b.2) := by
  induction l generalizing b with
  | nil => rfl
  | cons c l ih => rw [List.foldl_cons, ih]; rfl

theorem mem_givenX (l : List Stmt) (v : ℚ) : some v ∈ (coordinates l).map (·.1) ↔ v ∈ givenX l := by
  unfold coordinates givenX
  induction l with
  | nil => simp
  | cons s l ih =>
    obtain ⟨u, k⟩ := s
    cases k with
    | coord x y m =>
      cases x with
      | none => simpa using ih
      | some w => simpa [eq_comm] using or_congr_right ih
    | _ => simpa using ih

theorem mem_givenY (l : List Stmt) (v : ℚ) : some v ∈ (coordinates l).map (·.2) ↔ v ∈ givenY l := by
  unfold coordinates givenY
  induction l with
  | nil => simp
  | cons s l ih =>
    obtain ⟨u, k⟩ := s
    cases k with
    | coord x y m =>
      cases y with
      | none => simpa using ih
      | some w => simpa [eq_comm] using or_congr_right ih
    | _ => simpa using ih

/-- Where a machine drills that executes absolute coordinates only: at the origin or at a coordinate that was given. -/
theorem all_given {P Q : ℚ → Prop} (l : List Stmt) (ha : ∀ s ∈ l, absoluteOnly s.kind = true)
    (hx : ∀ v ∈ givenX l, P v) (hy : ∀ v ∈ givenY l, Q v) (m : Mach) (hm : m.incremental = false) (hp : P m.pos.1)
    (hq : Q m.pos.2) : ∀ p, Feature.hole p ∈ m.all (l.map (·.kind)) → P p.1 ∧ Q p.2 := by
  induction l generalizing m with
  | nil => intro p hp; cases hp
  | cons s l ih =>
    intro p hmem
    obtain ⟨u, k⟩ := s
    have hk := ha ⟨u, k⟩ (by simp)
    have hx' : ∀ v ∈ givenX l, P v := fun v hv => hx v (by
      unfold givenX at hv ⊢
      rw [List.filterMap_cons]
      split
      · exact hv
      · exact List.mem_cons_of_mem _ hv)
    have hy' : ∀ v ∈ givenY l, Q v := fun v hv => hy v (by
      unfold givenY at hv ⊢
      rw [List.filterMap_cons]
      split
      · exact hv
      · exact List.mem_cons_of_mem _ hv)
    have rest : (m.next k).incremental = false → P (m.next k).pos.1 → Q (m.next k).pos.2 →
        Feature.hole p ∈ (m.next k).all (l.map (·.kind)) → P p.1 ∧ Q p.2 :=
      fun h1 h2 h3 => ih (fun s hs => ha s (by simp [hs])) hx' hy' (m.next k) h1 h2 h3 p
    rw [List.map_cons, Mach.all, List.mem_append] at hmem
    cases k with
    | coord x y mode =>
      have ex : P (axis m.incremental m.pos.1 x) := by
        cases x with
        | none => exact hp
        | some v => rw [hm]; exact hx v (by simp [givenX])
      have ey : Q (axis m.incremental m.pos.2 y) := by
        cases y with
        | none => exact hq
        | some v => rw [hm]; exact hy v (by simp [givenY])
      rcases hmem with hmem | hmem
      · cases mode with
        | none =>
          simp only [Mach.makes] at hmem
          split at hmem
          · simp at hmem
          · split at hmem
            · simp only [List.mem_singleton, Feature.hole.injEq] at hmem
              rw [hmem]
              exact ⟨ex, ey⟩
            · cases hmem
        | some mode =>
          simp only [Mach.makes] at hmem
          split at hmem
          · simp at hmem
          · cases hmem
      · cases mode with
        | none => exact rest hm ex ey hmem
        | some mode => exact rest hm ex ey hmem
    | rep n dx dy => cases hk
    | slot a b c d => cases hk
    | incr mode =>
      rcases hmem with hmem | hmem
      · cases hmem
      · refine rest ?_ hp hq hmem
        simpa [absoluteOnly, Mach.next] using hk
    | comment t =>
      rcases hmem with hmem | hmem
      · cases hmem
      · refine rest ?_ ?_ ?_ hmem <;> · simp only [Mach.next]; split <;> assumption
    | _ =>
      rcases hmem with hmem | hmem
      · cases hmem
      · first
          | exact rest hm hp hq hmem
          | exact rest rfl hp hq hmem

/-- The same if the first coordinates give both axes. -/
theorem all_given_first {P Q : ℚ → Prop} (l : List Stmt) (ha : ∀ s ∈ l, absoluteOnly s.kind = true)
    (hx : ∀ v ∈ givenX l, P v) (hy : ∀ v ∈ givenY l, Q v) (hf : beginsWithBoth l = true) (m : Mach)
    (hm : m.incremental = false) : ∀ p, Feature.hole p ∈ m.all (l.map (·.kind)) → P p.1 ∧ Q p.2 := by
  induction l generalizing m with
  | nil => intro p hp; cases hp
  | cons s l ih =>
    intro p hmem
    obtain ⟨u, k⟩ := s
    have hk := ha ⟨u, k⟩ (by simp)
    have rest : givenX (⟨u, k⟩ :: l) = givenX l → givenY (⟨u, k⟩ :: l) = givenY l → beginsWithBoth l = true →
        (m.next k).incremental = false → Feature.hole p ∈ (m.next k).all (l.map (·.kind)) → P p.1 ∧ Q p.2 :=
      fun e1 e2 h1 h2 => ih (fun s hs => ha s (by simp [hs])) (e1 ▸ hx) (e2 ▸ hy) h1 (m.next k) h2 p
    cases k with
    | coord x y mode =>
      cases x with
      | none => cases hf
      | some v =>
        cases y with
        | none => cases hf
        | some w =>
          have e : m.all ((⟨u, .coord (some v) (some w) mode⟩ :: l : List Stmt).map (·.kind)) = [] ∨
              ∀ q, Feature.hole q ∈ m.all ((⟨u, .coord (some v) (some w) mode⟩ :: l : List Stmt).map (·.kind)) →
                Feature.hole q ∈ ({ m with pos := (v, w) } : Mach).all
                  ((⟨u, .coord (some v) (some w) mode⟩ :: l : List Stmt).map (·.kind)) := by
            right
            intro q hq
            rw [List.map_cons, Mach.all, List.mem_append] at hq ⊢
            have en : ({ m with pos := (v, w) } : Mach).next (.coord (some v) (some w) mode) =
                m.next (.coord (some v) (some w) mode) := by
              cases mode <;> simp [Mach.next, Mach.goto, axis, hm]
            rw [en]
            refine hq.imp_left fun hq => ?_
            cases mode with
            | none =>
              simp only [Mach.makes] at hq ⊢
              split at hq
              · simp at hq
              · rename_i hc
                rw [if_neg hc]
                simpa [Mach.goto, axis, hm] using hq
            | some mode =>
              simp only [Mach.makes] at hq
              split at hq
              · simp at hq
              · cases hq
          rcases e with e | e
          · rw [e] at hmem; cases hmem
          · exact all_given (P := P) (Q := Q) _ ha hx hy { m with pos := (v, w) } hm (hx v (by simp [givenX]))
              (hy w (by simp [givenY])) p (e p hmem)
    | rep n dx dy => cases hk
    | slot a b c d => cases hk
    | incr mode =>
      rw [List.map_cons, Mach.all, List.mem_append] at hmem
      rcases hmem with hmem | hmem
      · cases hmem
      · refine rest rfl rfl hf ?_ hmem
        simpa [absoluteOnly, Mach.next] using hk
    | comment t =>
      rw [List.map_cons, Mach.all, List.mem_append] at hmem
      rcases hmem with hmem | hmem
      · cases hmem
      · refine rest rfl rfl hf ?_ hmem
        simp only [Mach.next]
        split <;> assumption
    | _ =>
      rw [List.map_cons, Mach.all, List.mem_append] at hmem
      rcases hmem with hmem | hmem
      · cases hmem
      · first
          | exact rest rfl rfl hf hm hmem
          | exact rest rfl rfl hf rfl hmem

theorem parserBounds_holds (l : List Stmt) :
    (∀ v ∈ givenX l, (parserBounds l).1.1 ≤ v ∧ v ≤ (parserBounds l).1.2) ∧
      ∀ v ∈ givenY l, (parserBounds l).2.1 ≤ v ∧ v ≤ (parserBounds l).2.2 := by
  unfold parserBounds
  rw [foldl_axes]
  exact ⟨fun v hv => (widen_foldl _ _).1 v ((mem_givenX _ _).2 hv),
    fun v hv => (widen_foldl _ _).1 v ((mem_givenY _ _).2 hv)⟩

/-! ## C89 -/

/-- The bounds are the smallest and the largest coordinate given for each axis, if one is given and none exceeds the
numbers the search begins with. -/
theorem C89_bounds {l : List Stmt} (hx : givenX l ≠ []) (hy : givenY l ≠ [])
    (h : ∀ v, v ∈ givenX l ∨ v ∈ givenY l → |v| ≤ 100000000000) :
    (parserBounds l).1.1 ∈ givenX l ∧ (parserBounds l).1.2 ∈ givenX l ∧
      (∀ v ∈ givenX l, (parserBounds l).1.1 ≤ v ∧ v ≤ (parserBounds l).1.2) ∧
      (parserBounds l).2.1 ∈ givenY l ∧ (parserBounds l).2.2 ∈ givenY l ∧
      ∀ v ∈ givenY l, (parserBounds l).2.1 ≤ v ∧ v ≤ (parserBounds l).2.2 := by
  unfold parserBounds
  rw [foldl_axes]
  have key : ∀ (cs : List (Option ℚ)) (g : List ℚ), (∀ v, some v ∈ cs ↔ v ∈ g) → g ≠ [] →
      (∀ v ∈ g, |v| ≤ 100000000000) →
      (cs.foldl widen (100000000000, -100000000000)).1 ∈ g ∧ (cs.foldl widen (100000000000, -100000000000)).2 ∈ g ∧
      ∀ v ∈ g, (cs.foldl widen (100000000000, -100000000000)).1 ≤ v ∧
        v ≤ (cs.foldl widen (100000000000, -100000000000)).2 := by
    intro cs g hg hne hle
    obtain ⟨h1, h2, h3, h4, h5⟩ := widen_foldl cs (100000000000, -100000000000)
    obtain ⟨v, g', rfl⟩ := List.exists_cons_of_ne_nil hne
    have hv := h1 v ((hg v).2 (by simp))
    have hle' := abs_le.1 (hle v (by simp))
    refine ⟨?_, ?_, fun v hv => h1 v ((hg v).2 hv)⟩
    · rcases h4 with e | e
      · simp only at e
        rw [e] at hv ⊢
        rw [le_antisymm hv.1 hle'.2]
        simp
      · exact (hg _).1 e
    · rcases h5 with e | e
      · simp only at e
        rw [e] at hv ⊢
        rw [le_antisymm hle'.1 hv.2]
        simp
      · exact (hg _).1 e
  obtain ⟨a1, a2, a3⟩ := key _ _ (mem_givenX l) hx fun v hv => h v (.inl hv)
  obtain ⟨b1, b2, b3⟩ := key _ _ (mem_givenY l) hy fun v hv => h v (.inr hv)
  exact ⟨a1, a2, a3, b1, b2, b3⟩

/-- **C89.**  In a file with absolute coordinates, without repeated holes and slots, every hole lies in the bounds, or on
an axis if that axis was not given. -/
theorem C89_holes_partial {settings : Option FileSettings} {ext : List (ℤ × Tool)} {data : Str} {f : XFile}
    (h : parseRaw settings ext data = .ok f) (hi : startsIncremental settings = false)
    (ha : ∀ s ∈ f.statements, absoluteOnly s.kind = true) {t : Option ℕ} {p : ℚ × ℚ} (hp : Hit.hole t p ∈ f.hits) :
    (p.1 = 0 ∨ (parserBounds f.statements).1.1 ≤ p.1 ∧ p.1 ≤ (parserBounds f.statements).1.2) ∧
      (p.2 = 0 ∨ (parserBounds f.statements).2.1 ≤ p.2 ∧ p.2 ≤ (parserBounds f.statements).2.2) := by
  have hm : Feature.hole p ∈ f.hits.map Hit.feature := List.mem_map.2 ⟨_, hp, rfl⟩
  rw [C24_holes_follow_statements h] at hm
  refine all_given (P := fun v => v = 0 ∨ (parserBounds f.statements).1.1 ≤ v ∧ v ≤ (parserBounds f.statements).1.2)
    (Q := fun v => v = 0 ∨ (parserBounds f.statements).2.1 ≤ v ∧ v ≤ (parserBounds f.statements).2.2)
    f.statements ha ?_ ?_ _ hi (.inl rfl) (.inl rfl) p hm
  · exact fun v hv => .inr ((parserBounds_holds _).1 v hv)
  · exact fun v hv => .inr ((parserBounds_holds _).2 v hv)

/-- **C89.**  If the first coordinates of such a file give both axes, every hole lies in the bounds. -/
theorem C89_first_partial {settings : Option FileSettings} {ext : List (ℤ × Tool)} {data : Str} {f : XFile}
    (h : parseRaw settings ext data = .ok f) (hi : startsIncremental settings = false)
    (ha : ∀ s ∈ f.statements, absoluteOnly s.kind = true) (hf : beginsWithBoth f.statements = true)
    {t : Option ℕ} {p : ℚ × ℚ} (hp : Hit.hole t p ∈ f.hits) :
    ((parserBounds f.statements).1.1 ≤ p.1 ∧ p.1 ≤ (parserBounds f.statements).1.2) ∧
      (parserBounds f.statements).2.1 ≤ p.2 ∧ p.2 ≤ (parserBounds f.statements).2.2 := by
  have hm : Feature.hole p ∈ f.hits.map Hit.feature := List.mem_map.2 ⟨_, hp, rfl⟩
  rw [C24_holes_follow_statements h] at hm
  exact all_given_first (P := fun v => (parserBounds f.statements).1.1 ≤ v ∧ v ≤ (parserBounds f.statements).1.2)
    (Q := fun v => (parserBounds f.statements).2.1 ≤ v ∧ v ≤ (parserBounds f.statements).2.2)
    f.statements ha (parserBounds_holds _).1 (parserBounds_holds _).2 hf _ hi p hm

/-! ## Examples and violations -/

/-- The holes and the bounds of a program read without settings. -/
def boundsOf (l : List String) : Option (List Hit × (ℚ × ℚ) × (ℚ × ℚ)) :=
  match parseRaw none [] (prog l) with
  | .ok f => some (f.hits, parserBounds f.statements)
  | .error _ => none

-- the hypotheses of C89_holes_partial, C89_first_partial and C89_bounds
example : ∃ f, parseRaw none [] (prog ["M48", "INCH,LZ", "T01C0.020", "%", "T01", "X01Y02", "Y03", "X-01", "M30"]) = .ok f ∧
    startsIncremental none = false ∧ (∀ s ∈ f.statements, absoluteOnly s.kind = true) ∧
    beginsWithBoth f.statements = true ∧ givenX f.statements = [1, -1] ∧ givenY f.statements = [2, 3] ∧
    parserBounds f.statements = ((-1, 1), (2, 3)) ∧
    f.hits = [.hole (some 0) (1, 2), .hole (some 0) (1, 3), .hole (some 0) (-1, 3)] :=
  ⟨_, rfl, by decide +kernel, by decide +kernel, by decide +kernel, by decide +kernel, by decide +kernel,
    by decide +kernel, by decide +kernel⟩

/-- **C89 fails** in incremental notation: distances are taken for positions. -/
theorem C89_incremental_violated :
    boundsOf ["M48", "INCH,LZ", "T01C0.020", "%", "T01", "ICI,ON", "X01Y01", "X01Y01", "M30"] =
      some ([.hole (some 0) (1, 1), .hole (some 0) (2, 2)], (1, 1), (1, 1)) := by
  decide +kernel

/-- **C89 fails** for repeated holes. -/
theorem C89_repeat_violated :
    boundsOf ["M48", "INCH,LZ", "T01C0.020", "%", "T01", "X01Y02", "R2X1.5", "M30"] =
      some ([.hole (some 0) (1, 2), .hole (some 0) (5 / 2, 2), .hole (some 0) (4, 2)], (1, 1), (2, 2)) := by
  decide +kernel

/-- **C89 fails** for slots. -/
theorem C89_slot_violated :
    boundsOf ["M48", "INCH,LZ", "T01C0.020", "%", "T01", "X01Y01", "X03Y03G85X04Y03", "M30"] =
      some ([.hole (some 0) (1, 1), .slot (some 0) (some 3, some 3) (some 4, some 3) true], (1, 1), (1, 1)) := by
  decide +kernel

/-- **C89 fails** if the first coordinates omit an axis: that hole is at 0. -/
theorem C89_omitted_violated :
    boundsOf ["M48", "INCH,LZ", "T01C0.020", "%", "T01", "Y02", "X03", "M30"] =
      some ([.hole (some 0) (0, 2), .hole (some 0) (3, 2)], (3, 3), (2, 2)) := by
  decide +kernel

/-- **C89 fails** without coordinates: the numbers the search begins with are reported, upside down. -/
theorem C89_empty_violated :
    boundsOf ["M48", "INCH,LZ", "T01C0.020", "%", "M30"] =
      some ([], (100000000000, -100000000000), (100000000000, -100000000000)) := by
  decide +kernel

end Verif.Excellon
