import Verif.Props.PrimUnits
import Verif.Props.Operations
import Verif.Props.ExcellonEdit

/-! # C101: moving and converting may change places -/

namespace Verif.Geom

/-! ## Primitives -/

theorem offset_changed (dx dy : ℝ) (o : Obj) (hc : ¬ Container o.kind) : (o.offset dx dy).changed =
    { o with
      pts := fun a => if a ∈ ptConvert o.kind then (o.pts a).map (shift dx dy) else o.pts a
      box := none, vertices := none, segs := none } := by
  have hs : ∀ (x : Obj) (a : PA) (v : Option RPt), (x.setPt a v).changed =
      { x.changed with pts := Function.update x.pts a v } := by
    intro x a v
    unfold Obj.setPt
    simp only
    split <;> rfl
  have hpc : ∀ x : Obj, x.changed.pts = x.pts := fun _ => rfl
  have hp : (o.offset dx dy).pts = fun a => if a ∈ ptConvert o.kind then (o.pts a).map (shift dx dy) else o.pts a := by
    funext a
    unfold Obj.offset
    revert hc
    cases o.kind <;> cases a <;> simp [ptConvert, setPt_pts, Obj.changed, Container]
  have hf := fixed_ownOffset o dx dy
  rw [← hp]
  revert hf
  generalize o.offset dx dy = u
  intro hf
  cases u; cases o
  simp only [Obj.fixed, Obj.changed, Obj.mk.injEq] at hf ⊢
  simp_all

theorem offset_converted {f : ℝ → ℝ} (hf : ∀ a b, f (a + b) = f a + f b) {u : String} (dx dy : ℝ) {o o' : Obj}
    (hc : ¬ Container o.kind) (h : o'.changed = (o.convertOwn f u).changed) :
    (o'.offset (f dx) (f dy)).changed = ((o.offset dx dy).convertOwn f u).changed := by
  have hk : o'.kind = o.kind := by
    have := congrArg Obj.kind h
    rwa [convertOwn_eq] at this
  rw [offset_changed _ _ _ (by rwa [hk])]
  have e : (o.offset dx dy).convertOwn f u = Obj.convertOwn f u { o with
      pts := fun a => if a ∈ ptConvert o.kind then (o.pts a).map (shift dx dy) else o.pts a
      box := none, vertices := none, segs := none } := convertOwn_congr (offset_changed dx dy o hc)
  rw [e]
  rw [convertOwn_eq] at h ⊢
  have hpt : (fun a => if a ∈ ptConvert o'.kind then (o'.pts a).map (shift (f dx) (f dy)) else o'.pts a) = fun a =>
      if a ∈ ptConvert o.kind then
        (if a ∈ ptConvert o.kind then (o.pts a).map (shift dx dy) else o.pts a).map fun p => (f p.1, f p.2)
      else if a ∈ ptConvert o.kind then (o.pts a).map (shift dx dy) else o.pts a := by
    funext a
    have := congrFun (congrArg Obj.pts h) a
    simp only [Obj.changed] at this
    rw [hk, this]
    by_cases ha : a ∈ ptConvert o.kind
    · simp only [if_pos ha]
      cases o.pts a <;> simp [shift, hf]
    · simp only [if_neg ha]
  rw [hpt]
  cases o; cases o'
  simp only [Obj.changed, Obj.mk.injEq] at h ⊢
  simp_all

theorem sameAttr_update {h h' : Heap} (hh : SameAttr h h') {i : ℕ} {o o' : Obj} (e : o'.changed = o.changed) :
    SameAttr (Function.update h i o) (Function.update h' i o') := by
  intro k
  by_cases hk : k = i
  · subst hk; simpa using e
  · rw [Function.update_of_ne hk, Function.update_of_ne hk]; exact hh k

theorem converted_update (f : ℝ → ℝ) (dst : String) (h : Heap) {D : Set ℕ} {i : ℕ} (hi : i ∈ D) (o : Obj) :
    converted f dst (Function.update h i o) D = Function.update (converted f dst h D) i (o.convertOwn f dst) := by
  funext k
  by_cases hk : k = i
  · subst hk; simp [converted, hi]
  · rw [Function.update_of_ne hk, converted, converted, Function.update_of_ne hk]

theorem offset_group (a b : ℝ) (n : ℕ) (h : Heap) (i : ℕ) (hg : (h i).kind = .amGroup) : offset a b (n + 1) h i =
    match (h i).pts .position with
    | none => h
    | some p => (h i).parts.foldl (offset a b n)
        (Function.update h i { h i with pts := Function.update (h i).pts .position (some (shift a b p)) }) := by
  rw [offset]
  split
  · rfl
  all_goals simp_all

/-- Moving before and after the conversion of a set of objects. -/
theorem offset_sim {f : ℝ → ℝ} (hf : ∀ a b, f (a + b) = f a + f b) {dst : String} {D T : Set ℕ} {h0 : Heap}
    (hT : ∀ k ∈ T, k ∈ D) (hp : ∀ k ∈ T, Container (h0 k).kind → ∀ j ∈ (h0 k).parts, j ∈ T) (dx dy : ℝ) (n : ℕ) :
    ∀ i ∈ T, ∀ h1 h2 : Heap, (∀ k, (h1 k).fixed = (h0 k).fixed) → SameAttr (converted f dst h1 D) h2 →
      SameAttr (converted f dst (offset dx dy n h1 i) D) (offset (f dx) (f dy) n h2 i) := by
  induction n with
  | zero => intro i _ h1 h2 _ h; exact h
  | succ n ih =>
    intro i hi h1 h2 hfix hs
    have hD := hT i hi
    have hk1 : (h1 i).kind = (h0 i).kind := by
      have := congrArg Obj.kind (hfix i)
      exact this
    have hp1 : (h1 i).parts = (h0 i).parts := by
      have := congrArg Obj.parts (hfix i)
      exact this
    have hown : (h2 i).changed = ((h1 i).convertOwn f dst).changed := by
      have := hs i
      rwa [converted, if_pos hD] at this
    have hk2 : (h2 i).kind = (h1 i).kind := by
      have := congrArg Obj.kind hown
      rwa [convertOwn_eq] at this
    have hp2 : (h2 i).parts = (h1 i).parts := by
      have := congrArg Obj.parts hown
      rwa [convertOwn_eq] at this
    have fold : ∀ (l : List ℕ), (∀ j ∈ l, j ∈ T) → ∀ g1 g2 : Heap, (∀ k, (g1 k).fixed = (h0 k).fixed) →
        SameAttr (converted f dst g1 D) g2 →
        SameAttr (converted f dst (l.foldl (offset dx dy n) g1) D) (l.foldl (offset (f dx) (f dy) n) g2) := by
      intro l
      induction l with
      | nil => intro _ g1 g2 _ h; exact h
      | cons j l ihl =>
        intro hl g1 g2 hg h
        exact ihl (fun j' hj' => hl j' (List.mem_cons_of_mem _ hj')) _ _
          (fun k => (fixed_offset j k).trans (hg k)) (ih j (hl j List.mem_cons_self) g1 g2 hg h)
    have hparts : Container (h1 i).kind → ∀ j ∈ (h1 i).parts, j ∈ T := by
      rw [hk1, hp1]; exact hp i hi
    by_cases hg : (h1 i).kind = .amGroup
    · have hg2 : (h2 i).kind = .amGroup := hk2.trans hg
      have hpos : (h2 i).pts .position = ((h1 i).pts .position).map fun p => (f p.1, f p.2) := by
        have := congrFun (congrArg Obj.pts hown) .position
        rw [convertOwn_eq] at this
        simpa [Obj.changed, hg, ptConvert] using this
      rw [offset_group _ _ _ _ _ hg, offset_group _ _ _ _ _ hg2]
      cases hq : (h1 i).pts .position with
      | none => rw [hpos, hq]; exact hs
      | some p =>
        rw [hpos, hq]
        simp only [Option.map_some]
        rw [hp2]
        refine fold _ (hparts (.inl hg)) _ _ ?_ ?_
        · intro k
          refine Eq.trans ?_ (hfix k)
          apply fixed_update
          rfl
        · rw [converted_update f dst h1 hD]
          refine sameAttr_update hs ?_
          rw [convertOwn_eq] at hown ⊢
          have e : Function.update (h2 i).pts .position (some (shift (f dx) (f dy) (f p.1, f p.2))) = fun a =>
              if a ∈ ptConvert (h1 i).kind then
                (Function.update (h1 i).pts .position (some (shift dx dy p)) a).map fun p => (f p.1, f p.2)
              else Function.update (h1 i).pts .position (some (shift dx dy p)) a := by
            funext a
            have := congrFun (congrArg Obj.pts hown) a
            simp only [Obj.changed] at this
            rw [hg] at this ⊢
            cases a <;> simp [ptConvert, Function.update, this, shift, hf]
          revert hown e
          generalize h2 i = o2
          generalize h1 i = o1
          intro hown e
          cases o1; cases o2
          simp only [Obj.changed, Obj.mk.injEq] at hown e ⊢
          simp_all
    · by_cases hc : Container (h1 i).kind
      · have hc' : (h1 i).kind = .outline ∨ (h1 i).kind = .region := by
          rcases hc with h | h
          · exact absurd h hg
          · exact h
        have e1 : ∀ (a b : ℝ) (h : Heap), ((h i).kind = .outline ∨ (h i).kind = .region) → offset a b (n + 1) h i =
            (h i).parts.foldl (offset a b n) (Function.update h i (h i).changed) := by
          intro a b h hh
          rcases hh with hh | hh <;> simp only [offset, hh]
        rw [e1 _ _ _ hc', e1 _ _ _ (by rwa [hk2]), hp2]
        refine fold _ (hparts hc) _ _ ?_ ?_
        · intro k
          refine Eq.trans ?_ (hfix k)
          apply fixed_update
          rfl
        · rw [converted_update f dst h1 hD]
          refine sameAttr_update hs ?_
          rw [convertOwn_congr (f := f) (u := dst) (show (h1 i).changed.changed = (h1 i).changed from rfl)]
          exact hown
      · have e1 : ∀ (a b : ℝ) (h : Heap), ¬ Container (h i).kind → offset a b (n + 1) h i =
            Function.update h i ((h i).offset a b) := by
          intro a b h hh
          simp only [offset]
          split
          · rename_i hk; exact absurd (.inl hk) hh
          · rename_i hk; exact absurd (.inr (.inl hk)) hh
          · rename_i hk; exact absurd (.inr (.inr hk)) hh
          · rfl
        rw [e1 _ _ _ hc, e1 _ _ _ (by rwa [hk2]), converted_update f dst h1 hD]
        exact sameAttr_update hs (offset_converted hf dx dy hc hown)

theorem offsetAll_sim {f : ℝ → ℝ} (hf : ∀ a b, f (a + b) = f a + f b) {dst : String} {D T : Set ℕ} {h0 : Heap}
    (hT : ∀ k ∈ T, k ∈ D) (hp : ∀ k ∈ T, Container (h0 k).kind → ∀ j ∈ (h0 k).parts, j ∈ T) (dx dy : ℝ) (n : ℕ) :
    ∀ (l : List ℕ), (∀ i ∈ l, i ∈ T) → ∀ h1 h2 : Heap, (∀ k, (h1 k).fixed = (h0 k).fixed) →
      SameAttr (converted f dst h1 D) h2 →
      SameAttr (converted f dst (l.foldl (offset dx dy n) h1) D) (l.foldl (offset (f dx) (f dy) n) h2) := by
  intro l
  induction l with
  | nil => intro _ h1 h2 _ h; exact h
  | cons i l ih =>
    intro hl h1 h2 hg h
    exact ih (fun j hj => hl j (List.mem_cons_of_mem _ hj)) _ _ (fun k => (fixed_offset i k).trans (hg k))
      (offset_sim hf hT hp dx dy n i (hl i List.mem_cons_self) h1 h2 hg h)

theorem fixed_offsetAll (dx dy : ℝ) (n : ℕ) (l : List ℕ) : ∀ (h : Heap) (k : ℕ),
    (l.foldl (offset dx dy n) h k).fixed = (h k).fixed := by
  induction l with
  | nil => intro h k; rfl
  | cons i l ih => intro h k; exact (ih _ k).trans (fixed_offset i k)

theorem reach_fixed {h h' : Heap} (hh : ∀ k, (h' k).fixed = (h k).fixed) {src : String} {i k : ℕ} (r : Reach h src i k) :
    Reach h' src i k := by
  have hu : ∀ k, (h' k).units = (h k).units := by
    intro k
    have := congrArg Obj.units (hh k)
    exact this
  have hc : ∀ k, (h' k).children = (h k).children := by
    intro k
    have h1 := congrArg Obj.kind (hh k)
    have h2 := congrArg Obj.aperture (hh k)
    have h3 := congrArg Obj.parts (hh k)
    simp only [Obj.fixed] at h1 h2 h3
    simp only [Obj.children, h1, h2, h3]
  induction r with
  | self h => exact .self (by rwa [hu])
  | child h hj _ ih => exact .child (by rwa [hu]) (by rwa [hc]) ih

/-- Moving the primitives of a file and then converting them is converting and then moving by the converted distance. -/
theorem convert_offset_file {f : ℝ → ℝ} (hf : ∀ a b, f (a + b) = f a + f b) {src dst : String} (hne : src ≠ dst) {h : Heap}
    {rank : ℕ → ℕ} {n : ℕ} {l : List ℕ} (hrank : ∀ k j, Owns (h k) j → rank j < rank k) (hn : ∀ i ∈ l, rank i < n)
    (hun : ∀ k, InFile h l k → (h k).units = some src)
    (h1 : ∀ k, InFile h l k → (h k).kind ∈ [Kind.amGroup, .outline, .region] → (h k).parts.length ≠ 1) (dx dy : ℝ) :
    SameAttr (l.foldl (convert f src dst n) (l.foldl (offset dx dy n) h))
      (l.foldl (offset (f dx) (f dy) n) (l.foldl (convert f src dst n) h)) := by
  have hch : ∀ k, ∀ j ∈ (h k).children, rank j < rank k := fun k j hj => hrank k j (owns_of_children hj)
  have hfx := fixed_offsetAll dx dy n l h
  have a := convertAll_spec (f := f) hne hch n l hn (SameAttr.refl h)
  have hch' : ∀ k, ∀ j ∈ (l.foldl (offset dx dy n) h k).children, rank j < rank k := by
    intro k j hj
    have h1 := congrArg Obj.kind (hfx k)
    have h2 := congrArg Obj.aperture (hfx k)
    have h3 := congrArg Obj.parts (hfx k)
    simp only [Obj.fixed] at h1 h2 h3
    refine hch k j ?_
    simp only [Obj.children, h1, h2, h3] at hj
    exact hj
  have b := convertAll_spec (f := f) hne hch' n l hn (SameAttr.refl _)
  have hset : {k | ∃ i ∈ l, Reach (l.foldl (offset dx dy n) h) src i k} = fileSet h src l := by
    ext k
    constructor
    · rintro ⟨i, hi, r⟩; exact ⟨i, hi, reach_fixed (fun k => (hfx k).symm) r⟩
    · rintro ⟨i, hi, r⟩; exact ⟨i, hi, reach_fixed hfx r⟩
  rw [hset] at b
  have c := offsetAll_sim hf (dst := dst) (D := fileSet h src l) (T := {k | InFile h l k}) (h0 := h)
    (fun k hk => mem_fileSet hun h1 hk) (by
      intro k hk hc j hj
      refine InFile.part hk ?_
      rcases hc with hc | hc | hc
      · exact .groupPart hc hj
      · exact .outlinePart hc hj
      · exact .regionPart hc hj) dx dy n l (fun i hi => InFile.root hi) h _ (fun _ => rfl) a
  exact fun k => (c k).trans (b k).symm

end Verif.Geom

namespace Verif.Gerber
open Verif.Py Verif.Utils

/-! ## Statements of Gerber files -/

theorem inchToMetric_offset (dx dy : ℚ) (s : Stmt) :
    (s.offset dx dy).inchToMetric = s.inchToMetric.offset (dx * (254 / 10)) (dy * (254 / 10)) := by
  cases s <;> simp [Stmt.offset, Stmt.inchToMetric, Coord.offset, metric, mmPerInch, add_mul, Option.map_map, Function.comp_def]

theorem metricToInch_offset (dx dy : ℚ) (s : Stmt) :
    (s.offset dx dy).metricToInch = s.metricToInch.offset (dx / (254 / 10)) (dy / (254 / 10)) := by
  cases s <;> simp [Stmt.offset, Stmt.metricToInch, Coord.offset, inch, mmPerInch, add_div, Option.map_map, Function.comp_def]

/-- **C101** (statements).  Moving the statements of a file and converting them is converting them and moving them by the
converted distance. -/
theorem C101_statements (p : Program) (dx dy : ℚ) :
    (p.units = "inch" → (p.offset dx dy).toMetric = p.toMetric.offset (dx * (254 / 10)) (dy * (254 / 10))) ∧
    (p.units = "metric" → (p.offset dx dy).toInch = p.toInch.offset (dx / (254 / 10)) (dy / (254 / 10))) := by
  constructor
  · intro h
    simp [Program.offset, Program.toMetric, h, Function.comp_def, inchToMetric_offset]
  · intro h
    simp [Program.offset, Program.toInch, h, Function.comp_def, metricToInch_offset]

example : (Program.offset ⟨[.coord { x := some 1, op := some ['D', '0', '2'] }], "inch"⟩ 2 0).toMetric =
    ⟨[.coord { x := some (381 / 5), op := some ['D', '0', '2'] }], "metric"⟩ := by decide +kernel

/-- **C101** (moves).  Two moves of the statements are one by the sum, and a move by nothing changes nothing. -/
theorem C101_moves (p : Program) (a b c d : ℚ) :
    (p.offset a b).offset c d = p.offset (a + c) (b + d) ∧ p.offset 0 0 = p := by
  constructor
  · unfold Program.offset
    rw [List.map_map]
    congr 1
    refine List.map_congr_left fun s _ => ?_
    cases s <;> simp [Stmt.offset, Coord.offset, Option.map_map, Function.comp_def, add_assoc]
  · unfold Program.offset
    have : p.statements.map (Stmt.offset 0 0) = p.statements := by
      conv_rhs => rw [← List.map_id p.statements]
      refine List.map_congr_left fun s _ => ?_
      cases s <;> simp [Stmt.offset, Coord.offset]
    rw [this]

end Verif.Gerber

namespace Verif.Operations
open Verif.Py Verif.Geom

/-! ## Gerber files -/

/-- Statements, primitives and their objects are the same but for stored bounding boxes and corners. -/
def SameFile (a b : GFile × Heap) : Prop := a.1 = b.1 ∧ SameAttr a.2 b.2

/-- **C101** (files in inch).  Moving a Gerber file and converting it to metric gives the same statements and primitives as
converting it and moving it by the distance in millimetres.  Partial: files in which a region, outline or macro has exactly
one part are left out (`C101_single_violated`), and so are files with objects in different units. -/
theorem C101_metric_partial {f : GFile} {h : Heap} {rank : ℕ → ℕ} {n : ℕ} (hu : f.program.units = "inch")
    (hrank : ∀ k j, Owns (h k) j → rank j < rank k) (hn : ∀ i ∈ f.primitives, rank i < n)
    (hun : ∀ k, InFile h f.primitives k → (h k).units = some "inch")
    (h1 : ∀ k, InFile h f.primitives k → (h k).kind ∈ [Kind.amGroup, .outline, .region] → (h k).parts.length ≠ 1)
    (dx dy : ℚ) :
    let moved := f.offset dx dy n h
    let conv := f.toMetric n h
    SameFile (moved.1.toMetric n moved.2) (conv.1.offset (dx * (254 / 10)) (dy * (254 / 10)) n conv.2) := by
  have hs := (Gerber.C101_statements f.program dx dy).1 hu
  have hu' : (f.program.offset dx dy).units ≠ "metric" := by
    show f.program.units ≠ "metric"
    rw [hu]; decide
  have hm : f.program.units ≠ "metric" := by rw [hu]; decide
  have key := convert_offset_file (f := fun x : ℝ => x * (127 / 5)) (fun a b => by ring) (src := "inch") (dst := "metric")
    (by decide) hrank hn hun h1 dx dy
  have e : ∀ q : ℚ, (q : ℝ) * (127 / 5) = ((q * (254 / 10) : ℚ) : ℝ) := by
    intro q; push_cast; ring
  simp only [e] at key
  have ht : ∀ (g : GFile) (k : Heap), g.program.units ≠ "metric" →
      g.toMetric n k = ({ g with program := g.program.toMetric }, g.primitives.foldl (Geom.toMetric n) k) := fun g k hg => if_pos hg
  simp only
  rw [ht f h hm, ht (f.offset dx dy n h).1 _ hu']
  refine ⟨?_, key⟩
  simp only [GFile.offset, hs]

/-- **C101** (metric files).  The same for a metric file that is converted to inch. -/
theorem C101_inch_partial {f : GFile} {h : Heap} {rank : ℕ → ℕ} {n : ℕ} (hu : f.program.units = "metric")
    (hrank : ∀ k j, Owns (h k) j → rank j < rank k) (hn : ∀ i ∈ f.primitives, rank i < n)
    (hun : ∀ k, InFile h f.primitives k → (h k).units = some "metric")
    (h1 : ∀ k, InFile h f.primitives k → (h k).kind ∈ [Kind.amGroup, .outline, .region] → (h k).parts.length ≠ 1)
    (dx dy : ℚ) :
    let moved := f.offset dx dy n h
    let conv := f.toInch n h
    SameFile (moved.1.toInch n moved.2) (conv.1.offset (dx / (254 / 10)) (dy / (254 / 10)) n conv.2) := by
  have hs := (Gerber.C101_statements f.program dx dy).2 hu
  have hu' : (f.program.offset dx dy).units ≠ "inch" := by
    show f.program.units ≠ "inch"
    rw [hu]; decide
  have hm : f.program.units ≠ "inch" := by rw [hu]; decide
  have key := convert_offset_file (f := fun x : ℝ => x / (127 / 5)) (fun a b => by ring) (src := "metric") (dst := "inch")
    (by decide) hrank hn hun h1 dx dy
  have e : ∀ q : ℚ, (q : ℝ) / (127 / 5) = ((q / (254 / 10) : ℚ) : ℝ) := by
    intro q; push_cast; ring
  simp only [e] at key
  have ht : ∀ (g : GFile) (k : Heap), g.program.units ≠ "inch" →
      g.toInch n k = ({ g with program := g.program.toInch }, g.primitives.foldl (Geom.toInch n) k) := fun g k hg => if_pos hg
  simp only
  rw [ht f h hm, ht (f.offset dx dy n h).1 _ hu']
  refine ⟨?_, key⟩
  simp only [GFile.offset, hs]

-- the hypotheses of C101_inch_partial: two lines drawn with one circle
example : ∃ rank : ℕ → ℕ, (∀ k j, Owns (sharing k) j → rank j < rank k) ∧ (∀ i ∈ [1, 2], rank i < 2) ∧
    (∀ k, InFile sharing [1, 2] k → (sharing k).units = some "metric") ∧
    ∀ k, InFile sharing [1, 2] k → (sharing k).kind ∈ [Kind.amGroup, .outline, .region] → (sharing k).parts.length ≠ 1 := by
  have ho : ∀ k j, Owns (sharing k) j → (k = 1 ∨ k = 2) ∧ j = 0 := by
    intro k j h
    by_cases h0 : k = 0
    · subst h0; cases h <;> simp_all [sharing, mmCircle, blank]
    · by_cases h1 : k = 1
      · subst h1; cases h <;> simp_all [sharing, mmLine, blank]
      · by_cases h2 : k = 2
        · subst h2; cases h <;> simp_all [sharing, mmLine, blank]
        · cases h <;> simp_all [sharing, blank]
  have hi : ∀ k, InFile sharing [1, 2] k → k = 0 ∨ k = 1 ∨ k = 2 := by
    intro k h
    induction h with
    | root h => simp at h; exact .inr h
    | part _ h _ => exact .inl (ho _ _ h).2
  refine ⟨fun k => if k = 1 ∨ k = 2 then 1 else 0, ?_, by simp, ?_, ?_⟩
  · intro k j h
    obtain ⟨h1, rfl⟩ := ho k j h
    simp [h1]
  · intro k h
    rcases hi k h with rfl | rfl | rfl <;> simp [sharing, mmCircle, mmLine]
  · intro k h
    rcases hi k h with rfl | rfl | rfl <;> simp [sharing, mmCircle, mmLine, blank]

/-- A region that is one line. -/
noncomputable def oneLineRegion : Heap := fun k => if k = 1 then { blank .region none [2] with units := some "metric" } else
  if k = 2 then mmLine 0 else blank .region none []

/-- **C101 fails** for a region with one line, which moves with the region but is not converted: moved by 254 mm before the
conversion it starts at 254, moved by 10 inch after it at 10. -/
theorem C101_single_violated :
    (Geom.toInch 5 (Geom.offset 254 0 5 oneLineRegion 1) 1 2).pts .start = some (254, 0) ∧
    (Geom.offset 10 0 5 (Geom.toInch 5 oneLineRegion 1) 1 2).pts .start = some (10, 0) := by
  constructor <;>
  simp [Geom.toInch, Geom.convert, Geom.offset, oneLineRegion, mmLine, blank, Obj.children, convertOwn_eq, ptConvert, Obj.changed, Obj.offset,
      Obj.setPt, ptSetter, shift, Function.update]

end Verif.Operations

namespace Verif.Excellon
open Verif.Py Verif.Cam Verif.Utils

/-! ## Drill files -/

theorem convert_offset {from_ to_ : String} {f : ℚ → ℚ} (hf : ∀ a b, f (a + b) = f a + f b) (dx dy : ℚ) {s : Stmt}
    (hs : s.units = from_) : (s.offset dx dy).convert from_ to_ f = (s.convert from_ to_ f).offset (f dx) (f dy) := by
  obtain ⟨u, k⟩ := s
  subst hs
  cases k <;> simp [Stmt.offset, Stmt.convert, hf, Option.map_map, Function.comp_def]

theorem conv_offset {from_ to_ : String} {f : ℚ → ℚ} (hf : ∀ a b, f (a + b) = f a + f b) (dx dy : ℚ) {s : Stmt}
    (hs : s.units = from_) : (s.offset dx dy).conv from_ to_ f = (s.conv from_ to_ f).offset (f dx) (f dy) := by
  have h := convert_offset (to_ := to_) hf dx dy hs
  obtain ⟨u, k⟩ := s
  cases k <;> first | exact h | rfl

theorem offset_toolRef (dx dy : ℚ) (s : Stmt) : (s.offset dx dy).toolRef = s.toolRef := by
  obtain ⟨u, k⟩ := s
  cases k <;> rfl

theorem offset_fileRefs {f g : XFile} {dx dy : ℚ} (h : f.offset dx dy = .ok g) : g.refs = f.refs := by
  obtain ⟨-, a2, -, a4, -⟩ := XFile.offset_ok h
  unfold XFile.refs
  rw [a2, a4, List.filterMap_map]
  congr 2
  funext s
  exact offset_toolRef dx dy s

/-- **C101** (drill files).  Moving a drill file and converting it to metric gives the same statements and tools as converting
it and moving it by the distance in millimetres.  Partial: the holes, which the conversion forgets
(`C101_holes_violated`), and files with statements in other units than those of the file. -/
theorem C101_drill_metric_partial {f f1 f2 g g2 : XFile} {dx dy : ℚ} (hu : f.cam.units = "inch")
    (ho : f.Owned) (hs : ∀ s ∈ f.statements, s.units = "inch") (h1 : f.offset dx dy = .ok f1) (h2 : f1.toMetric = .ok f2)
    (h3 : f.toMetric = .ok g) (h4 : g.offset (dx * (254 / 10)) (dy * (254 / 10)) = .ok g2) :
    f2.statements = g2.statements ∧ f2.heap = g2.heap ∧ f2.tools = g2.tools ∧ f2.cam = g2.cam := by
  obtain ⟨a1, a2, a3, a4, a5⟩ := XFile.offset_ok h1
  obtain ⟨b1, b2, b3, b4, b5⟩ := XFile.offset_ok h4
  have hm : f.cam.units ≠ "metric" := by rw [hu]; decide
  have hm1 : f1.cam.units ≠ "metric" := by rw [a5]; exact hm
  have ho1 : f1.Owned := by
    intro x hx
    have hx' : x.tool ∈ f1.hits.map Hit.tool := List.mem_map_of_mem hx
    rw [(C49_hits_moved h1).2.1] at hx'
    obtain ⟨y, hy, e⟩ := List.mem_map.1 hx'
    rw [offset_fileRefs h1, ← e]
    exact ho y hy
  obtain ⟨-, rfl⟩ := (toMetric_iff hm1 ho1).1 h2
  obtain ⟨-, rfl⟩ := (toMetric_iff hm ho).1 h3
  simp only at b2 b3 b4 b5 ⊢
  rw [b2, b3, b4, b5, a2, a3, a4, a5, offset_fileRefs h1]
  refine ⟨?_, rfl, rfl, rfl⟩
  rw [List.map_map, List.map_map]
  exact List.map_congr_left fun s h => conv_offset (f := metric) (fun a b => add_mul a b _) dx dy (hs s h)

/-- **C101** (metric drill files).  The same for a metric drill file that is converted to inch.  Partial as
`C101_drill_metric_partial`. -/
theorem C101_drill_inch_partial {f f1 f2 g g2 : XFile} {dx dy : ℚ} (hu : f.cam.units = "metric")
    (hs : ∀ s ∈ f.statements, s.units = "metric") (h1 : f.offset dx dy = .ok f1) (h2 : f1.toInch = .ok f2)
    (h3 : f.toInch = .ok g) (h4 : g.offset (dx / (254 / 10)) (dy / (254 / 10)) = .ok g2) :
    f2.statements = g2.statements ∧ f2.heap = g2.heap ∧ f2.tools = g2.tools ∧ f2.cam = g2.cam := by
  obtain ⟨a1, a2, a3, a4, a5⟩ := XFile.offset_ok h1
  obtain ⟨b1, b2, b3, b4, b5⟩ := XFile.offset_ok h4
  have hm : f.cam.units ≠ "inch" := by rw [hu]; decide
  have hm1 : f1.cam.units ≠ "inch" := by rw [a5]; exact hm
  obtain ⟨-, rfl⟩ := (toInch_iff hm1).1 h2
  obtain ⟨-, rfl⟩ := (toInch_iff hm).1 h3
  simp only at b2 b3 b4 b5 ⊢
  rw [b2, b3, b4, b5, a2, a3, a4, a5, offset_fileRefs h1]
  refine ⟨?_, rfl, rfl, rfl⟩
  rw [List.map_map, List.map_map]
  exact List.map_congr_left fun s h => conv_offset (f := inch) (fun a b => add_div a b _) dx dy (hs s h)

/-- The statements with coordinates and the holes of a drill text: moved and then converted, and converted and then moved. -/
def bothOrders (l : List String) (dx dy : ℚ) : PyR ((List Stmt × List Spec.Feature) × List Stmt × List Spec.Feature) := do
  let f ← parseRaw none [] (prog l)
  let a ← (← f.offset dx dy).toMetric
  let b ← (← f.toMetric).offset (dx * (254 / 10)) (dy * (254 / 10))
  let view (f : XFile) := (f.statements.filter (fun s => match s.kind with | .coord _ _ _ => true | _ => false), f.hits.map Hit.feature)
  .ok (view a, view b)

/-- **C101 fails** for the holes of drill files, which are not converted with the file: moved by an inch before the
conversion, the hole at (1, 1) is at (2, 1), and moved by 25.4 mm after it, it is at (26.4, 1). -/
theorem C101_holes_violated :
    (bothOrders ["M48", "INCH,LZ", "T01C0.020", "%", "T01", "X01Y01", "M30"] 1 0).toOption =
      some (([⟨"metric", .coord (some (254 / 5)) (some (127 / 5)) none⟩], [.hole (2, 1)]),
        [⟨"metric", .coord (some (254 / 5)) (some (127 / 5)) none⟩], [.hole (132 / 5, 1)]) := by
  decide +kernel

-- the hypotheses of C101_drill_metric_partial
example : ∃ f f1 f2 g g2 : XFile, parseRaw none [] (prog ["M48", "INCH,LZ", "T01C0.020", "%", "T01", "X01Y01", "M30"]) = .ok f ∧
    f.cam.units = "inch" ∧ f.Owned ∧ (∀ s ∈ f.statements, s.units = "inch") ∧ f.offset 1 0 = .ok f1 ∧ f1.toMetric = .ok f2 ∧
    f.toMetric = .ok g ∧ g.offset (1 * (254 / 10)) (0 * (254 / 10)) = .ok g2 :=
  ⟨_, _, _, _, _, rfl, by decide +kernel, by unfold XFile.Owned; decide +kernel, by decide +kernel, rfl, rfl, rfl, rfl⟩

-- the hypotheses of C101_drill_inch_partial
example : ∃ f f1 f2 g g2 : XFile, parseRaw none [] (prog ["M48", "METRIC,LZ", "T01C0.5", "%", "T01", "X01Y01", "M30"]) = .ok f ∧
    f.cam.units = "metric" ∧ (∀ s ∈ f.statements, s.units = "metric") ∧ f.offset 1 0 = .ok f1 ∧ f1.toInch = .ok f2 ∧
    f.toInch = .ok g ∧ g.offset (1 / (254 / 10)) (0 / (254 / 10)) = .ok g2 :=
  ⟨_, _, _, _, _, rfl, by decide +kernel, by decide +kernel, rfl, rfl, rfl, rfl⟩

end Verif.Excellon
