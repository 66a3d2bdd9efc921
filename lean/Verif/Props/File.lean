import Verif.Props.Eval
import Verif.Model.GerberFile

/-! # Bounds, offset and unit conversion of Gerber files (C19, C20, C21) -/

namespace Verif.Gerber
open Verif.Py Verif.Cam Verif.Utils

variable {G : Type}

/-! ## C19 -/

/-- `(lo, hi)` is the tight envelope of the values. -/
def Envelope (b : ℚ × ℚ) (l : List ℚ) : Prop :=
  b.1 ∈ l ∧ b.2 ∈ l ∧ ∀ v ∈ l, b.1 ≤ v ∧ v ≤ b.2

theorem boundsLoop_spec (l : List ℚ) (lo hi : ℚ) :
    ((boundsLoop lo hi l).1 = lo ∨ (boundsLoop lo hi l).1 ∈ l) ∧
    ((boundsLoop lo hi l).2 = hi ∨ (boundsLoop lo hi l).2 ∈ l) ∧
    (boundsLoop lo hi l).1 ≤ lo ∧ hi ≤ (boundsLoop lo hi l).2 ∧
    ∀ v ∈ l, (boundsLoop lo hi l).1 ≤ v ∧ v ≤ (boundsLoop lo hi l).2 := by
  induction l generalizing lo hi with
  | nil => simp [boundsLoop]
  | cons v l ih =>
    obtain ⟨h1, h2, h3, h4, h5⟩ := ih (min v lo) (max v hi)
    simp only [boundsLoop]
    refine ⟨?_, ?_, le_trans h3 (min_le_right _ _), le_trans (le_max_right _ _) h4, ?_⟩
    · rcases h1 with h1 | h1
      · rcases min_choice v lo with h | h
        · right; rw [h1, h]; simp
        · left; rw [h1, h]
      · right; simp [h1]
    · rcases h2 with h2 | h2
      · rcases max_choice v hi with h | h
        · right; rw [h2, h]; simp
        · left; rw [h2, h]
      · right; simp [h2]
    · intro w hw
      rcases List.mem_cons.1 hw with rfl | hw
      · exact ⟨le_trans h3 (min_le_left _ _), le_trans (le_max_left _ _) h4⟩
      · exact h5 w hw

theorem boundsLoop_envelope {l : List ℚ} (hne : l ≠ []) (h : ∀ v ∈ l, |v| ≤ 1000000) :
    Envelope (boundsLoop 1000000 (-1000000) l) l := by
  obtain ⟨h1, h2, h3, h4, h5⟩ := boundsLoop_spec l 1000000 (-1000000)
  obtain ⟨v, l', rfl⟩ := List.exists_cons_of_ne_nil hne
  have hv := abs_le.1 (h v (by simp))
  have hb := h5 v (by simp)
  refine ⟨?_, ?_, h5⟩
  · rcases h1 with h1 | h1
    · have : v = 1000000 := by rw [h1] at hb; linarith [hb.1, hv.2]
      rw [h1, this]; simp
    · exact h1
  · rcases h2 with h2 | h2
    · have : v = -1000000 := by rw [h2] at hb; linarith [hb.2, hv.1]
      rw [h2, this]; simp
    · exact h2

/-- The bounds are the tight envelope of the coordinates, if there is a coordinate on each axis and
none exceeds one million. -/
theorem C19_bounds (stmts : List Stmt) (hx : xsOf stmts ≠ []) (hy : ysOf stmts ≠ [])
    (h : ∀ v, v ∈ xsOf stmts ∨ v ∈ ysOf stmts → |v| ≤ 1000000) :
    Envelope (bounds stmts).1 (xsOf stmts) ∧ Envelope (bounds stmts).2 (ysOf stmts) :=
  ⟨boundsLoop_envelope hx fun v hv => h v (.inl hv), boundsLoop_envelope hy fun v hv => h v (.inr hv)⟩

example : xsOf sampleDrawing ≠ [] ∧ ysOf sampleDrawing ≠ [] ∧
    bounds sampleDrawing = ((0, 3), (0, 3)) := by decide +kernel

/-- The size is the extent of the coordinates on each axis: the largest distance between two of them. -/
theorem C19_size (stmts : List Stmt) (hx : xsOf stmts ≠ []) (hy : ysOf stmts ≠ [])
    (h : ∀ v, v ∈ xsOf stmts ∨ v ∈ ysOf stmts → |v| ≤ 1000000) :
    (∃ a ∈ xsOf stmts, ∃ b ∈ xsOf stmts, (size stmts).1 = b - a) ∧
    (∃ a ∈ ysOf stmts, ∃ b ∈ ysOf stmts, (size stmts).2 = b - a) ∧
    (∀ a ∈ xsOf stmts, ∀ b ∈ xsOf stmts, b - a ≤ (size stmts).1) ∧
    (∀ a ∈ ysOf stmts, ∀ b ∈ ysOf stmts, b - a ≤ (size stmts).2) := by
  obtain ⟨⟨x1, x2, x3⟩, ⟨y1, y2, y3⟩⟩ := C19_bounds stmts hx hy h
  refine ⟨⟨_, x1, _, x2, rfl⟩, ⟨_, y1, _, y2, rfl⟩, fun a ha b hb => ?_, fun a ha b hb => ?_⟩
  · exact sub_le_sub (x3 b hb).2 (x3 a ha).1
  · exact sub_le_sub (y3 b hb).2 (y3 a ha).1

example : size sampleDrawing = (3, 3) := by decide +kernel

theorem evalAll_explicit_coords (h l : List Stmt) :
    xsOf (explicitAll h l) = xsOf l ∧ ysOf (explicitAll h l) = ysOf l := by
  induction l generalizing h with
  | nil => exact ⟨rfl, rfl⟩
  | cons s l ih =>
    obtain ⟨h1, h2⟩ := ih (s :: h)
    unfold xsOf at *
    unfold ysOf at *
    simp only [explicitAll, List.filterMap_cons, h1, h2]
    cases s with
    | coord c => by_cases hb : c.Bare <;> simp [explicit, hb]
    | _ => exact ⟨rfl, rfl⟩

/-- For every text: the bounds of the file read are the tight envelope of its coordinates. -/
theorem C19_file (env : EvalEnv G) (fs : Str → Option Str) (data : Str) {f : GerberFile G}
    (h : loads env fs data = .ok f) (hx : xsOf f.statements ≠ []) (hy : ysOf f.statements ≠ []) :
    Envelope (bounds f.statements).1 (xsOf f.statements) ∧
      Envelope (bounds f.statements).2 (ysOf f.statements) := by
  obtain ⟨stmts, st, -, h2, h3, -⟩ := loads_ok env h
  have he := evalAll_stmts env stmts (fun s hs => (h2 s hs).modeOK) h3
  refine C19_bounds _ hx hy ?_
  rw [he, (evalAll_explicit_coords [] stmts).1, (evalAll_explicit_coords [] stmts).2]
  have key : ∀ v s, s ∈ stmts → ((match s with | .coord c => c.x | _ => none) = some v ∨
      (match s with | .coord c => c.y | _ => none) = some v) → |v| ≤ 1000000 := by
    intro v s hs hv
    have hsound := h2 s hs
    cases s with
    | coord c =>
      have := hsound.1 v (hv.elim .inl fun h => .inr (.inl h))
      norm_num at this
      exact this.le
    | _ => simp at hv
  rintro v (hv | hv)
  · obtain ⟨s, hs, hv⟩ := List.mem_filterMap.1 hv
    exact key v s hs (.inl hv)
  · obtain ⟨s, hs, hv⟩ := List.mem_filterMap.1 hv
    exact key v s hs (.inr hv)

/-- Beyond one million the bound is the sentinel, not a coordinate. -/
theorem C19_sentinel : (bounds [.coord { x := some 2000000, y := some 2000000 }]).1 =
    (1000000, 2000000) := by decide +kernel

/-! ## C20 -/

/-- Translation of a point. -/
def Pt.translate (d p : Pt) : Pt := (p.1 + d.1, p.2 + d.2)

/-- Translation of a line or arc. -/
def Edge.translate (d : Pt) : Edge G → Edge G
  | .line s e a p u => .line (Pt.translate d s) (Pt.translate d e) a p u
  | .arc s e c dir a q p u => .arc (Pt.translate d s) (Pt.translate d e) (c.map (Pt.translate d)) dir a q p u

/-- Translation of a primitive. -/
def Prim.translate (d : Pt) : Prim G → Prim G
  | .edge e => .edge (e.translate d)
  | .flash s pos p u => .flash s (Pt.translate d pos) p u
  | .region es p u => .region (es.map (Edge.translate d)) p u

/-- Some earlier statement gives an x (a y). -/
def xGiven (h : List Stmt) : Prop := xsOf h ≠ []
def yGiven (h : List Stmt) : Prop := ysOf h ≠ []

/-- Nothing is drawn from or at the default position (0, 0) a file starts with, and arcs have no
centre offsets. -/
def OffsetOK (h : List Stmt) : Stmt → Prop
  | .coord c => match actionAt h c with
    | some .draw => xGiven h ∧ yGiven h ∧
        (((modeOf h).after c.function).linear = false → c.i = none ∧ c.j = none ∧
          quadrantOf h ≠ "single-quadrant")
    | some .flash => xGiven (.coord c :: h) ∧ yGiven (.coord c :: h)
    | _ => True
  | _ => True

def AllOffsetOK : List Stmt → Prop
  | [] => True
  | s :: h => AllOffsetOK h ∧ OffsetOK h s

variable (dx dy : ℚ)

theorem bare_offset (c : Coord) : (c.offset dx dy).Bare ↔ c.Bare := by
  obtain ⟨f, x, y, i, j, o⟩ := c
  simp only [Coord.Bare, Coord.offset, Coord.mk.injEq, Option.map_eq_none_iff]

theorem opOf_offset (h : List Stmt) : opOf (h.map (Stmt.offset dx dy)) = opOf h := by
  induction h with
  | nil => rfl
  | cons s h ih => cases s <;> simp [Stmt.offset, opOf, ih, Coord.offset]

theorem selected_offset (h : List Stmt) : selected (h.map (Stmt.offset dx dy)) = selected h := by
  induction h with
  | nil => rfl
  | cons s h ih => cases s <;> simp [Stmt.offset, selected, ih]

theorem polarityOf_offset (h : List Stmt) : polarityOf (h.map (Stmt.offset dx dy)) = polarityOf h := by
  induction h with
  | nil => rfl
  | cons s h ih => cases s <;> simp [Stmt.offset, polarityOf, ih]

theorem unitsOf_offset (h : List Stmt) : unitsOf (h.map (Stmt.offset dx dy)) = unitsOf h := by
  induction h with
  | nil => rfl
  | cons s h ih => cases s <;> simp [Stmt.offset, unitsOf, ih]

theorem regionOn_offset (h : List Stmt) : regionOn (h.map (Stmt.offset dx dy)) = regionOn h := by
  induction h with
  | nil => rfl
  | cons s h ih => cases s <;> simp [Stmt.offset, regionOn, ih]

theorem quadrantOf_offset (h : List Stmt) : quadrantOf (h.map (Stmt.offset dx dy)) = quadrantOf h := by
  induction h with
  | nil => rfl
  | cons s h ih => cases s <;> simp [Stmt.offset, quadrantOf, ih]

theorem macroDef_offset (h : List Stmt) : macroDef (h.map (Stmt.offset dx dy)) = macroDef h := by
  funext k
  induction h with
  | nil => rfl
  | cons s h ih => cases s <;> simp [Stmt.offset, macroDef, ih, unitsOf_offset]

theorem actionAt_offset (h : List Stmt) (c : Coord) :
    actionAt (h.map (Stmt.offset dx dy)) (c.offset dx dy) = actionAt h c := by
  have := opOf_offset dx dy (.coord c :: h)
  simp only [List.map_cons, Stmt.offset] at this
  simp only [actionAt, bare_offset, this]

theorem modeOf_offset (h : List Stmt) : modeOf (h.map (Stmt.offset dx dy)) = modeOf h := by
  induction h with
  | nil => rfl
  | cons s h ih =>
    cases s with
    | coord c =>
      simp only [List.map_cons, Stmt.offset, modeOf, actionAt_offset, regionOn_offset, ih]
      rfl
    | _ => simp [Stmt.offset, modeOf, ih]

theorem apertureDef_offset (env : EvalEnv G) (h : List Stmt) :
    apertureDef env (h.map (Stmt.offset dx dy)) = apertureDef env h := by
  funext k
  induction h with
  | nil => rfl
  | cons s h ih => cases s <;> simp [Stmt.offset, apertureDef, ih, unitsOf_offset, macroDef_offset]

theorem currentAperture_offset (env : EvalEnv G) (h : List Stmt) :
    currentAperture env (h.map (Stmt.offset dx dy)) = currentAperture env h := by
  rw [currentAperture, apertureDef_offset, selected_offset, currentAperture]

theorem penX_offset {h : List Stmt} (hx : xGiven h) :
    penX (h.map (Stmt.offset dx dy)) = penX h + dx := by
  induction h with
  | nil => exact absurd rfl hx
  | cons s h ih =>
    cases s with
    | coord c =>
      cases hc : c.x with
      | none =>
        have : xGiven h := by simpa [xGiven, xsOf, hc] using hx
        simp [Stmt.offset, penX, Coord.offset, hc, ih this]
      | some v => simp [Stmt.offset, penX, Coord.offset, hc]
    | _ => exact ih hx

theorem penY_offset {h : List Stmt} (hy : yGiven h) :
    penY (h.map (Stmt.offset dx dy)) = penY h + dy := by
  induction h with
  | nil => exact absurd rfl hy
  | cons s h ih =>
    cases s with
    | coord c =>
      cases hc : c.y with
      | none =>
        have : yGiven h := by simpa [yGiven, ysOf, hc] using hy
        simp [Stmt.offset, penY, Coord.offset, hc, ih this]
      | some v => simp [Stmt.offset, penY, Coord.offset, hc]
    | _ => exact ih hy

theorem pen_offset {h : List Stmt} (hx : xGiven h) (hy : yGiven h) :
    pen (h.map (Stmt.offset dx dy)) = Pt.translate (dx, dy) (pen h) := by
  simp [pen, penX_offset dx dy hx, penY_offset dx dy hy, Pt.translate]

theorem xGiven_cons {h : List Stmt} (hx : xGiven h) (s : Stmt) : xGiven (s :: h) := by
  unfold xGiven xsOf at *
  rw [List.filterMap_cons]
  split
  · exact hx
  · simp

theorem yGiven_cons {h : List Stmt} (hy : yGiven h) (s : Stmt) : yGiven (s :: h) := by
  unfold yGiven ysOf at *
  rw [List.filterMap_cons]
  split
  · exact hy
  · simp

theorem segment_offset (env : EvalEnv G) {h : List Stmt} {c : Coord}
    (hd : actionAt h c = some .draw) (ho : OffsetOK h (.coord c)) (ap : Aperture G) :
    segment env (h.map (Stmt.offset dx dy)) (c.offset dx dy) ap =
      (segment env h c ap).translate (dx, dy) := by
  simp only [OffsetOK, hd] at ho
  obtain ⟨hx, hy, ha⟩ := ho
  have h1 := pen_offset dx dy hx hy
  have h2 := pen_offset dx dy (xGiven_cons hx (.coord c)) (yGiven_cons hy (.coord c))
  simp only [List.map_cons, Stmt.offset] at h2
  have hf : (c.offset dx dy).function = c.function := rfl
  unfold segment
  simp only [h1, h2, hf, modeOf_offset, polarityOf_offset, unitsOf_offset, quadrantOf_offset]
  cases hl : ((modeOf h).after c.function).linear with
  | true => simp [Edge.translate]
  | false =>
    obtain ⟨hi, hj, hq⟩ := ha hl
    simp [Edge.translate, hq, hi, hj, Coord.offset, Pt.translate]

theorem contour_offset (env : EvalEnv G) {h : List Stmt} (ho : AllOffsetOK h) :
    contour env (h.map (Stmt.offset dx dy)) = (contour env h).map (Edge.translate (dx, dy)) := by
  induction h with
  | nil => rfl
  | cons s h ih =>
    have ih' := ih ho.1
    cases s with
    | coord c =>
      simp only [List.map_cons, Stmt.offset, contour, regionOn_offset, actionAt_offset, ih',
        currentAperture_offset]
      split
      · split
        · rename_i hd
          rw [segment_offset dx dy env hd ho.2]; simp
        · rfl
        · rfl
      · rfl
    | region m =>
      simp only [List.map_cons, Stmt.offset, contour, regionOn_offset, ih']
      split <;> rfl
    | _ => simpa [Stmt.offset, contour] using ih'

theorem added_offset (env : EvalEnv G) {h : List Stmt} {s : Stmt} (ho : AllOffsetOK (s :: h)) :
    added env (h.map (Stmt.offset dx dy)) (s.offset dx dy) =
      (added env h s).map (Prim.translate (dx, dy)) := by
  cases s with
  | coord c =>
    simp only [Stmt.offset, added, actionAt_offset, regionOn_offset, currentAperture_offset,
      contour_offset dx dy env ho.1, List.length_map, polarityOf_offset, unitsOf_offset]
    split
    · rename_i hd _
      simp only [List.map_map]
      congr 1
      funext ap
      simp [Prim.translate, segment_offset dx dy env hd ho.2]
    · split <;> rfl
    · rename_i hd
      have ho2 := ho.2
      simp only [OffsetOK, hd] at ho2
      have := pen_offset dx dy ho2.1 ho2.2
      simp only [List.map_cons, Stmt.offset] at this
      simp only [List.map_map, this]
      rfl
    · rfl
  | region m =>
    simp only [Stmt.offset, added, regionOn_offset, contour_offset dx dy env ho.1,
      polarityOf_offset, unitsOf_offset, ne_eq, List.map_eq_nil_iff]
    split <;> rfl
  | _ => rfl

theorem picture_offset (env : EvalEnv G) {h : List Stmt} (ho : AllOffsetOK h) :
    picture env (h.map (Stmt.offset dx dy)) = (picture env h).map (Prim.translate (dx, dy)) := by
  induction h with
  | nil => rfl
  | cons s h ih =>
    simp only [List.map_cons, picture, List.map_append, ih ho.1, added_offset dx dy env ho]

theorem allDefined_offset (env : EvalEnv G) (h : List Stmt) :
    AllDefined env (h.map (Stmt.offset dx dy)) ↔ AllDefined env h := by
  induction h with
  | nil => rfl
  | cons s h ih =>
    simp only [List.map_cons, AllDefined, ih]
    refine and_congr_right fun _ => ?_
    cases s <;> simp [Stmt.offset, Defined, actionAt_offset, regionOn_offset,
      currentAperture_offset, macroDef_offset]

theorem modeOK_offset {s : Stmt} (h : s.ModeOK) : (s.offset dx dy).ModeOK := by
  cases s <;> exact h

/-- Interpreting the statements after `offset` gives the same primitives, translated - for files that
never draw from or at the default start position and whose arcs have no centre offsets.  Missing:
arcs with centre offsets, which `offset` moves too (`C20_arc_violated`), and drawing from the default
position, which stays at the origin (`C20_origin_violated`). -/
theorem C20_offset_partial (env : EvalEnv G) (p : Program) (hm : ∀ s ∈ p.statements, s.ModeOK)
    (ho : AllOffsetOK p.statements.reverse) {st : EvalState G} {l : List Stmt}
    (h : evalAll env initState p.statements = .ok (st, l)) :
    ∃ st' l', evalAll env initState (p.offset dx dy).statements = .ok (st', l') ∧
      st'.primitives = st.primitives.map (Prim.translate (dx, dy)) := by
  have hm' : ∀ s ∈ (p.offset dx dy).statements, s.ModeOK := by
    intro s hs
    obtain ⟨t, ht, rfl⟩ := List.mem_map.1 hs
    exact modeOK_offset dx dy (hm t ht)
  have e : (p.offset dx dy).statements.reverse = p.statements.reverse.map (Stmt.offset dx dy) := by
    simp [Program.offset, List.map_reverse]
  have hd := (C14_total env p.statements hm).1 ⟨_, h⟩
  obtain ⟨⟨st', l'⟩, h'⟩ := (C14_total env _ hm').2 (by rw [e]; exact (allDefined_offset dx dy env _).2 hd)
  refine ⟨st', l', h', ?_⟩
  rw [(C14_picture env _ hm' h').1, e, picture_offset dx dy env ho, (C14_picture env _ hm h).1]

/-- Draws lines, moves and flashes, starting with a move to a point. -/
def sampleLines : List Stmt := [.ad 10 ['C'] [[1 / 2]], .aperture 10 false,
  .coord { x := some 1, y := some 1, op := some ['D', '0', '2'] },
  .coord { x := some 3, op := some ['D', '0', '1'] }, .coord { op := some ['D', '0', '3'] }]

example : AllOffsetOK sampleLines.reverse ∧
    ((evalAll plainEnv initState ((⟨sampleLines, "inch"⟩ : Program).offset 10 20).statements).toOption.map
      fun r => r.1.primitives) = some [.edge (.line (11, 21) (13, 21) sampleAp "dark" "inch"),
        .flash (.circle (1 / 2) {}) (13, 21) "dark" "inch"] := by
  constructor
  · have h4 : actionAt (sampleLines.take 4).reverse { op := some ['D', '0', '3'] } = some .flash := by
      decide +kernel
    have h3 : actionAt (sampleLines.take 3).reverse { x := some 3, op := some ['D', '0', '1'] } =
      some .draw := by decide +kernel
    have h2 : actionAt (sampleLines.take 2).reverse
      { x := some 1, y := some 1, op := some ['D', '0', '2'] } = some .move := by decide +kernel
    simp only [sampleLines, List.take, List.reverse_cons, List.reverse_nil, List.nil_append,
      List.cons_append] at h4 h3 h2
    simp only [sampleLines, List.reverse_cons, List.reverse_nil, List.nil_append, List.cons_append,
      AllOffsetOK, OffsetOK, h4, h3, h2, xGiven, yGiven, xsOf, ysOf]
    decide +kernel
  · decide +kernel

/-- `offset` moves the centre offsets I and J of an arc as if they were positions, so the centre is
displaced by twice the offset. -/
theorem C20_arc_violated :
    let p : Program := ⟨[.ad 10 ['C'] [[1 / 2]], .aperture 10 false,
      .coord { x := some 0, y := some 0, op := some ['D', '0', '2'] },
      .coord { function := some ['G', '0', '3'], x := some 2, y := some 0, i := some 1, j := some 0,
               op := some ['D', '0', '1'] }], "inch"⟩
    ((evalAll plainEnv initState p.statements).toOption.map fun r => r.1.primitives) =
      some [.edge (.arc (0, 0) (2, 0) (some (1, 0)) "counterclockwise" sampleAp "multi-quadrant" "dark"
        "inch")] ∧
    ((evalAll plainEnv initState (p.offset 10 0).statements).toOption.map fun r => r.1.primitives) =
      some [.edge (.arc (10, 0) (12, 0) (some (21, 0)) "counterclockwise" sampleAp "multi-quadrant"
        "dark" "inch")] := by
  constructor <;> decide +kernel

/-- A line from the default start position keeps its start. -/
theorem C20_origin_violated :
    let p : Program := ⟨[.ad 10 ['C'] [[1 / 2]], .aperture 10 false,
      .coord { x := some 2, y := some 0, op := some ['D', '0', '1'] }], "inch"⟩
    ((evalAll plainEnv initState (p.offset 10 0).statements).toOption.map fun r => r.1.primitives) =
      some [.edge (.line (0, 0) (12, 0) sampleAp "dark" "inch")] := by
  decide +kernel

/-- `offset` moves scale factors as if they were positions. -/
theorem C20_scale_violated :
    let p : Program := ⟨[.sf 1 1, .coord { x := some 5, y := some 7, op := some ['D', '0', '3'] }], "inch"⟩
    (p.offset 10 20).statements =
      [.sf 11 21, .coord { x := some 15, y := some 27, op := some ['D', '0', '3'] }] := by
  decide +kernel

end Verif.Gerber
