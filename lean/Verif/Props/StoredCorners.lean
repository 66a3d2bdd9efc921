import Verif.Props.Cache
import Verif.Props.Vertices

/-! # Stored corners and segments (C77) -/

namespace Verif.Geom

open Verif.Py

theorem rebuilt_self (h : Heap) (i : ℕ) : rebuilt h i i = (h i).changed := by simp [rebuilt, Obj.changed]

theorem rebuilt_right (h : Heap) (i : ℕ) (ap : Option Obj) : CornersRight (rebuilt h i i) ap := by
  rw [rebuilt_self]
  exact .clean (clean_changed _) _

/-- Clearing the caches of an object does not change what its corners depend on. -/
theorem rebuilt_own (h : Heap) (i : ℕ) :
    (rebuilt h i i).ownVertices ((rebuilt h i i).aperture.map (rebuilt h i)) =
      (h i).ownVertices ((h i).aperture.map h) := by
  have : ∀ a : Option ℕ, (h i).ownVertices (a.map (rebuilt h i)) = (h i).ownVertices (a.map h) := by
    intro a
    cases a with
    | none => rfl
    | some j =>
      by_cases hj : j = i
      · subst hj
        simp only [Option.map_some, rebuilt_self]
        rfl
      · simp only [Option.map_some, rebuilt, Function.update_of_ne hj]
  rw [← this, rebuilt_self]
  rfl

theorem readSegments_value {h : Heap} {i : ℕ} {ap : Option Obj} (ha : (h i).aperture.map h = ap)
    (hr : CornersRight (h i) ap) : (readSegments h i).1 = ((h i).ownVertices ap).map segments := by
  unfold readSegments
  cases hs : (h i).segs with
  | some l =>
    obtain ⟨v, h1, h2⟩ := hr.segs l hs
    rw [h1]
    simp only [Except.map, h2]
  | none =>
    simp only
    have hv := readVertices_value ha hr
    generalize readVertices h i = x at hv
    obtain ⟨v, h'⟩ := x
    simp only at hv
    rw [← hv]
    cases v with
    | error e => rfl
    | ok v =>
      simp only [Except.map]
      cases segments v <;> rfl

/-! ## Classes never change -/

theorem kind_convert {f : ℝ → ℝ} {src dst : String} {n : ℕ} {h : Heap} (i j : ℕ) :
    (convert f src dst n h i j).kind = (h j).kind := by
  induction n generalizing h i with
  | zero => rfl
  | succ n ih =>
    simp only [Geom.convert]
    split
    · refine foldl_inv (P := fun h' : Heap => (h' j).kind = (h j).kind) ?_ fun h' k _ hk => (ih k).trans hk
      by_cases hj : j = i
      · subst hj
        rw [Function.update_self]
        exact (convertOwn_struct f dst (h j)).1
      · rw [Function.update_of_ne hj]
    · rfl

theorem kind_update {h : Heap} {i : ℕ} {o : Obj} (ho : o.kind = (h i).kind) (j : ℕ) :
    (Function.update h i o j).kind = (h j).kind := by
  by_cases hj : j = i
  · subst hj
    rw [Function.update_self]
    exact ho
  · rw [Function.update_of_ne hj]

theorem kind_readBox {n : ℕ} {h : Heap} (i j : ℕ) : ((readBox n h i).2 j).kind = (h j).kind :=
  read_inv (P := fun h' => ∀ j, (h' j).kind = (h j).kind) (K := fun j => (h j).kind)
    (fun _ _ _ h1 _ k => (kind_update (by rfl) k).trans (h1 k)) (fun _ _ _ h1 _ k => (kind_update (by rfl) k).trans (h1 k))
    (fun _ h1 => h1) n h i (fun _ => rfl) j

theorem kind_readVertices (h : Heap) (i j : ℕ) : ((readVertices h i).2 j).kind = (h j).kind := by
  obtain ⟨v, hv⟩ := readVertices_same h i j
  rw [hv]

theorem kind_run {n : ℕ} {h : Heap} (a : Act) (j : ℕ) : (a.run n h j).kind = (h j).kind := by
  cases a with
  | setPt i a v =>
    simp only [Act.run]
    split
    · unfold setGroupPosition
      exact (kind_update (by rfl) j).trans (kind_of_fixed (fixed_moveAll _ _ _))
    · exact kind_update (setPt_struct _ _ _).1 j
  | setNum i a v => exact kind_update (setNum_struct _ _ _).1 j
  | offset i dx dy => exact kind_of_fixed (fixed_offset i j)
  | toInch i => exact kind_convert i j
  | toMetric i => exact kind_convert i j
  | setCorners i l =>
    refine kind_update ?_ j
    unfold Obj.setCorners
    split <;> rfl
  | readBox i => exact kind_readBox i j
  | readVertices i => exact kind_readVertices h i j
  | readSegments i =>
    rcases readSegments_cases h i with h1 | h1 | ⟨v, l, -, -, h3⟩
    · simp only [Act.run, h1]
    · simp only [Act.run, h1, kind_readVertices]
    · simp only [Act.run, h3]
      exact (kind_update (by rfl) j).trans (kind_readVertices h i j)
  | _ => exact kind_update (by rfl) j

theorem kind_runActs (n : ℕ) (h : Heap) (acts : List Act) (j : ℕ) : (runActs n h acts j).kind = (h j).kind :=
  foldl_inv (P := fun h' : Heap => (h' j).kind = (h j).kind) rfl fun _ a _ hh => (kind_run a j).trans hh

/-! ## Fresh corners -/

theorem acts_good {n : ℕ} {h : Heap} {acts : List Act} (h0 : ∀ j, Clean (h j)) :
    AllGood (fun i => ∀ k, Act.setSides i k ∉ acts) (runActs n h acts) :=
  foldl_inv (fun j => good_none (h0 j)) fun h' a ha hh => hh.run fun i k hk => by
    subst hk
    exact fun hF => hF k ha

/-- **C77.** The corners read after any history of any actions on any objects are those of a freshly built primitive with
the same attributes, for every class but lines. -/
theorem C77_vertices_partial (n : ℕ) (h : Heap) (acts : List Act) (i : ℕ) (h0 : ∀ j, Clean (h j))
    (hk : (h i).kind ≠ .line) :
    (readVertices (runActs n h acts) i).1 = (readVertices (rebuilt (runActs n h acts) i) i).1 := by
  have hg := (acts_good (n := n) (acts := acts) h0) i
  rw [← kind_runActs n h acts i] at hk
  generalize runActs n h acts = H at hk hg
  by_cases hp : (H i).kind = .polygon
  · have hp' : (rebuilt H i i).kind = .polygon := by rw [rebuilt_self]; exact hp
    have e := rebuilt_own H i
    simp only [readVertices, hp, hp', e]
  · have hc : Cornered (∀ k, Act.setSides i k ∉ acts) (H i).kind := ⟨hk, fun h' => absurd h' hp⟩
    rw [readVertices_value rfl ((hg.2 hc).congr rfl rfl fun v hv => by rwa [ownVertices_cornered hc]),
      readVertices_value rfl (rebuilt_right H i _), rebuilt_own]

/-- **C77.** The same for segments; the number of sides of a polygon must not be assigned. -/
theorem C77_segments_partial (n : ℕ) (h : Heap) (acts : List Act) (i : ℕ) (h0 : ∀ j, Clean (h j))
    (hk : (h i).kind ≠ .line)
    (hp : (h i).kind = .polygon → ∀ k, Act.setSides i k ∉ acts) :
    (readSegments (runActs n h acts) i).1 = (readSegments (rebuilt (runActs n h acts) i) i).1 := by
  have hg := (acts_good (n := n) (acts := acts) h0) i
  rw [← kind_runActs n h acts i] at hk hp
  generalize runActs n h acts = H at hk hp hg
  have hc : Cornered (∀ k, Act.setSides i k ∉ acts) (H i).kind := ⟨hk, hp⟩
  rw [readSegments_value rfl ((hg.2 hc).congr rfl rfl fun v hv => by rwa [ownVertices_cornered hc]),
    readSegments_value rfl (rebuilt_right H i _), rebuilt_own]

/-- **C77.** Lines with an aperture of their own that nobody else changes. -/
theorem C77_line_partial (n : ℕ) (h : Heap) (acts : List Act) (i j : ℕ)
    (h0 : ∀ k, Clean (h k)) (hk : (h i).kind = .line) (hap : (h i).aperture = some j) (hj : Simple (h j).kind)
    (hown : ∀ k, k ≠ i → (h k).aperture ≠ some j) (hparts : ∀ k, j ∉ (h k).parts)
    (hs : ∀ a ∈ acts, a.Spares i j) :
    (readVertices (runActs n h acts) i).1 = (readVertices (rebuilt (runActs n h acts) i) i).1 ∧
    (readSegments (runActs n h acts) i).1 = (readSegments (rebuilt (runActs n h acts) i) i).1 := by
  have hi : LineInv i j (runActs n h acts) :=
    foldl_inv ⟨.inl hk, hap, hj, hown, hparts, .clean (h0 i) _⟩ fun h' a ha hh => hh.run (hs a ha)
  generalize runActs n h acts = H at hi
  have ha : (H i).aperture.map H = some (H j) := by rw [hi.ap]; rfl
  constructor
  · rw [readVertices_value ha hi.good.2, readVertices_value rfl (rebuilt_right H i _), rebuilt_own, ha]
  · rw [readSegments_value ha hi.good.2, readSegments_value rfl (rebuilt_right H i _), rebuilt_own, ha]

/-! What is read is where the shape is (C62 after any history). -/

theorem read_own (n : ℕ) (h : Heap) (acts : List Act) (i : ℕ) (h0 : ∀ j, Clean (h j))
    (hk : (h i).kind = .rectangle ∨ (h i).kind = .diamond ∨ (h i).kind = .chamferRectangle ∨ (h i).kind = .polygon) :
    (readVertices (runActs n h acts) i).1 = (runActs n h acts i).ownVertices none := by
  have hg := (acts_good (n := n) (acts := acts) h0) i
  rw [← kind_runActs n h acts i] at hk
  generalize runActs n h acts = H at hk hg
  by_cases hp : (H i).kind = .polygon
  · simp only [readVertices, Obj.ownVertices, hp]
  · have hc : Cornered (∀ k, Act.setSides i k ∉ acts) (H i).kind :=
      ⟨by rcases hk with h | h | h | h <;> rw [h] <;> decide, fun h' => absurd h' hp⟩
    rw [readVertices_value rfl ((hg.2 hc).congr rfl rfl fun v hv => by rwa [ownVertices_cornered hc]),
      ownVertices_cornered hc]

/-- **C77.** After any history, the corners of rectangles are those of the turned rectangle, as far as they ever are. -/
theorem C77_rectangle_iff (n : ℕ) (h : Heap) (acts : List Act) (i : ℕ) (h0 : ∀ j, Clean (h j))
    (hk : (h i).kind = .rectangle) {p : RPt} {w g : ℝ} (hp : (runActs n h acts i).pts .position = some p)
    (hw : (runActs n h acts i).nums .width = some w) (hg : (runActs n h acts i).nums .height = some g) (hw0 : 0 ≤ w)
    (hg0 : 0 ≤ g) : ∃ vs, (readVertices (runActs n h acts) i).1 = .ok (some vs) ∧
      (span vs = placed p (runActs n h acts i).rotation (slab w g) ↔ p = (0, 0) ∨ cosD (runActs n h acts i).rotation = 1) := by
  rw [read_own n h acts i h0 (.inl hk)]
  rw [← kind_runActs n h acts i] at hk
  simp only [Obj.ownVertices, hk, hp, hw, hg]
  exact ⟨_, rfl, C62_rectangle_iff p hw0 hg0 _⟩

/-- **C77.** Diamonds. -/
theorem C77_diamond_iff (n : ℕ) (h : Heap) (acts : List Act) (i : ℕ) (h0 : ∀ j, Clean (h j))
    (hk : (h i).kind = .diamond) {p : RPt} {w g : ℝ} (hp : (runActs n h acts i).pts .position = some p)
    (hw : (runActs n h acts i).nums .width = some w) (hg : (runActs n h acts i).nums .height = some g) (hw0 : 0 ≤ w) :
    ∃ vs, (readVertices (runActs n h acts) i).1 = .ok (some vs) ∧
      (span vs = placed p (runActs n h acts i).rotation (rhombus w g) ↔
        p = (0, 0) ∨ cosD (runActs n h acts i).rotation = 1) := by
  rw [read_own n h acts i h0 (.inr (.inl hk))]
  rw [← kind_runActs n h acts i] at hk
  simp only [Obj.ownVertices, hk, hp, hw, hg]
  exact ⟨_, rfl, C62_diamond_iff p hw0 _⟩

/-- **C77.** Chamfered rectangles. -/
theorem C77_chamfer_iff (n : ℕ) (h : Heap) (acts : List Act) (i : ℕ) (h0 : ∀ j, Clean (h j))
    (hk : (h i).kind = .chamferRectangle) {p : RPt} {w g c : ℝ} (hp : (runActs n h acts i).pts .position = some p)
    (hw : (runActs n h acts i).nums .width = some w) (hg : (runActs n h acts i).nums .height = some g)
    (hc : (runActs n h acts i).nums .chamfer = some c) {k : Fin 4 → Bool}
    (hco : (runActs n h acts i).corners = List.ofFn k) (hc0 : 0 ≤ c) (hw0 : 2 * c ≤ w) (hg0 : 2 * c ≤ g) :
    ∃ vs, (readVertices (runActs n h acts) i).1 = .ok (some vs) ∧
      (span vs = placed p (runActs n h acts i).rotation (chamfered w g c k) ↔
        p = (0, 0) ∨ cosD (runActs n h acts i).rotation = 1) := by
  rw [read_own n h acts i h0 (.inr (.inr (.inl hk)))]
  rw [← kind_runActs n h acts i] at hk
  simp only [Obj.ownVertices, hk, hp, hw, hg, hc, hco]
  exact ⟨_, rfl, C62_chamfer_iff p hc0 hw0 hg0 k _⟩

/-- **C77.** Regular polygons, wherever they are and however they are turned. -/
theorem C77_polygon (n : ℕ) (h : Heap) (acts : List Act) (i : ℕ) (h0 : ∀ j, Clean (h j))
    (hk : (h i).kind = .polygon) {p : RPt} {r : ℝ} (hp : (runActs n h acts i).pts .position = some p)
    (hr : (runActs n h acts i).nums .radius = some r) (hs : (runActs n h acts i).sides ≠ 0) :
    ∃ vs, (readVertices (runActs n h acts) i).1 = .ok (some vs) ∧ vs.length = (runActs n h acts i).sides ∧
      span vs = placed p (runActs n h acts i).rotation (regular (runActs n h acts i).sides r) := by
  rw [read_own n h acts i h0 (.inr (.inr (.inr hk)))]
  rw [← kind_runActs n h acts i] at hk
  obtain ⟨vs, h1, h2⟩ := C62_polygon p hs r (runActs n h acts i).rotation
  simp only [Obj.ownVertices, hk, hp, hr, if_neg hs, h1]
  exact ⟨vs, rfl, h2⟩

-- read, moved to the origin, turned and widened
example : ∃ vs, (readVertices (runActs 3 (fun _ => blank .rectangle none [])
      [.readVertices 0, .setPt 0 .position (0, 0), .setRotation 0 30, .setNum 0 .width 3]) 0).1 = .ok (some vs) ∧
    span vs = placed (0, 0) 30 (slab 3 1) := by
  obtain ⟨vs, h1, h2⟩ := C77_rectangle_iff 3 (fun _ => blank .rectangle none [])
    [.readVertices 0, .setPt 0 .position (0, 0), .setRotation 0 30, .setNum 0 .width 3] 0 (fun _ => ⟨rfl, rfl, rfl⟩) rfl
    (p := (0, 0)) (w := 3) (g := 1)
    (by simp [runActs, Act.run, blank, Obj.setPt, Obj.setNum, Obj.setRotation, readVertices, Obj.ownVertices, Obj.changed, ptSetter, numSetter])
    (by simp [runActs, Act.run, blank, Obj.setPt, Obj.setNum, Obj.setRotation, readVertices, Obj.ownVertices, Obj.changed, ptSetter, numSetter])
    (by simp [runActs, Act.run, blank, Obj.setPt, Obj.setNum, Obj.setRotation, readVertices, Obj.ownVertices, Obj.changed, ptSetter, numSetter])
    (by norm_num) (by norm_num)
  refine ⟨vs, h1, ?_⟩
  have := h2.mpr (.inl rfl)
  simpa [runActs, Act.run, blank, Obj.setPt, Obj.setNum, Obj.setRotation, readVertices, Obj.ownVertices, Obj.changed, ptSetter, numSetter] using this

-- read and turned
example : ∃ vs, (readVertices (runActs 3 (fun _ => blank .diamond none []) [.readVertices 0, .setRotation 0 30]) 0).1 =
    .ok (some vs) ∧ span vs = placed (0, 0) 30 (rhombus 1 1) := by
  obtain ⟨vs, h1, h2⟩ := C77_diamond_iff 3 (fun _ => blank .diamond none []) [.readVertices 0, .setRotation 0 30] 0
    (fun _ => ⟨rfl, rfl, rfl⟩) rfl (p := (0, 0)) (w := 1) (g := 1) (by simp [runActs, Act.run, blank, Obj.setRotation, readVertices, Obj.ownVertices, Obj.changed])
    (by simp [runActs, Act.run, blank, Obj.setRotation, readVertices, Obj.ownVertices, Obj.changed])
    (by simp [runActs, Act.run, blank, Obj.setRotation, readVertices, Obj.ownVertices, Obj.changed]) (by norm_num)
  refine ⟨vs, h1, ?_⟩
  have := h2.mpr (.inl rfl)
  simpa [runActs, Act.run, blank, Obj.setRotation, readVertices, Obj.ownVertices, Obj.changed] using this

example : ∃ vs, (readVertices (runActs 3 (fun _ => { blank .chamferRectangle none [] with nums := fun a => if a = .chamfer then some (1 / 4) else some 1 })
      [.readVertices 0, .setRotation 0 30, .setCorners 0 [true, false, false, false]]) 0).1 = .ok (some vs) ∧
    span vs = placed (0, 0) 30 (chamfered 1 1 (1 / 4) ![true, false, false, false]) := by
  obtain ⟨vs, h1, h2⟩ := C77_chamfer_iff 3
    (fun _ => { blank .chamferRectangle none [] with nums := fun a => if a = .chamfer then some (1 / 4) else some 1 })
    [.readVertices 0, .setRotation 0 30, .setCorners 0 [true, false, false, false]] 0 (fun _ => ⟨rfl, rfl, rfl⟩) rfl
    (p := (0, 0)) (w := 1) (g := 1) (c := 1 / 4) (k := ![true, false, false, false])
    (by simp [runActs, Act.run, blank, Obj.setRotation, readVertices, Obj.ownVertices, Obj.changed, Obj.setCorners])
    (by simp [runActs, Act.run, blank, Obj.setRotation, readVertices, Obj.ownVertices, Obj.changed, Obj.setCorners])
    (by simp [runActs, Act.run, blank, Obj.setRotation, readVertices, Obj.ownVertices, Obj.changed, Obj.setCorners])
    (by simp [runActs, Act.run, blank, Obj.setRotation, readVertices, Obj.ownVertices, Obj.changed, Obj.setCorners])
    (by simp [runActs, Act.run, blank, Obj.setRotation, readVertices, Obj.ownVertices, Obj.changed, Obj.setCorners]) (by norm_num) (by norm_num) (by norm_num)
  refine ⟨vs, h1, ?_⟩
  have := h2.mpr (.inl rfl)
  simpa [runActs, Act.run, blank, Obj.setRotation, readVertices, Obj.ownVertices, Obj.changed, Obj.setCorners] using this

example : ∃ vs, (readVertices (runActs 3 (fun _ => blank .polygon none []) [.setSides 0 5, .readVertices 0, .setRotation 0 30]) 0).1 =
    .ok (some vs) ∧ span vs = placed (0, 0) 30 (regular 5 1) := by
  obtain ⟨vs, h1, -, h2⟩ := C77_polygon 3 (fun _ => blank .polygon none []) [.setSides 0 5, .readVertices 0, .setRotation 0 30] 0
    (fun _ => ⟨rfl, rfl, rfl⟩) rfl (p := (0, 0)) (r := 1) (by simp [runActs, Act.run, blank, Obj.setRotation, readVertices, Obj.ownVertices, Obj.changed])
    (by simp [runActs, Act.run, blank, Obj.setRotation, readVertices, Obj.ownVertices, Obj.changed]) (by simp [runActs, Act.run, blank, Obj.setRotation, readVertices, Obj.ownVertices, Obj.changed])
  refine ⟨vs, h1, ?_⟩
  simpa [runActs, Act.run, blank, Obj.setRotation, readVertices, Obj.ownVertices, Obj.changed] using h2

/-- A chamfered rectangle whose corners are read, cut differently, turned and read again. -/
example : (readVertices (runActs 3 (fun _ => blank .chamferRectangle none [])
      [.readVertices 0, .readSegments 0, .setCorners 0 [true, false, false, false], .setRotation 0 30, .offset 0 1 2]) 0).1 =
    (readVertices (rebuilt (runActs 3 (fun _ => blank .chamferRectangle none [])
      [.readVertices 0, .readSegments 0, .setCorners 0 [true, false, false, false], .setRotation 0 30, .offset 0 1 2]) 0) 0).1 := by
  exact C77_vertices_partial 3 _ _ 0 (fun _ => ⟨rfl, rfl, rfl⟩) (by simp [blank])

/-- Segments of a polygon that is read, grown and converted. -/
example : (readSegments (runActs 3 (fun _ => { blank .polygon none [] with sides := 5 })
      [.readSegments 0, .setNum 0 .radius 3, .toMetric 0]) 0).1 =
    (readSegments (rebuilt (runActs 3 (fun _ => { blank .polygon none [] with sides := 5 })
      [.readSegments 0, .setNum 0 .radius 3, .toMetric 0]) 0) 0).1 := by
  exact C77_segments_partial 3 _ _ 0 (fun _ => ⟨rfl, rfl, rfl⟩) (by simp [blank]) fun _ k => by simp

/-- A line (0) with a rectangle (1). -/
def ruled : Heap := fun i => if i = 0 then blank .line (some 1) [] else blank .rectangle none []

theorem ruled_clean (j : ℕ) : Clean (ruled j) := by
  unfold ruled
  split <;> exact ⟨rfl, rfl, rfl⟩

/-- The line is read, moved and converted together with its aperture. -/
example : (readVertices (runActs 3 ruled [.readVertices 0, .readSegments 0, .setPt 0 .stop (2, 1), .toMetric 0]) 0).1 =
      (readVertices (rebuilt (runActs 3 ruled [.readVertices 0, .readSegments 0, .setPt 0 .stop (2, 1), .toMetric 0]) 0) 0).1 := by
  refine (C77_line_partial 3 ruled _ 0 1 ruled_clean rfl rfl (.inr (.inr (.inl rfl))) ?_ ?_ ?_).1
  · intro k hk
    simp [ruled, hk, blank]
  · intro k
    unfold ruled
    split <;> simp [blank]
  · simp [Act.Spares]

/-! ## Stale corners -/

/-- **C77 fails** for the number of sides of a polygon: it is a plain attribute, and the segments stored before stay. -/
theorem C77_sides_violated : ∃ h : Heap, (∀ j, Clean (h j)) ∧
    (readSegments (runActs 3 h [.readSegments 0, .setSides 0 4]) 0).1 ≠
      (readSegments (rebuilt (runActs 3 h [.readSegments 0, .setSides 0 4]) 0) 0).1 := by
  refine ⟨fun _ => { blank .polygon none [] with sides := 3 }, fun _ => ⟨rfl, rfl, rfl⟩, ?_⟩
  rw [readSegments_value rfl (rebuilt_right _ 0 _), rebuilt_own]
  intro h
  have := congrArg (fun r : PyR (Option (List (RPt × RPt))) => match r with
    | .ok (some l) => l.length
    | _ => 0) h
  simp [runActs, Act.run, readSegments, readVertices, blank, Obj.ownVertices, polygonVertices, Except.map,
    List.range_succ, segments, combinations2] at this

/-- **C77 fails** for lines whose aperture is changed, here widened: the corners stored before stay. -/
theorem C77_aperture_violated : (∀ j, Clean (ruled j)) ∧
    (readVertices (runActs 3 ruled [.readVertices 0, .setNum 1 .width 3]) 0).1 ≠
      (readVertices (rebuilt (runActs 3 ruled [.readVertices 0, .setNum 1 .width 3]) 0) 0).1 := by
  refine ⟨ruled_clean, ?_⟩
  obtain ⟨v, hv, hv', -⟩ := C62_line_partial (0, 0) (0, 0) (w := 1) (h := 1) (by norm_num) (by norm_num)
    (.inl ⟨by norm_num, by norm_num⟩)
  obtain ⟨v3, h3, h3', -⟩ := C62_line_partial (0, 0) (0, 0) (w := 3) (h := 1) (by norm_num) (by norm_num)
    (.inl ⟨by norm_num, by norm_num⟩)
  rw [readVertices_value rfl (rebuilt_right _ 0 _), rebuilt_own]
  intro h
  have hvv : v = v3 := by
    simpa [runActs, Act.run, readVertices, ruled, blank, Obj.ownVertices, lineCorners, Obj.setNum, numSetter, hv, h3,
      Obj.changed] using h
  subst hvv
  have hm : ((3 / 2, 0) : RPt) ∈ swept (straight (0, 0) (0, 0)) (placed (0, 0) 0 (slab 3 1)) :=
    ⟨(0, 0), ⟨0, le_refl _, zero_le_one, by simp⟩, (3 / 2, 0), ⟨(3 / 2, 0), by simp [slab, abs_of_pos], by simp [radians]⟩,
      by simp⟩
  rw [← h3', hv'] at hm
  obtain ⟨c, ⟨t, -, -, hc⟩, p, ⟨q, hq, hp⟩, he⟩ := hm
  subst hc hp
  simp only [slab, Set.mem_ofPred_eq] at hq
  simp [radians] at he
  rw [← he] at hq
  norm_num [abs_of_pos] at hq

/-- **C77 fails** for outlines: reading their corners always raises. -/
theorem C77_outline_violated (h : Heap) (i : ℕ) (hk : (h i).kind = .outline) (h0 : (h i).vertices = none) :
    (readVertices h i).1 = .error .attributeError := by
  simp [readVertices, hk, h0, Obj.ownVertices]

end Verif.Geom
