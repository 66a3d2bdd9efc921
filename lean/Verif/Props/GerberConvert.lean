import Verif.Model.GerberConvert
import Verif.Props.GerberSave
import Verif.Props.AmUnits
import Verif.Props.Angle

/-! # C85: a Gerber file converted to other units, written and read again shows the same in the other units -/

namespace Verif.Geom
open Verif.Gerber

/-! ## The centre of a single-quadrant arc -/

section
variable {k : ℚ} (hk : 0 < k)

theorem toR_scale (p : Pt) : toR (Pt.scale k p) = scalePt k (toR p) := by
  simp [toR, Pt.scale, scalePt]

include hk in
theorem theta_scale (p c : RPt) : theta (scalePt k p) (scalePt k c) = theta p c := by
  have hk' : (0 : ℝ) < k := by exact_mod_cast hk
  unfold theta scalePt
  simp only [← mul_sub, atan2_scale hk']

include hk in
theorem validSweep_scale (d : String) (s e c : Pt) :
    ValidSweep d (Pt.scale k s) (Pt.scale k e) (Pt.scale k c) ↔ ValidSweep d s e c := by
  simp only [ValidSweep, sweepAngle, toR_scale, theta_scale hk]

theorem radiusError_scale (s e c : Pt) :
    radiusError (Pt.scale k s) (Pt.scale k e) (Pt.scale k c) = k ^ 2 * radiusError s e c := by
  unfold radiusError sqDistance Pt.scale
  conv_rhs => rw [← abs_of_nonneg (sq_nonneg k), ← abs_mul]
  congr 1
  simp only
  ring

include hk in
theorem centerLoop_scale (d : String) (s e : Pt) (l : List Pt) : ∀ (best : Option Pt) (err : ℚ),
    centerLoop d (Pt.scale k s) (Pt.scale k e) (l.map (Pt.scale k)) (best.map (Pt.scale k)) (k ^ 2 * err) =
      (centerLoop d s e l best err).map (Pt.scale k) := by
  induction l with
  | nil => intro best err; rfl
  | cons c l ih =>
    intro best err
    have h : (radiusError (Pt.scale k s) (Pt.scale k e) (Pt.scale k c) < k ^ 2 * err ∧
        ValidSweep d (Pt.scale k s) (Pt.scale k e) (Pt.scale k c)) ↔
        radiusError s e c < err ∧ ValidSweep d s e c := by
      rw [radiusError_scale, validSweep_scale hk, mul_lt_mul_iff_right₀ (pow_pos hk 2)]
    simp only [List.map_cons, centerLoop]
    by_cases hc : radiusError s e c < err ∧ ValidSweep d s e c
    · rw [if_pos (h.2 hc), if_pos hc, radiusError_scale]
      exact ih (some c) _
    · rw [if_neg fun h' => hc (h.1 h'), if_neg hc]
      exact ih best err

/-- The bound that the search starts with does not matter if all errors are below it. -/
theorem centerLoop_start (d : String) (s e : Pt) (l : List Pt) (best : Option Pt) {err err' : ℚ}
    (h : ∀ c ∈ l, radiusError s e c < err ∧ radiusError s e c < err') :
    centerLoop d s e l best err = centerLoop d s e l best err' := by
  induction l with
  | nil => rfl
  | cons c l ih =>
    obtain ⟨h1, h2⟩ := h c (by simp)
    simp only [centerLoop]
    by_cases hv : ValidSweep d s e c
    · rw [if_pos ⟨h1, hv⟩, if_pos ⟨h2, hv⟩]
    · rw [if_neg fun h => hv h.2, if_neg fun h => hv h.2]
      exact ih fun c hc => h c (by simp [hc])

theorem candidates_scale (s off : Pt) :
    centerCandidates (Pt.scale k s) (Pt.scale k off) = (centerCandidates s off).map (Pt.scale k) := by
  simp [centerCandidates, Pt.scale, mul_add]

/-- Both coordinates are at most `M` in absolute value. -/
def Within (M : ℚ) (p : Pt) : Prop := |p.1| ≤ M ∧ |p.2| ≤ M

theorem radiusError_le {M : ℚ} {s e off : Pt} (hs : Within M s) (he : Within M e) (ho : Within M off) {c : Pt}
    (hc : c ∈ centerCandidates s off) : radiusError s e c ≤ 18 * M ^ 2 := by
  obtain ⟨s1, s2⟩ := hs
  obtain ⟨e1, e2⟩ := he
  obtain ⟨o1, o2⟩ := ho
  have key : ∀ x y z : ℚ, |x| ≤ M → |y| ≤ M → |z| ≤ M → (x - y - z) * (x - y - z) ≤ 9 * M ^ 2 := by
    intro x y z hx hy hz
    have h : |x - y - z| ≤ 3 * M := by
      have h1 := abs_sub (x - y) z
      have h2 := abs_sub x y
      linarith
    rw [← abs_mul_abs_self]
    nlinarith [abs_nonneg (x - y - z)]
  have key2 : ∀ x : ℚ, |x| ≤ M → x * x ≤ M ^ 2 := by
    intro x hx
    rw [← abs_mul_abs_self]
    nlinarith [abs_nonneg x]
  obtain ⟨f, hf, rfl⟩ := List.mem_map.1 hc
  have hf' : |off.1 * f.1| ≤ M ∧ |off.2 * f.2| ≤ M := by
    simp only [List.mem_cons, List.not_mem_nil, or_false] at hf
    rcases hf with rfl | rfl | rfl | rfl <;> simp [o1, o2]
  generalize off.1 * f.1 = a at *
  generalize off.2 * f.2 = b at *
  obtain ⟨ha, hb⟩ := hf'
  unfold radiusError sqDistance
  have k1 := key e.1 s.1 a e1 s1 ha
  have k2 := key e.2 s.2 b e2 s2 hb
  have k3 := key2 a ha
  have k4 := key2 b hb
  have M0 : 0 ≤ M ^ 2 := sq_nonneg M
  rw [show (s.1 - (s.1 + a)) * (s.1 - (s.1 + a)) + (s.2 - (s.2 + b)) * (s.2 - (s.2 + b)) = a * a + b * b by ring,
    show e.1 - (s.1 + a) = e.1 - s.1 - a by ring, show e.2 - (s.2 + b) = e.2 - s.2 - b by ring, abs_le]
  constructor <;> nlinarith [mul_self_nonneg a, mul_self_nonneg b, mul_self_nonneg (e.1 - s.1 - a),
    mul_self_nonneg (e.2 - s.2 - b)]

include hk in
/-- In other units the search finds the same centre, if all numbers are small enough. -/
theorem C21_center (hk' : k ≤ 254 / 10) (d : String) {s e off : Pt} (hs : Within (10 ^ 7) s)
    (he : Within (10 ^ 7) e) (ho : Within (10 ^ 7) off) :
    findCenterSQ d (Pt.scale k s) (Pt.scale k e) (Pt.scale k off) = (findCenterSQ d s e off).map (Pt.scale k) := by
  unfold findCenterSQ
  rw [candidates_scale, ← centerLoop_scale hk d s e _ none maxsize]
  refine centerLoop_start d _ _ _ none fun c hc => ?_
  obtain ⟨c, hc', rfl⟩ := List.mem_map.1 hc
  have h := radiusError_le hs he ho hc'
  rw [radiusError_scale]
  have k2 : 0 < k ^ 2 := pow_pos hk 2
  have k3 : k ^ 2 ≤ (254 / 10) ^ 2 := pow_le_pow_left₀ hk.le hk' 2
  have e0 : 0 ≤ radiusError s e c := abs_nonneg _
  refine ⟨?_, (mul_lt_mul_iff_right₀ k2).2 (lt_of_le_of_lt h (by norm_num [maxsize]))⟩
  calc k ^ 2 * radiusError s e c ≤ (254 / 10) ^ 2 * (18 * (10 ^ 7) ^ 2) :=
        mul_le_mul k3 h e0 (by norm_num)
    _ < maxsize := by norm_num [maxsize]

end

end Verif.Geom

namespace Verif.Gerber
open Verif.Py Verif.Cam Verif.Am Verif.Geom
open Rs274x (amReader)

/-! ## Spec -/

/-- The numbers of a statement are at most ten million. -/
def SmallCoord (c : Coord) : Prop :=
  ∀ v, c.x = some v ∨ c.y = some v ∨ c.i = some v ∨ c.j = some v → |v| ≤ 10 ^ 7

/-- Statements whose meaning depends on the units. -/
def UsesUnits : Stmt → Prop
  | .ad .. => True
  | .coord c => ¬ c.Bare
  | .region _ => True
  | _ => False

/-- The units are given before they are used; there are no polygon apertures; coordinates are at most ten million. -/
structure Convertible (l : List Stmt) : Prop where
  units : ∀ pre s post, l = pre ++ s :: post → UsesUnits s → ∃ m, .mo m ∈ pre
  noPolygon : ∀ d m, .ad d ['P'] m ∉ l
  small : ∀ c, .coord c ∈ l → SmallCoord c

/-- The macros of a file can be written after the change `c` of their primitives: every macro is used, and made the same
primitives each time, which after the change are shapes with numbers that are printed as they are, or comments of one
line; names are those the writer may use.  (`MacrosKept` for the changed primitives.) -/
structure MacrosKeptBy (c : AmPrim → AmPrim) (s : AmState) (l : List Stmt) : Prop where
  same : ∀ u ∈ s.uses, u.2.2 = s.prims u.1
  some_ : ∀ u ∈ s.uses, u.2.2 ≠ []
  used : ∀ k n b x, l[k]? = some (.am n b x) → s.prims k ≠ []
  plainly : ∀ u ∈ s.uses, ∀ p ∈ u.2.2, Rs274x.Plainly (c p)
  names : ∀ n b x, .am n b x ∈ l → MacroName n

/-! ## Scaling -/

theorem pen_within {h : List Stmt} {M : ℚ} (hM : 0 ≤ M)
    (hs : ∀ c, .coord c ∈ h → (∀ v, c.x = some v → |v| ≤ M) ∧ ∀ v, c.y = some v → |v| ≤ M) : Within M (pen h) := by
  induction h with
  | nil => simp [Within, pen, penX, penY, hM]
  | cons s h ih =>
    have ih := ih fun c hc => hs c (by simp [hc])
    obtain ⟨i1, i2⟩ := ih
    cases s with
    | coord c =>
      obtain ⟨h1, h2⟩ := hs c (by simp)
      simp only [pen] at i1 i2 ⊢
      constructor
      · cases hx : c.x with
        | none => simpa [penX, hx] using i1
        | some v => simpa [penX, hx] using h1 v hx
      · cases hy : c.y with
        | none => simpa [penY, hy] using i2
        | some v => simpa [penY, hy] using h2 v hy
    | _ => exact ⟨by simpa [pen, penX] using i1, by simpa [pen, penY] using i2⟩

theorem allScaleFor {G : Type} {env : EvalEnv G} (hcen : env.center = findCenterSQ) {k : ℚ} (hk : 0 < k)
    (hk' : k ≤ 254 / 10) (l : List Stmt) (h : Convertible l) : AllScaleFor (· ≠ ['P']) env k l.reverse := by
  induction l using List.reverseRecOn with
  | nil => trivial
  | append_singleton l s ih =>
    have ih := ih ⟨fun pre a post e ha => h.units pre a (post ++ [s]) (by simp [e]) ha,
      fun d m hm => h.noPolygon d m (by simp [hm]), fun c hc => h.small c (by simp [hc])⟩
    rw [List.reverse_append]
    refine ⟨ih, ?_⟩
    have hu : UsesUnits s → unitsGiven l.reverse := by
      intro hs
      obtain ⟨m, hm⟩ := h.units l s [] (by simp) hs
      exact ⟨m, by simpa using hm⟩
    cases s with
    | ad d s m => exact ⟨hu trivial, fun e => h.noPolygon d m (by subst e; simp)⟩
    | coord c =>
      refine ⟨fun ha => hu fun hb => ha ?_, ?_⟩
      · simp [actionAt, hb]
      · intro _ _ _ dir
        rw [hcen]
        have hl : ∀ c', .coord c' ∈ l.reverse → (∀ v, c'.x = some v → |v| ≤ (10 : ℚ) ^ 7) ∧
            ∀ v, c'.y = some v → |v| ≤ (10 : ℚ) ^ 7 := by
          intro c' hc'
          have := h.small c' (by simp at hc'; simp [hc'])
          exact ⟨fun v hv => this v (by simp [hv]), fun v hv => this v (by simp [hv])⟩
        have hc := h.small c (by simp)
        refine C21_center hk hk' dir (pen_within (by norm_num) hl) (pen_within (by norm_num) ?_) ⟨?_, ?_⟩
        · intro c' hc'
          rcases List.mem_cons.1 hc' with e | hc'
          · cases e
            exact ⟨fun v hv => hc v (by simp [hv]), fun v hv => hc v (by simp [hv])⟩
          · exact hl c' hc'
        · cases hi : c.i with
          | none => simp
          | some v => simpa using hc v (by simp [hi])
        · cases hj : c.j with
          | none => simp
          | some v => simpa using hc v (by simp [hj])
    | region m => exact hu trivial
    | _ => trivial

/-- The interpreter of statements in other units. -/
def scaledReader (center : String → Pt → Pt → Pt → Option Pt) (k : ℚ) (c : AmPrim → AmPrim) :
    EvalEnv (List AmPrim) where
  build t _ m := ((Am.build t (m.map (k⁻¹ * ·))).map (·.filter isShape)).map (List.map c)
  center := center

theorem map_inv_scale {k : ℚ} (hk : k ≠ 0) (m : List ℚ) : (m.map (k * ·)).map (k⁻¹ * ·) = m := by
  rw [List.map_map]
  conv_rhs => rw [← List.map_id m]
  refine List.map_congr_left fun v _ => ?_
  simp [hk]

theorem scaledReader_scale (center : String → Pt → Pt → Pt → Option Pt) {k : ℚ} (hk : k ≠ 0) (c : AmPrim → AmPrim) :
    EnvScale (· ≠ ['P']) (amReader center) (scaledReader center k c) k (List.map c) where
  center := rfl
  shape := by
    intro s hs ms ms' hms mods
    by_cases h : s ∈ [['C'], ['R'], ['O']]
    · exact shapeOf_scale k _ _ _ ms ms' h mods
    · simp only [List.mem_cons, List.not_mem_nil, or_false, not_or] at h
      obtain ⟨c1, c2, c3⟩ := h
      have hm := hms s
      simp only [shapeOf, if_neg c1, if_neg c2, if_neg c3, if_neg hs]
      match h1 : ms s, h2 : ms' s, hm with
      | none, none, _ => rfl
      | some (b, u), some (b', u'), hm =>
        simp only [Option.map_some, Option.some.injEq] at hm
        subst hm
        cases mods with
        | nil => rfl
        | cons m _ =>
          simp only [firstMods, List.map_cons, bind, Except.bind, scaledReader, amReader, map_inv_scale hk]
          cases Am.build b' m <;> rfl
      | none, some _, hm => simp at hm
      | some _, none, hm => simp at hm

theorem scaled_isShape (k : ℚ) (p : AmPrim) : isShape (p.scaled k) = isShape p := by cases p <;> rfl

theorem changes_scale (center : String → Pt → Pt → Pt → Option Pt) {k : ℚ} (hk : k ≠ 0) {c : AmPrim → AmPrim}
    (hc : ∀ p, c p = p.scaled k) (u : String) (g : Option Str → Option Str) :
    Changes (Stmt.scale k u g) c (scaledReader center k c) where
  am _ _ _ := rfl
  ad d s mods := by
    refine ⟨_, rfl, fun ms h => ⟨ms.map (k * ·), ?_, fun b u ps hb => ?_⟩⟩
    · cases mods with
      | nil => cases h
      | cons m _ => cases h; rfl
    · simp only [scaledReader, map_inv_scale hk, hb, Except.map]
      congr 1
      rw [List.filter_map]
      congr 1
      refine List.filter_congr fun p _ => ?_
      simp [hc, scaled_isShape]
  other a h1 h2 := by
    cases a with
    | am n b x => exact absurd rfl (h1 n b x)
    | ad d s m => exact absurd rfl (h2 d s m)
    | _ => exact ⟨fun _ _ _ h => (by cases h), fun _ _ _ h => (by cases h)⟩

theorem applySetting_units (st st' : FileSettings) (u : String) (h : st' = { st with units := u }) (a : Stmt)
    (ha : ∀ m, a = .mo m → m = u) : applySetting st' a = { applySetting st a with units := u } := by
  subst h
  cases a with
  | mo m => simp only [applySetting, ha m rfl]
  | _ => rfl

theorem settings_scale (fin : ℕ → List AmPrim) (k : ℚ) (u : String) (g : Option Str → Option Str) (l : List Stmt) :
    ∀ (j : ℕ) (st st' : FileSettings), (st' = st ∧ (∃ m, .mo m ∈ l)) ∨ st' = { st with units := u } →
      (rewritten fin j (l.map (Stmt.scale k u g))).foldl applySetting st' =
        { l.foldl applySetting st with units := u } := by
  induction l with
  | nil =>
    intro j st st' h
    rcases h with ⟨-, m, hm⟩ | h
    · cases hm
    · exact h
  | cons a l ih =>
    intro j st st' h
    cases a with
    | mo m =>
      refine ih (j + 1) _ _ (.inr ?_)
      rcases h with ⟨rfl, -⟩ | rfl <;> rfl
    | am n b x =>
      have e : (rewritten fin j ((Stmt.am n b x :: l).map (Stmt.scale k u g))).foldl applySetting st' =
          (rewritten fin (j + 1) (l.map (Stmt.scale k u g))).foldl applySetting st' := by
        simp only [List.map_cons, Stmt.scale, rewritten, List.foldl_cons]
        split_ifs <;> rfl
      rw [e]
      refine ih (j + 1) _ _ ?_
      rcases h with ⟨rfl, m, hm⟩ | rfl
      · exact .inl ⟨rfl, m, by simpa using hm⟩
      · exact .inr rfl
    | _ =>
      refine ih (j + 1) _ _ ?_
      rcases h with ⟨rfl, m, hm⟩ | rfl
      · exact .inl ⟨rfl, m, by simpa using hm⟩
      · exact .inr rfl

theorem evaluate_modeOK {G : Type} (env : EvalEnv G) {st st' : EvalState G} {s s' : Stmt}
    (h : evaluate env st s = .ok (st', s')) (hs : s.ModeOK) : s'.ModeOK := by
  cases s with
  | coord c =>
    obtain ⟨⟨a, b⟩, -, h⟩ := Excellon.bindOk h
    cases h; trivial
  | ad d n m =>
    obtain ⟨a, -, h⟩ := Excellon.bindOk h
    cases h; trivial
  | _ => cases h; exact hs

theorem evalAll_modeOK {G : Type} (env : EvalEnv G) {l : List Stmt} : ∀ {st st' : EvalState G} {l' : List Stmt},
    evalAll env st l = .ok (st', l') → (∀ s ∈ l, s.ModeOK) → ∀ s ∈ l', s.ModeOK := by
  induction l with
  | nil => intro st st' l' h _; cases h; simp
  | cons a l ih =>
    intro st st' l' h hm
    obtain ⟨⟨s1, a1⟩, h1, h⟩ := Excellon.bindOk h
    obtain ⟨⟨s2, l2⟩, h2, h⟩ := Excellon.bindOk h
    cases h
    intro s hs
    rcases List.mem_cons.1 hs with rfl | hs
    · exact evaluate_modeOK env h1 (hm a (by simp))
    · exact ih h2 (fun s hs => hm s (by simp [hs])) s hs

theorem am_scale (k : ℚ) (u : String) (g : Option Str → Option Str) (a : Stmt) (n : Str) (b : Str) (x : List Str)
    (h : Stmt.scale k u g a = .am n b x) : a = .am n b x := by
  cases a <;> first | exact h | cases h

/-- A file is changed and written, and the text is read again. -/
theorem saved_changed {g : Stmt → Stmt} {c : AmPrim → AmPrim} {center : String → Pt → Pt → Pt → Option Pt}
    {env : EvalEnv (List AmPrim)} (hg : Changes g c env) (hcen : env.center = center)
    (ham : ∀ a n b x, g a = .am n b x → a = .am n b x) (fs : Str → Option Str) {l : List Stmt} {st : FileSettings}
    (hst : FormatOK st) (hwf : WFList st false ((l.map g).filter fun s => !isAM s)) {s : AmState}
    (hs : amRun 0 {} l = .ok s) (hm : MacrosKeptBy c s l) {E : EvalState (List AmPrim)} {l' : List Stmt}
    (he : evalAll env initState (l.map g) = .ok (E, l')) :
    ∃ text f', writeFile st (withPrims (fun i => (s.prims i).map c) 0 (l.map g)) = .ok text ∧
      loads (amReader center) fs text = .ok f' ∧ f'.primitives = E.primitives ∧
      f'.settings = (rewritten (fun i => (s.prims i).map c) 0 (l.map g)).foldl applySetting defaultSettings := by
  have hget : ∀ (j : ℕ) n b x, (l.map g)[j]? = some (Stmt.am n b x) → l[j]? = some (Stmt.am n b x) := by
    intro j n b x h
    rw [List.getElem?_map, Option.map_eq_some_iff] at h
    obtain ⟨a, h1, h2⟩ := h
    rw [h1, ham a n b x h2]
  have hpl : ∀ j, ∀ p ∈ (s.prims j).map c, Rs274x.Plainly p := by
    intro i p hp
    obtain ⟨q, hq, rfl⟩ := List.mem_map.1 hp
    obtain ⟨d, hd⟩ := amRun_prims hs (fun i hi => absurd rfl hi) i (List.ne_nil_of_mem hq)
    exact hm.plainly _ hd q hq
  have hused : ∀ (j : ℕ) n b x, (l.map g)[j]? = some (Stmt.am n b x) → (s.prims (0 + j)).map c ≠ [] := by
    intro j n b x hj
    rw [Nat.zero_add]; simpa using hm.used j n b x (hget j n b x hj)
  have hnames : ∀ n b x, Stmt.am n b x ∈ l.map g → MacroName n := by
    intro n b x hmem
    obtain ⟨j, hj⟩ := List.getElem?_of_mem hmem
    exact hm.names n b x (List.mem_of_getElem? (hget j n b x hj))
  obtain ⟨text, pst, t1, t2⟩ := C13_write_read_partial fs st hst _
    (wf_readable (prims := fun i => (s.prims i).map c) _ hused hpl hnames hwf)
  rw [asRead_readable hused (fun s _ hs => by cases s <;> first | rfl | cases hs)] at t2
  obtain ⟨m', he⟩ := eval_changed center (fin := fun i => (s.prims i).map c)
    (fun i p hp => (hpl i p hp).rebuildable) hg hcen (fun _ => none) hs
    (fun v hv => ⟨by rw [hm.same v hv], hm.some_ v hv⟩) (fun n i b h => by cases h) he
  have he : evalAll (amReader center) initState (rewritten (fun i => (s.prims i).map c) 0 (l.map g)) = _ := he
  refine ⟨text, ⟨rewritten (fun i => (s.prims i).map c) 0 l', pst, E.primitives⟩, ?_, ?_, rfl, ?_⟩
  · rw [← write_readable]; exact t1
  · simp only [loads, t2, he, bind, Except.bind]
    rfl
  · exact (loads_settings _ t2 he).symm.trans (evalAll_settings _ _ he)

/-- Common form of the two theorems below. -/
theorem saved_scaled {k : ℚ} (hk : 0 < k) (hk' : k ≤ 254 / 10) {u : String} {g : Option Str → Option Str} (hg : FnOK g)
    {c : AmPrim → AmPrim} (hc : ∀ p, c p = p.scaled k) (fs : Str → Option Str) (data : Str)
    {f : GerberFile (List AmPrim)} (h : loads (amReader findCenterSQ) fs data = .ok f) (hst : FormatOK f.settings)
    (hmo : ∃ m, .mo m ∈ f.statements) (hcon : Convertible f.statements)
    (hwf : WFList { f.settings with units := u } false
      ((f.statements.map (Stmt.scale k u g)).filter fun s => !isAM s))
    {s : AmState} (hs : amRun 0 {} f.statements = .ok s) (hm : MacrosKeptBy c s f.statements) :
    ∃ text f', writeFile { f.settings with units := u }
        (withPrims (fun i => (s.prims i).map c) 0 (f.statements.map (Stmt.scale k u g))) = .ok text ∧
      loads (amReader findCenterSQ) fs text = .ok f' ∧
      f'.primitives = f.primitives.map (Prim.scale k u (List.map c)) ∧
      f'.settings = { f.settings with units := u } := by
  obtain ⟨stmts, st, h1, hsound, h3, h4⟩ := loads_ok _ h
  have hset := loads_settings _ h1 h3
  have h5 := C18_again _ stmts h3
  have hmode := evalAll_modeOK _ h3 fun s hs => (hsound s hs).modeOK
  obtain ⟨st', l', e1, e2⟩ := evalAll_scale k u hg (scaledReader_scale findCenterSQ hk.ne' c) _ hmode
    (allScaleFor rfl hk hk' _ hcon) h5
  obtain ⟨text, f', t1, t2, t3, t4⟩ := saved_changed (changes_scale findCenterSQ hk.ne' hc u g) rfl
    (am_scale k u g) fs (st := { f.settings with units := u }) hst hwf hs hm e1
  refine ⟨text, f', t1, t2, by rw [t3, e2, h4], ?_⟩
  rw [t4, settings_scale _ k u g f.statements 0 defaultSettings defaultSettings (.inl ⟨rfl, hmo⟩)]
  have h8 := evalAll_settings _ _ h5
  rw [hset] at h8
  rw [h8]
  rfl

/-! ## C85 -/

/-- **C85.**  A text in inch is read, the file is converted to millimetres and written, and the written text is read:
the primitives are the same with all lengths multiplied by 25.4, those of macros too, and the file is in millimetres.
Provided that the units are stated before they are used, that there are no polygon apertures, and that the converted
statements and macros can be written faithfully (`WFList`, see C13, and `MacrosKeptBy`, see C47 and C84). -/
theorem C85_metric_partial (fs : Str → Option Str) (data : Str) {f : GerberFile (List AmPrim)}
    (h : loads (amReader findCenterSQ) fs data = .ok f) (hu : f.settings.units = "inch") (hst : FormatOK f.settings)
    (hmo : ∃ m, .mo m ∈ f.statements) (hcon : Convertible f.statements)
    (hwf : WFList { f.settings with units := "metric" } false
      ((f.statements.map Stmt.inchToMetric).filter fun s => !isAM s))
    {s : AmState} (hs : amRun 0 {} f.statements = .ok s) (hm : MacrosKeptBy AmPrim.toMetric s f.statements) :
    ∃ text f', f.saveMetric = .ok text ∧ loads (amReader findCenterSQ) fs text = .ok f' ∧
      f'.primitives = f.primitives.map (Prim.scale (254 / 10) "metric" (List.map (AmPrim.scaled (254 / 10)))) ∧
      f'.settings = { f.settings with units := "metric" } := by
  have e : (AmPrim.toMetric : AmPrim → AmPrim) = AmPrim.scaled (254 / 10) := funext toMetric_scaled
  rw [inchToMetric_eq] at hwf
  obtain ⟨text, f', t1, t2, t3, t4⟩ := saved_scaled (k := 254 / 10) (by norm_num) le_rfl metricFunction_ok
    toMetric_scaled fs data h hst hmo hcon hwf hs hm
  refine ⟨text, f', ?_, t2, by rw [t3, e], t4⟩
  simp only [GerberFile.saveMetric, hs, bind, Except.bind, GerberFile.saveAs, GerberFile.macroFile, MacroFile.toMetric,
    Program.toMetric, MacroStmt.toMetric, hu, inchToMetric_eq]
  simpa [Utils.mmPerInch] using t1

/-- The same for a text in millimetres that is converted to inch. -/
theorem C85_inch_partial (fs : Str → Option Str) (data : Str) {f : GerberFile (List AmPrim)}
    (h : loads (amReader findCenterSQ) fs data = .ok f) (hu : f.settings.units = "metric") (hst : FormatOK f.settings)
    (hmo : ∃ m, .mo m ∈ f.statements) (hcon : Convertible f.statements)
    (hwf : WFList { f.settings with units := "inch" } false
      ((f.statements.map Stmt.metricToInch).filter fun s => !isAM s))
    {s : AmState} (hs : amRun 0 {} f.statements = .ok s) (hm : MacrosKeptBy AmPrim.toInch s f.statements) :
    ∃ text f', f.saveInch = .ok text ∧ loads (amReader findCenterSQ) fs text = .ok f' ∧
      f'.primitives = f.primitives.map (Prim.scale (10 / 254) "inch" (List.map (AmPrim.scaled (10 / 254)))) ∧
      f'.settings = { f.settings with units := "inch" } := by
  have e : (AmPrim.toInch : AmPrim → AmPrim) = AmPrim.scaled (10 / 254) := funext toInch_scaled
  have e2 : Utils.mmPerInch⁻¹ = 10 / 254 := by norm_num [Utils.mmPerInch]
  rw [metricToInch_eq, e2] at hwf
  obtain ⟨text, f', t1, t2, t3, t4⟩ := saved_scaled (k := 10 / 254) (by norm_num) (by norm_num) inchFunction_ok
    toInch_scaled fs data h hst hmo hcon hwf hs hm
  refine ⟨text, f', ?_, t2, by rw [t3, e], t4⟩
  simp only [GerberFile.saveInch, hs, bind, Except.bind, GerberFile.saveAs, GerberFile.macroFile, MacroFile.toInch,
    Program.toInch, MacroStmt.toInch, hu, metricToInch_eq, e2]
  simpa using t1

/-! ## Files that are not covered -/

/-- The primitives of the file that is read, the text that is written after conversion, and the primitives read from
it. -/
def againMetric (data : Str) : Option (List (Prim (List AmPrim)) × Str × List (Prim (List AmPrim))) := do
  let env := amReader fun _ _ _ _ => none
  let f ← (loads env (fun _ => none) data).toOption
  let text ← f.saveMetric.toOption
  let f' ← (loads env (fun _ => none) text).toOption
  some (f.primitives, text, f'.primitives)

/-- The format is kept, so there may be too few digits: 5 inch are 127 mm, and 12.7 mm are read; 0.0001 inch are 0.00254
mm, and 0.0025 mm are read. -/
theorem C85_format_violated :
    againMetric "%FSLAX24Y24*%\n%MOIN*%\n%ADD10C,0.1*%\nD10*\nX50000Y1D03*\nM02*\n".toList =
      some ([.flash (.circle (1 / 10) {}) (5, 1 / 10000) "dark" "inch"],
        "%FSLAX24Y24*%\n%MOMM*%\n%ADD10C,2.54*%\nD10*\nX1270000Y25D03*\nM02*\n".toList,
        [.flash (.circle (254 / 100) {}) (127 / 10, 1 / 400) "dark" "metric"]) := by
  decide +kernel

/-- Without a statement of the units, there is none in the written file, and millimetres are read as inch. -/
theorem C85_no_units_violated :
    againMetric "%FSLAX24Y24*%\n%ADD10C,0.1*%\nD10*\nX10000Y0D03*\nM02*\n".toList =
      some ([.flash (.circle (1 / 10) {}) (1, 0) "dark" "inch"],
        "%FSLAX24Y24*%\n%ADD10C,2.54*%\nD10*\nX254000Y0D03*\nM02*\n".toList,
        [.flash (.circle (254 / 100) {}) (254 / 10, 0) "dark" "inch"]) := by
  decide +kernel

/-- A hexagon gets 152 sides. -/
theorem C85_polygon_violated :
    againMetric "%FSLAX24Y24*%\n%MOIN*%\n%ADD10P,0.1X6*%\nD10*\nX10000Y0D03*\nM02*\n".toList =
      some ([.flash (.polygon 6 (1 / 20) 0 {}) (1, 0) "dark" "inch"],
        "%FSLAX24Y24*%\n%MOMM*%\n%ADD10P,2.54X152.4*%\nD10*\nX254000Y0D03*\nM02*\n".toList,
        [.flash (.polygon 152 (127 / 100) 0 {}) (254 / 10, 0) "dark" "metric"]) := by
  decide +kernel

/-! ## Examples -/

def dotText : Str :=
  "%FSLAX24Y24*%\n%MOIN*%\n%AMDOT*1,1,$1,0,0*%\n%ADD10DOT,2*%\nD10*\nX10000Y0D03*\nM02*\n".toList

def dotStmts : List Stmt := [.fs "leading" "absolute" (2, 4), .mo "inch",
  .am "DOT".toList "1,1,$1,0,0".toList [], .ad 10 "DOT".toList [[2]], .aperture 10 false,
  .coord { x := some 1, y := some 0, op := some ['D', '0', '3'] }, .eof]

theorem dot_name : MacroName ['D', 'O', 'T'] := ⟨'D', ['O', 'T'], rfl, by simp, Or.inl (Or.inr (by decide)), by
  intro d hd
  simp only [List.mem_cons, List.not_mem_nil, or_false] at hd
  rcases hd with rfl | rfl <;> exact Or.inl (Or.inr (by decide))⟩

private theorem dot_wf : WFList { sampleSettings with units := "metric" } false
    ((dotStmts.map Stmt.inchToMetric).filter fun s => !isAM s) := by
  have e : (dotStmts.map Stmt.inchToMetric).filter (fun s => !isAM s) =
      [.fs "leading" "absolute" (2, 4), .mo "metric", .ad 10 "DOT".toList [[254 / 5]], .aperture 10 false,
        .coord { x := some (127 / 5), y := some 0, op := some ['D', '0', '3'] }, .eof] := by decide +kernel
  rw [e]
  refine ⟨⟨rfl, rfl, rfl⟩, by simp, Or.inl rfl, by simp, ?_, by simp,
    Or.inr (by decide), by simp, ?_, by simp [isFS], trivial, by simp, trivial⟩
  · right
    refine ⟨_, rfl, by simp, ?_, by simp [dot_name]⟩
    intro v hv
    simp only [List.mem_singleton] at hv
    exact ⟨508, -1, by decide, by subst hv; norm_num⟩
  · refine ⟨Or.inl rfl, Or.inr ⟨'3', by decide, Or.inl rfl⟩, by decide, ?_, ?_, by simp, by simp⟩
    · intro v hv; cases hv; exact ⟨254000, by decide, by norm_num [sampleSettings]⟩
    · intro v hv; cases hv; exact ⟨0, by decide, by norm_num⟩

theorem dot_macros_by {c : AmPrim → AmPrim} (hc : Rs274x.Plainly (c (.circle true 2 (0, 0)))) :
    ∃ s, amRun 0 {} dotStmts = .ok s ∧ MacrosKeptBy c s dotStmts := by
  have h : (amRun 0 {} dotStmts).toOption.map (fun s => (s.uses, s.prims 2)) =
      some ([(2, 10, [.circle true 2 (0, 0)])], [.circle true 2 (0, 0)]) := by decide +kernel
  match hs : amRun 0 {} dotStmts, h with
  | .ok s, h =>
    simp only [Except.toOption, Option.map_some, Option.some.injEq, Prod.mk.injEq] at h
    refine ⟨s, rfl, ?_, ?_, ?_, ?_, ?_⟩
    · intro u hu
      rw [h.1] at hu
      simp only [List.mem_singleton] at hu
      subst hu; exact h.2.symm
    · intro u hu
      rw [h.1] at hu
      simp only [List.mem_singleton] at hu
      subst hu; simp
    · intro k n b x hk
      match k, hk with
      | 2, _ => rw [h.2]; simp
      | 0, hk | 1, hk | 3, hk | 4, hk | 5, hk | 6, hk => simp [dotStmts] at hk
      | k + 7, hk => simp [dotStmts] at hk
    · intro u hu
      rw [h.1] at hu
      simp only [List.mem_singleton] at hu
      subst hu
      intro p hp
      simp only [List.mem_singleton] at hp
      subst hp
      exact hc
    · intro n b x hm
      simp only [dotStmts, List.mem_cons, List.not_mem_nil, or_false, reduceCtorEq, false_or, Stmt.am.injEq] at hm
      obtain ⟨rfl, -, -⟩ := hm
      exact dot_name

private theorem dot_macros : ∃ s, amRun 0 {} dotStmts = .ok s ∧ MacrosKeptBy AmPrim.toMetric s dotStmts := by
  refine dot_macros_by ?_
  rw [show (AmPrim.circle true 2 (0, 0)).toMetric = .circle true (254 / 5) (0, 0) from by decide +kernel]
  refine .inl ⟨⟨508, 1, by norm_num, by norm_num, .inr (by rw [abs_of_pos] <;> norm_num)⟩, ?_, ?_⟩ <;>
    exact ⟨0, 0, by norm_num, by norm_num, .inl rfl⟩

private theorem dot_convertible : Convertible dotStmts where
  units pre s post e hs := by
    refine ⟨"inch", ?_⟩
    match pre, e with
    | [], e => simp only [dotStmts, List.nil_append, List.cons.injEq] at e; rw [← e.1] at hs; cases hs
    | [a], e =>
      simp only [dotStmts, List.cons_append, List.nil_append, List.cons.injEq] at e; rw [← e.2.1] at hs; cases hs
    | a :: b :: pre, e =>
      simp only [dotStmts, List.cons_append, List.cons.injEq] at e
      simp [← e.2.1]
  noPolygon d m h := by simp [dotStmts] at h
  small c h := by
    simp only [dotStmts, List.mem_cons, List.not_mem_nil, or_false, reduceCtorEq, false_or, Stmt.coord.injEq] at h
    subst h
    rintro v (h | h | h | h) <;> cases h <;> norm_num

theorem dot_loads (center : String → Pt → Pt → Pt → Option Pt) :
    ∃ f, loads (amReader center) (fun _ => none) dotText = .ok f ∧ f.statements = dotStmts ∧
      f.settings = sampleSettings ∧ f.primitives = [.flash (.group [.circle true 2 (0, 0)]) (1, 0) "dark" "inch"] := by
  have h : (parseText (fun _ => none) dotText).toOption = some (dotStmts, sampleSettings) := by decide +kernel
  match hp : parseText (fun _ => none) dotText, h with
  | .ok r, h =>
    simp only [Except.toOption, Option.some.injEq] at h
    subst h
    have hb : (amReader center).build ['1', ',', '1', ',', '$', '1', ',', '0', ',', '0'] "inch" [2] = .ok [.circle true 2 (0, 0)] := by
      show (Am.build _ _).map _ = _
      decide +kernel
    refine ⟨⟨dotStmts, sampleSettings, [.flash (.group [.circle true 2 (0, 0)]) (1, 0) "dark" "inch"]⟩, ?_, rfl, rfl, rfl⟩
    simp only [loads, hp, bind, Except.bind]
    simp [dotStmts, evalAll, evaluate, bind, Except.bind, initState, shapeOf, firstMods, hb, evalCoord, evalOp,
      Coord.onlyFunction, setFunction, isG1, isG2, isG3, isD1, isD2, isD3]

/-- A file with a macro that is converted. -/
example : ∃ f s, loads (amReader findCenterSQ) (fun _ => none) dotText = .ok f ∧ f.settings.units = "inch" ∧
    FormatOK f.settings ∧ (∃ m, .mo m ∈ f.statements) ∧ Convertible f.statements ∧
    WFList { f.settings with units := "metric" } false ((f.statements.map Stmt.inchToMetric).filter fun s => !isAM s) ∧
    amRun 0 {} f.statements = .ok s ∧ MacrosKeptBy AmPrim.toMetric s f.statements ∧
    f.primitives.map (Prim.scale (254 / 10) "metric" (List.map (AmPrim.scaled (254 / 10)))) =
      [.flash (.group [.circle true (254 / 5) (0, 0)]) (127 / 5, 0) "dark" "metric"] := by
  obtain ⟨f, h1, h2, h3, h4⟩ := dot_loads findCenterSQ
  obtain ⟨s, h5, h6⟩ := dot_macros
  refine ⟨f, s, h1, by rw [h3]; rfl, by rw [h3]; exact ⟨by decide, by decide, by decide, by decide⟩,
    ⟨"inch", by rw [h2]; simp [dotStmts]⟩, by rw [h2]; exact dot_convertible, by rw [h2, h3]; exact dot_wf,
    by rw [h2]; exact h5, by rw [h2]; exact h6, ?_⟩
  rw [h4]
  decide +kernel

end Verif.Gerber
