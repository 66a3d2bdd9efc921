import Verif.Lemmas.ExcellonTool
import Verif.Spec.Excellon

/-! # C29: drill statements survive text round trips

Every class is written with `to_excellon(settings)` and read with its `from_excellon`; classes
without `from_excellon` (the constant commands) and coordinates with a mode are read with the
parser. -/

namespace Verif.Excellon
open Verif.Py Verif.Py.Re Verif.Cam Verif.Utils Spec
open Verif.Gerber (IsInt IsDec)

/-! ## Tools -/

/-- **C29** (tools).  A tool whose numbers fit the format is written and read back; plating is not
written, and the hit count starts again. -/
theorem C29_tool_partial {st : FileSettings} (hf : GoodFormat st.format) {t : Tool} (ht : GoodTool st.format t)
    (plated : Option String) :
    ∃ text, t.toExcellon st = .ok text ∧ Tool.fromExcellon text st plated =
      .ok { t with settings := some st, plated := plated, hitCount := 0 } := by
  obtain ⟨l, _, h2, h3⟩ := tool_text hf ht plated
  exact ⟨_, h2, h3⟩

/-- The settings of the examples: inch, two digits before the point and four after it. -/
def inch24 : FileSettings := ⟨"absolute", "inch", "trailing", "leading", (2, 4), "degrees"⟩

/-- A tool with all its fields. -/
def fullTool : Tool :=
  { settings := some inch24, number := 12, feedRate := some 85, retractRate := some (5 / 2), rpm := some 30500,
    diameter := some (31 / 1000), maxHitCount := some 99, depthOffset := some (-1 / 16) }

example : GoodTool inch24.format fullTool where
  retract := fun v hv => ⟨25000, by cases hv; norm_num [inch24], by decide⟩
  feed := fun v hv => ⟨850000, by cases hv; norm_num [inch24], by decide⟩
  maxHit := fun v hv => ⟨990000, by cases hv; norm_num [inch24], by decide⟩
  depth := fun v hv => ⟨-625, by cases hv; norm_num [inch24], by decide⟩
  rpm := fun v hv => by
    cases hv; exact ⟨by norm_num, 305000, by norm_num [inch24], by decide⟩
  diameter := fun v hv => by
    cases hv; exact ⟨⟨310, by norm_num [inch24], by decide⟩, .inr (by norm_num [abs_of_pos])⟩

example : fullTool.toExcellon inch24 = .ok "T12B025F85H99S305C0.0310Z-000625".toList := by decide +kernel

/-- Spindle speeds from 100000 rpm are written without decimals and read as something else. -/
theorem C29_rpm_violated : ∃ (st : FileSettings) (t : Tool), GoodFormat st.format ∧
    (∃ text t', t.toExcellon st = .ok text ∧ Tool.fromExcellon text st t.plated = .ok t' ∧
      t.rpm = some 120000 ∧ t'.rpm = some 1200000) :=
  ⟨⟨"absolute", "inch", "trailing", "leading", (4, 2), "degrees"⟩,
    { settings := none, number := 1, rpm := some 120000 }, by unfold GoodFormat; decide,
    "T01S120".toList,
    { settings := some ⟨"absolute", "inch", "trailing", "leading", (4, 2), "degrees"⟩, number := 1, rpm := some 1200000 },
    by decide +kernel, by decide +kernel, rfl, rfl⟩

/-! ## Coordinates, repetitions and slots -/

/-- **C29** (coordinates).  A coordinate statement without mode, with at least one coordinate on the
grid of the format, reads back. -/
theorem C29_coordinate {st : FileSettings} (hf : GoodFormat st.format) {x y : Option ℚ}
    (hx : OptGrid st.format x) (hy : OptGrid st.format y) (hne : x ≠ none ∨ y ≠ none)
    (tools : ℕ → Option Tool) (u : String) :
    ∃ text, Stmt.toExcellon tools st ⟨u, .coord x y none⟩ = .ok text ∧
      coordFrom text st = .ok (.coord x y none) := by
  obtain ⟨t, h1, h2, _⟩ := coord_roundtrip hf hx hy hne none tools u
  refine ⟨_, h1, ?_⟩
  unfold coordFrom
  rw [show modePrefix none ++ t = t from rfl, h2]; rfl

example : Stmt.toExcellon (fun _ => none) inch24 ⟨"inch", .coord (some (-1 / 2)) (some (31 / 4)) none⟩ =
    .ok "X-005Y0775".toList := by decide +kernel

/-- The mode of a parser state after `G00` or `G01`. -/
def Moded (m : String) : Prop := m = "ROUT" ∨ m = "LINEAR"

/-- **C29** (coordinates with mode).  The parser reads the text of a coordinate statement with mode
back to it; it puts a route mode statement before it.  (A linear move with the tool down needs a
tool.) -/
theorem C29_coordinate_mode_partial {s : PState} {st : FileSettings} (hp : s.prev = []) (hs : s.settings = .ok st)
    (hf : GoodFormat st.format) {x y : Option ℚ} (hx : OptGrid st.format x) (hy : OptGrid st.format y)
    (hne : x ≠ none ∨ y ≠ none) {m : String} (hm : Moded m) (hd : s.down = false)
    (tools : ℕ → Option Tool) (u : String) :
    ∃ text s', Stmt.toExcellon tools st ⟨u, .coord x y (some m)⟩ = .ok text ∧ s.parseLine text = .ok s' ∧
      s'.statements = s.statements ++ [⟨"inch", .routeMode⟩, ⟨"inch", .coord x y (some m)⟩] := by
  obtain ⟨t, h1, h2, wx, wy, rfl, hwx, hwy, ix, iy⟩ := coord_roundtrip hf hx hy hne (some m) tools u
  have hall := coordText_all hwx hwy
  have hnz : coordText wx wy ≠ [] := by
    have : x.isSome = true ∨ y.isSome = true := by
      rcases hne with h | h
      · exact .inl (Option.isSome_iff_ne_none.2 h)
      · exact .inr (Option.isSome_iff_ne_none.2 h)
    rw [← ix, ← iy] at this
    cases wx <;> cases wy <;> simp [coordText] at this ⊢
  have hall' : (modePrefix (some m) ++ coordText wx wy).all (fun c => !isSpace c) = true := by
    have ha : (coordText wx wy).all (fun c => !isSpace c) = true :=
      List.all_eq_true.2 fun c hc => by rw [coordCh_not_space (List.all_eq_true.1 hall c hc)]; rfl
    rw [List.all_append, ha, Bool.and_true]
    rcases hm with rfl | rfl <;> rfl
  have hl := parseLine_eq hp (line := modePrefix (some m) ++ coordText wx wy) (by simp [hnz]) hall'
  have hne3 : ∀ a b c : Char, strip ([a, b, c] ++ coordText wx wy) ≠ [a, b, c] ∨
      ([a, b, c] ++ coordText wx wy).all (fun c => !isSpace c) = false := by
    intro a b c
    by_cases h : ([a, b, c] ++ coordText wx wy).all (fun c => !isSpace c) = true
    · left
      rw [strip_of_no_space h]
      simpa using hnz
    · right; simpa using h
  rcases hm with rfl | rfl
  · have e : modePrefix (some "ROUT") = ['G', '0', '0'] := rfl
    rw [e] at h1 hl hall'
    refine ⟨_, { ({ s.add .routeMode with state := "ROUT" } : PState).add (.coord x y (some "ROUT")) with
      pos := move s.notation_ s.pos x y }, h1, hl.trans ?_, ?_⟩
    · have hstrip : strip (['G', '0', '0'] ++ coordText wx wy) ≠ "G00".toList := by
        rcases hne3 'G' '0' '0' with h | h
        · exact h
        · rw [hall'] at h; cases h
      have hdis : s.dispatch (['G', '0', '0'] ++ coordText wx wy) = s.rout (['G', '0', '0'] ++ coordText wx wy) := by
        unfold PState.dispatch
        simp only [startsWith, List.cons_append, List.nil_append] at hstrip ⊢
        simp
        exact fun h => absurd h hstrip
      rw [hdis]
      unfold PState.rout
      have hs' : ({ s.add .routeMode with state := "ROUT" } : PState).settings = .ok st := hs
      simp only [hs']
      show (coords (coordText wx wy) st >>= _) = _
      rw [h2]
      rfl
    · simp [PState.add]
  · have e : modePrefix (some "LINEAR") = ['G', '0', '1'] := rfl
    rw [e] at h1 hl hall'
    refine ⟨_, { ({ s.add .routeMode with state := "LINEAR" } : PState).add (.coord x y (some "LINEAR")) with
      pos := move s.notation_ s.pos x y }, h1, hl.trans ?_, ?_⟩
    · have hstrip : strip (['G', '0', '1'] ++ coordText wx wy) ≠ "G01".toList := by
        rcases hne3 'G' '0' '1' with h | h
        · exact h
        · rw [hall'] at h; cases h
      have hdis : s.dispatch (['G', '0', '1'] ++ coordText wx wy) = s.linear (['G', '0', '1'] ++ coordText wx wy) := by
        unfold PState.dispatch
        simp only [startsWith, List.cons_append, List.nil_append] at hstrip ⊢
        simp
        exact fun h => absurd h hstrip
      rw [hdis]
      unfold PState.linear
      have hs' : ({ s.add .routeMode with state := "LINEAR" } : PState).settings = .ok st := hs
      simp only [hs']
      show (coords (coordText wx wy) st >>= _) = _
      rw [h2]
      show (if s.down = true then _ else _) = _
      rw [hd]
      rfl
    · simp [PState.add]

/-- The parser's state in the examples: a header has been read and the tool is up. -/
def readyState : PState := { PState.init none [] with state := "DRILL" }

example : readyState.settings = .ok inch24 ∧ readyState.prev = [] ∧ readyState.down = false := by decide +kernel

/-- A routing move is written in two lines, the command and the command with coordinates; reading
them back fails. -/
theorem C29_rout_lines_violated : ∃ (s s' : PState) (t1 t2 : Str), s.parseLine "G00X01Y01".toList = .ok s' ∧
    s'.statements = s.statements ++ [⟨"inch", .routeMode⟩, ⟨"inch", .coord (some 1) (some 1) (some "ROUT")⟩] ∧
    Stmt.toExcellon (fun _ => none) inch24 ⟨"inch", .routeMode⟩ = .ok t1 ∧
    Stmt.toExcellon (fun _ => none) inch24 ⟨"inch", .coord (some 1) (some 1) (some "ROUT")⟩ = .ok t2 ∧
    s.run [t1, t2] = .error .valueError :=
  ⟨readyState, { readyState with
      state := "ROUT"
      pos := (1, 1)
      statements := [⟨"inch", .routeMode⟩, ⟨"inch", .coord (some 1) (some 1) (some "ROUT")⟩] },
    "G00".toList, "G00X01Y01".toList, by decide +kernel, by decide +kernel, by decide +kernel, by decide +kernel,
    by decide +kernel⟩

/-- **C29** (repetitions).  A repeat command with steps on the grid, none of them zero, reads back. -/
theorem C29_repeat_partial {st : FileSettings} (hf : GoodFormat st.format) (n : ℕ) {dx dy : Option ℚ}
    (hx : OptGrid st.format dx) (hy : OptGrid st.format dy) (nx : dx ≠ some 0) (ny : dy ≠ some 0)
    (tools : ℕ → Option Tool) (u : String) :
    ∃ text, Stmt.toExcellon tools st ⟨u, .rep n dx dy⟩ = .ok text ∧ repFrom text st = .ok (.rep n dx dy) := by
  obtain ⟨wx, wy, _, _, h3, h4⟩ := repeat_roundtrip hf n hx hy nx ny tools u
  exact ⟨_, h3, h4⟩

example : Stmt.toExcellon (fun _ => none) inch24 ⟨"inch", .rep 4 (some (1 / 8)) none⟩ = .ok "R4X00125".toList := by
  decide +kernel

/-- A step of zero is not written and read as missing. -/
theorem C29_repeat_zero_violated : Stmt.toExcellon (fun _ => none) inch24 ⟨"inch", .rep 4 (some 0) (some 1)⟩ =
    .ok "R4Y01".toList ∧ repFrom "R4Y01".toList inch24 = .ok (.rep 4 none (some 1)) := by decide +kernel

theorem splitStr_none {c : Char} {t a : Str} (h : c ∉ a) : splitStr (c :: t) a = [a] := by
  unfold splitStr
  induction a with
  | nil => rfl
  | cons d a ih =>
    have hd : c ≠ d := fun e => h (e ▸ List.mem_cons_self)
    rw [splitStrGo, ih fun hm => h (List.mem_cons_of_mem _ hm)]
    simp [hd]

theorem splitStrGo_skip (sub : Str) : ∀ (a b : Str), splitStrGo sub a.length (a ++ b) = splitStrGo sub 0 b
  | [], _ => rfl
  | _ :: a, b => by
    rw [List.length_cons, List.cons_append, splitStrGo]
    exact splitStrGo_skip sub a b

theorem splitStr_one {c : Char} {t a b : Str} (h : c ∉ a) :
    splitStr (c :: t) (a ++ (c :: t) ++ b) = a :: splitStr (c :: t) b := by
  unfold splitStr
  induction a with
  | nil =>
    rw [List.nil_append, List.cons_append, splitStrGo]
    have : (c :: t).isPrefixOf (c :: (t ++ b)) = true := by simp
    rw [if_pos this]
    simp only [List.length_cons, Nat.add_sub_cancel]
    rw [splitStrGo_skip]
  | cons d a ih =>
    have hd : c ≠ d := fun e => h (e ▸ List.mem_cons_self)
    rw [List.cons_append, List.cons_append, splitStrGo, ih fun hm => h (List.mem_cons_of_mem _ hm)]
    simp [hd]

/-- **C29** (slots).  A slot with coordinates on the grid, at least one for its start and its end,
and an end coordinate wherever the start has one, reads back. -/
theorem C29_slot_partial {st : FileSettings} (hf : GoodFormat st.format) {x1 y1 x2 y2 : Option ℚ}
    (h1 : OptGrid st.format x1) (h2 : OptGrid st.format y1) (h3 : OptGrid st.format x2)
    (h4 : OptGrid st.format y2) (n1 : x1 ≠ none ∨ y1 ≠ none) (n2 : x2 ≠ none ∨ y2 ≠ none)
    (hx : x2 = none → x1 = none) (hy : y2 = none → y1 = none) (tools : ℕ → Option Tool) (u : String) :
    ∃ text, Stmt.toExcellon tools st ⟨u, .slot x1 y1 x2 y2⟩ = .ok text ∧
      slotFrom text st = .ok (.slot x1 y1 x2 y2) := by
  obtain ⟨w1, w2, a1, a2, a3, a4, a5, a6⟩ := fields_spec hf st.zeroSuppression h1 h2
  obtain ⟨w3, w4, b1, b2, b3, b4, b5, b6⟩ := fields_spec hf st.zeroSuppression h3 h4
  refine ⟨coordText w1 w2 ++ "G85".toList ++ coordText w3 w4, ?_, ?_⟩
  · unfold Stmt.toExcellon
    simp only [a1, a2, b1, b2]
    show (Except.ok _ : PyR Str) = _
    rw [← coordText_append w1 w2, ← coordText_append w3 w4]
    simp only [List.append_assoc]
    rfl
  · have g1 : 'G' ∉ coordText w1 w2 := not_mem_of_all (coordText_all a3 a4) (by decide)
    have g2 : 'G' ∉ coordText w3 w4 := not_mem_of_all (coordText_all b3 b4) (by decide)
    have e : splitStr "G85".toList (coordText w1 w2 ++ "G85".toList ++ coordText w3 w4) =
        [coordText w1 w2, coordText w3 w4] := by
      have := splitStr_one (t := ['8', '5']) (b := coordText w3 w4) g1
      rw [splitStr_none g2] at this
      exact this
    unfold slotFrom
    rw [e]
    show (coords (coordText w1 w2) st >>= _) = _
    rw [coords_spec a3 a4 a5 a6 n1]
    show (coords (coordText w3 w4) st >>= _) = _
    rw [coords_spec b3 b4 b5 b6 n2]
    show Except.ok _ = _
    congr 2
    · split
      · rename_i h; rw [hx h, h]
      · rfl
    · split
      · rename_i h; rw [hy h, h]
      · rfl

example : Stmt.toExcellon (fun _ => none) inch24 ⟨"inch", .slot (some 1) none (some (3 / 2)) (some 2)⟩ =
    .ok "X01G85X015Y02".toList := by decide +kernel

/-- An end coordinate that is missing is read as the start's. -/
theorem C29_slot_end_violated :
    Stmt.toExcellon (fun _ => none) inch24 ⟨"inch", .slot (some 1) (some 1) none (some 2)⟩ =
      .ok "X01Y01G85Y02".toList ∧
    slotFrom "X01Y01G85Y02".toList inch24 = .ok (.slot (some 1) (some 1) (some 1) (some 2)) := by decide +kernel

/-! ## Tool selections and rates -/

/-- **C29** (tool selections).  Tool numbers below 1000 without compensation, and below 100 with a
compensation index that is not negative, read back. -/
theorem C29_tool_selection_partial (n : ℕ) (c : Option ℕ) (h : n < 100 ∨ c = none ∧ n < 1000)
    (tools : ℕ → Option Tool) (st : FileSettings) (u : String) :
    ∃ text, Stmt.toExcellon tools st ⟨u, .toolSel n (c.map (↑))⟩ = .ok text ∧
      toolSelFrom text = .ok (.toolSel n (c.map (↑))) := by
  cases c with
  | none =>
    refine ⟨'T' :: (fmt02 n ++ []), rfl, ?_⟩
    unfold toolSelFrom
    have hl : (fmt02 n).length ≤ 3 := fmt02_length_le (by omega)
    simp only [List.append_nil, List.drop_one, List.tail_cons, if_pos hl, pyInt_fmt02]
    rfl
  | some c =>
    have hn : n < 100 := by
      rcases h with h | ⟨h, _⟩
      · exact h
      · cases h
    refine ⟨'T' :: (fmt02 n ++ fmt02 c), rfl, ?_⟩
    unfold toolSelFrom
    have h1 := fmt02_length hn
    have h2 := fmt02_length_ge (c : ℤ)
    have hl : ¬ (fmt02 n ++ fmt02 c).length ≤ 3 := by rw [List.length_append]; omega
    simp only [List.drop_one, List.tail_cons, if_neg hl]
    rw [show (fmt02 ↑n ++ fmt02 ↑c).take 2 = fmt02 n by rw [← h1, List.take_left],
      show (fmt02 ↑n ++ fmt02 ↑c).drop 2 = fmt02 c by rw [← h1, List.drop_left]]
    rw [pyInt_fmt02, pyInt_fmt02]
    rfl

example : Stmt.toExcellon (fun _ => none) inch24 ⟨"inch", .toolSel 7 (some 123)⟩ = .ok "T07123".toList := by
  decide +kernel

/-- Tool numbers of four digits are read as tool and compensation; numbers of three digits with
compensation are cut after two. -/
theorem C29_tool_selection_violated :
    Stmt.toExcellon (fun _ => none) inch24 ⟨"inch", .toolSel 1234 none⟩ = .ok "T1234".toList ∧
    toolSelFrom "T1234".toList = .ok (.toolSel 12 (some 34)) ∧
    Stmt.toExcellon (fun _ => none) inch24 ⟨"inch", .toolSel 123 (some 4)⟩ = .ok "T12304".toList ∧
    toolSelFrom "T12304".toList = .ok (.toolSel 12 (some 304)) := by decide +kernel

/-- **C29** (infeed rates). -/
theorem C29_infeed (r : ℤ) (tools : ℕ → Option Tool) (st : FileSettings) (u : String) :
    ∃ text, Stmt.toExcellon tools st ⟨u, .infeed r⟩ = .ok text ∧ infeedFrom text = .ok (.infeed r) := by
  refine ⟨'F' :: fmt02 r, rfl, ?_⟩
  unfold infeedFrom
  simp only [List.drop_one, List.tail_cons, pyInt_fmt02]
  rfl

/-! ## Comments, units and other settings -/

/-- **C29** (comments).  A comment that does not begin with a semicolon reads back. -/
theorem C29_comment_partial (text : Str) (h : text.head? ≠ some ';') (tools : ℕ → Option Tool)
    (st : FileSettings) (u : String) :
    ∃ line, Stmt.toExcellon tools st ⟨u, .comment text⟩ = .ok line ∧ commentFrom line = .comment text := by
  refine ⟨';' :: text, rfl, ?_⟩
  unfold commentFrom lstripBy
  rw [List.dropWhile_cons_of_pos rfl]
  cases text with
  | nil => rfl
  | cons c t =>
    rw [List.dropWhile_cons_of_neg]
    simpa using h

/-- A comment beginning with a semicolon loses it. -/
theorem C29_comment_violated : Stmt.toExcellon (fun _ => none) inch24 ⟨"inch", .comment "; drill".toList⟩ =
    .ok ";; drill".toList ∧ commentFrom ";; drill".toList = .comment " drill".toList := by decide +kernel

/-- **C29** (units).  A unit statement without a number format reads back. -/
theorem C29_unit_partial {u z : String} (hu : u = "inch" ∨ u = "metric") (hz : z = "leading" ∨ z = "trailing")
    (tools : ℕ → Option Tool) (st : FileSettings) :
    ∃ text, Stmt.toExcellon tools st ⟨u, .unit z none⟩ = .ok text ∧ unitFrom text = ⟨u, .unit z none⟩ := by
  rcases hu with rfl | rfl <;> rcases hz with rfl | rfl <;> exact ⟨_, rfl, by decide +kernel⟩

/-- The number format of a unit statement is not written. -/
theorem C29_unit_format_violated :
    unitFrom "METRIC,LZ,000.000".toList = ⟨"metric", .unit "leading" (some (3, 3))⟩ ∧
    Stmt.toExcellon (fun _ => none) inch24 ⟨"metric", .unit "leading" (some (3, 3))⟩ = .ok "METRIC,LZ".toList ∧
    unitFrom "METRIC,LZ".toList = ⟨"metric", .unit "leading" none⟩ := by decide +kernel

/-- **C29** (incremental mode). -/
theorem C29_incremental {m : String} (hm : m = "on" ∨ m = "off") (tools : ℕ → Option Tool) (st : FileSettings)
    (u : String) : ∃ text, Stmt.toExcellon tools st ⟨u, .incr m⟩ = .ok text ∧ incrFrom text = .incr m := by
  rcases hm with rfl | rfl <;> exact ⟨_, rfl, by decide +kernel⟩

/-- **C29** (versions). -/
theorem C29_version {v : ℤ} (hv : v = 1 ∨ v = 2) (tools : ℕ → Option Tool) (st : FileSettings) (u : String) :
    ∃ text, Stmt.toExcellon tools st ⟨u, .version v⟩ = .ok text ∧ versionFrom text = .ok (.version v) := by
  rcases hv with rfl | rfl <;> exact ⟨_, rfl, by decide +kernel⟩

/-- **C29** (formats). -/
theorem C29_format {v : ℤ} (hv : v = 1 ∨ v = 2) (tools : ℕ → Option Tool) (st : FileSettings) (u : String) :
    ∃ text, Stmt.toExcellon tools st ⟨u, .format v⟩ = .ok text ∧ formatFrom text = .ok (.format v) := by
  rcases hv with rfl | rfl <;> exact ⟨_, rfl, by decide +kernel⟩

/-- **C29** (measuring mode). -/
theorem C29_measuring {u : String} (hu : u = "inch" ∨ u = "metric") (tools : ℕ → Option Tool)
    (st : FileSettings) :
    ∃ text, Stmt.toExcellon tools st ⟨u, .measuring⟩ = .ok text ∧ measuringFrom text = .ok ⟨u, .measuring⟩ := by
  rcases hu with rfl | rfl <;> exact ⟨_, rfl, by decide +kernel⟩

theorem intStr_isNum (n : ℤ) : (intStr n).all isNum = true := by
  have h : (natStr n.natAbs).all isNum = true :=
    all_mono (natStr_all _) fun c hc => by simp [isNum, hc]
  unfold intStr
  split
  · rw [List.all_cons, h]; rfl
  · exact h

theorem split_join : ∀ {l : List ℤ}, l ≠ [] → splitOn '/' (joinSlash (l.map intStr)) = l.map intStr
  | [], h => absurd rfl h
  | [n], _ => splitOn_none (num_not_mem (intStr_isNum n) (by decide))
  | n :: m :: l, _ => by
    have ih := split_join (l := m :: l) (by simp)
    rw [List.map_cons, List.map_cons, joinSlash, splitOn_one (num_not_mem (intStr_isNum n) (by decide))]
    · rw [← List.map_cons, ih]
    · simp

/-- **C29** (links).  A list of linked tools that is not empty reads back. -/
theorem C29_link_partial {l : List ℤ} (hl : l ≠ []) (tools : ℕ → Option Tool) (st : FileSettings) (u : String) :
    ∃ text, Stmt.toExcellon tools st ⟨u, .link l⟩ = .ok text ∧ linkFrom text = .ok (.link l) := by
  refine ⟨_, rfl, ?_⟩
  unfold linkFrom
  rw [split_join hl]
  have : ∀ l : List ℤ, (l.map intStr).mapM pyInt = .ok l := by
    intro l
    induction l with
    | nil => rfl
    | cons n l ih => rw [List.map_cons, List.mapM_cons, pyInt_intStr, ih]; rfl
  rw [this]
  rfl

example : Stmt.toExcellon (fun _ => none) inch24 ⟨"inch", .link [1, 12, 3]⟩ = .ok "1/12/3".toList := by decide +kernel

/-- The empty list cannot be read. -/
theorem C29_link_empty_violated : Stmt.toExcellon (fun _ => none) inch24 ⟨"inch", .link []⟩ = .ok [] ∧
    linkFrom [] = .error .valueError := by decide +kernel

/-- **C29** (end of program) without coordinates. -/
theorem C29_end_partial (tools : ℕ → Option Tool) (st st' : FileSettings) (u : String) :
    ∃ text, Stmt.toExcellon tools st ⟨u, .endProg none none⟩ = .ok text ∧
      endFrom text st' = .ok (.endProg none none) :=
  ⟨_, rfl, rfl⟩

/-- The coordinates at the end of the program are written without regard to the settings, and
negative ones are not read. -/
theorem C29_end_violated :
    let st : FileSettings := ⟨"absolute", "inch", "leading", "trailing", (2, 4), "degrees"⟩
    Stmt.toExcellon (fun _ => none) st ⟨"inch", .endProg (some 1) (some (-1))⟩ = .ok "M30X01Y-01".toList ∧
    endFrom "M30X01Y-01".toList st = .ok (.endProg (some (1 / 10000)) none) := by
  decide +kernel

/-! ## Constant commands -/

/-- The commands without arguments that the parser understands by themselves. -/
def constants : List Kind :=
  [.headerBegin, .headerEnd, .rewindStop, .zRout, .retractClamp, .retractNoClamp, .cutterOff, .cutterLeft,
    .cutterRight, .drillMode, .absMode]

/-- **C29** (constant commands).  The parser reads the text of the command back to it. -/
theorem C29_constant {s : PState} (hp : s.prev = []) {k : Kind} (hk : k ∈ constants) (tools : ℕ → Option Tool)
    (st : FileSettings) (u : String) :
    ∃ text s', Stmt.toExcellon tools st ⟨u, k⟩ = .ok text ∧ s.parseLine text = .ok s' ∧
      s'.statements = s.statements ++ [⟨"inch", k⟩] := by
  simp only [constants, List.mem_cons, List.not_mem_nil, or_false] at hk
  rcases hk with rfl | rfl | rfl | rfl | rfl | rfl | rfl | rfl | rfl | rfl | rfl <;>
    exact ⟨_, _, rfl, (parseLine_eq hp (by decide) (by decide)).trans rfl, rfl⟩

/-- The commands `G00` and `G01` on a line of their own are not kept. -/
theorem C29_route_mode_violated : Stmt.toExcellon (fun _ => none) inch24 ⟨"inch", .routeMode⟩ = .ok "G00".toList ∧
    ∃ s', readyState.parseLine "G00".toList = .ok s' ∧ s'.statements = readyState.statements :=
  ⟨by decide +kernel, { readyState with prev := "G00".toList }, by decide +kernel, rfl⟩

end Verif.Excellon
