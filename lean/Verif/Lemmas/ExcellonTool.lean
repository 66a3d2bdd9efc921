import Verif.Lemmas.ExcellonText

/-! # Lemmas about the text of tool definitions -/

namespace Verif.Excellon
open Verif.Py Verif.Py.Re Verif.Cam Verif.Utils Spec
open Verif.Gerber (IsInt IsDec decimalString decimalStringOf)

/-! ## Integers -/

theorem zeroPad_all {w : ℕ} {s : Str} (h : s.all isDig = true) : (zeroPad w s).all isDig = true := by
  unfold zeroPad
  rw [List.all_append, h, Bool.and_true, List.all_eq_true]
  intro c hc
  rw [List.eq_of_mem_replicate hc]; rfl

theorem natVal_zeroPad {w : ℕ} {s : Str} : natVal (zeroPad w s) = natVal s := by
  unfold zeroPad
  induction w - s.length with
  | zero => simp
  | succ k ih =>
    rw [List.replicate_succ, List.cons_append]
    rw [← List.singleton_append, natVal_append, ih, natVal_singleton]
    simp [digVal]

theorem zeroPad_ne_nil {w : ℕ} {s : Str} (h : s ≠ []) : zeroPad w s ≠ [] := by
  unfold zeroPad; simp [h]

/-- The text of a number is an optional sign and digits. -/
theorem fmt02_isInt (n : ℤ) : IsInt (fmt02 n) := by
  unfold fmt02
  split
  · exact ⟨_, .inr rfl, zeroPad_ne_nil (natStr_ne_nil _), zeroPad_all (natStr_all _)⟩
  · exact ⟨_, .inl rfl, zeroPad_ne_nil (natStr_ne_nil _), zeroPad_all (natStr_all _)⟩

theorem pyInt_fmt02 (n : ℤ) : pyInt (fmt02 n) = .ok n := by
  unfold fmt02
  by_cases h : n < 0
  · rw [if_pos h]
    have hd := zeroPad_all (w := 1) (natStr_all n.natAbs)
    unfold pyInt
    rw [strip_of_no_space, takeSign_minus]
    · simp only [ne_eq, zeroPad_ne_nil (natStr_ne_nil _), not_false_eq_true, hd, and_self, if_true,
        natVal_zeroPad, natVal_natStr]
      congr 1
      omega
    · rw [List.all_cons, all_not_space_of_digits hd]; rfl
  · rw [if_neg h, pyInt_digits (zeroPad_all (natStr_all _)) (zeroPad_ne_nil (natStr_ne_nil _)),
      natVal_zeroPad, natVal_natStr]
    congr 1
    omega

theorem fmt02_length {n : ℕ} (h : n < 100) : (fmt02 n).length = 2 := by
  have h1 := natStr_length_le (w := 2) (by norm_num) (n := n) (by omega)
  have h2 := natStr_length_pos n
  unfold fmt02
  rw [if_neg (by omega)]
  simp only [Int.natAbs_natCast]
  unfold zeroPad
  rw [List.length_append, List.length_replicate]
  omega

theorem fmt02_length_le {n : ℕ} (h : n < 1000) : (fmt02 n).length ≤ 3 := by
  have h1 := natStr_length_le (w := 3) (by norm_num) (n := n) (by omega)
  unfold fmt02
  rw [if_neg (by omega)]
  simp only [Int.natAbs_natCast]
  unfold zeroPad
  rw [List.length_append, List.length_replicate]
  omega

theorem fmt02_length_ge (n : ℤ) : 2 ≤ (fmt02 n).length := by
  unfold fmt02
  split
  · have := natStr_length_pos n.natAbs
    unfold zeroPad
    simp only [List.length_cons, List.length_append, List.length_replicate]
    omega
  · unfold zeroPad
    simp only [List.length_append, List.length_replicate]
    omega

/-! ## Padded decimal numbers -/

theorem decimalStringOf_pad (s : Str) (p : ℕ) :
    ∃ k, decimalStringOf s p true = decimalStringOf s p false ++ List.replicate k '0' := by
  unfold decimalStringOf
  generalize (if '.' ∈ s then _ else _ : Str × Str) = q
  simp only
  by_cases h : q.2.length > p
  · exact ⟨0, by simp [h]⟩
  · exact ⟨p - q.2.length, by simp [h]⟩

theorem natVal_zeros (s : Str) (k : ℕ) : natVal (s ++ List.replicate k '0') = natVal s * 10 ^ k := by
  rw [natVal_append]
  have : natVal (List.replicate k '0') = 0 := by
    induction k with
    | zero => rfl
    | succ k ih => rw [List.replicate_succ, ← List.singleton_append, natVal_append, ih, natVal_singleton]; simp [digVal]
  rw [this, List.length_replicate, add_zero]

theorem isDec_pad {s : Str} {x : ℚ} (h : IsDec s) (hx : pyFloat s = .ok x) (k : ℕ) :
    IsDec (s ++ List.replicate k '0') ∧ pyFloat (s ++ List.replicate k '0') = .ok x := by
  obtain ⟨ip, f, h1, h2, h3, h4, h5⟩ := h
  have hz : (List.replicate k '0').all isDig = true := by
    rw [List.all_eq_true]; intro c hc; rw [List.eq_of_mem_replicate hc]; rfl
  have hf : (f ++ List.replicate k '0').all isDig = true := by rw [List.all_append, h5, hz]; rfl
  have hne : f ++ List.replicate k '0' ≠ [] := by simp [h3]
  have hv : (natVal (ip ++ (f ++ List.replicate k '0')) : ℚ) / 10 ^ (f ++ List.replicate k '0').length =
      (natVal (ip ++ f) : ℚ) / 10 ^ f.length := by
    rw [← List.append_assoc, natVal_zeros, List.length_append, List.length_replicate, pow_add]
    push_cast
    rw [mul_div_mul_right _ _ (by positivity)]
  rcases h1 with rfl | rfl
  · rw [Gerber.pyFloat_dec_pos h2 h4 h5] at hx
    have e : ip ++ '.' :: f ++ List.replicate k '0' = ip ++ '.' :: (f ++ List.replicate k '0') := by simp
    rw [e]
    exact ⟨⟨ip, _, .inl rfl, h2, hne, h4, hf⟩, by rw [Gerber.pyFloat_dec_pos h2 h4 hf, hv, hx]⟩
  · rw [Gerber.pyFloat_dec_neg h2 h4 h5] at hx
    have e : '-' :: (ip ++ '.' :: f) ++ List.replicate k '0' = '-' :: (ip ++ '.' :: (f ++ List.replicate k '0')) := by simp
    rw [e]
    exact ⟨⟨ip, _, .inr rfl, h2, hne, h4, hf⟩, by rw [Gerber.pyFloat_dec_neg h2 h4 hf, hv, hx]⟩

/-- The number can be written with ten digits and without exponent. -/
def Short (d : ℕ) (v : ℚ) : Prop :=
  (∃ z : ℤ, v = z / 10 ^ d ∧ z.natAbs < 10 ^ 10) ∧ (v = 0 ∨ (10 : ℚ) ^ (-4 : ℤ) ≤ |v|)

/-- A diameter is written with a point, and read back. -/
theorem diameter_spec {f : ℕ × ℕ} (hf : GoodFormat f) (zs : String) {v : ℚ} (hv : Short f.2 v) :
    IsDec (decimalString v f.2 true) ∧ parseGerberValue (decimalString v f.2 true) f zs = .ok v := by
  obtain ⟨⟨z, hz, hlt⟩, hlo⟩ := hv
  obtain ⟨h1, h2⟩ := Gerber.decimalString_spec (p := f.2) hf.2.2.1 hz hlt hlo
  obtain ⟨k, hk⟩ := decimalStringOf_pad (fmtG 10 v) f.2
  have hk' : decimalString v f.2 true = decimalString v f.2 false ++ List.replicate k '0' := hk
  obtain ⟨h3, h4⟩ := isDec_pad h1 h2 k
  rw [hk']
  refine ⟨h3, ?_⟩
  unfold parseGerberValue
  rw [if_pos, h4]
  obtain ⟨ip, f, h5 | h5, _⟩ := h1 <;> rw [h5] <;> simp

/-! ## Commands of a tool line -/

/-- The characters of a value. -/
def isVal (c : Char) : Bool := isNum c || c == '.'

theorem isVal_not_cmd {c : Char} (h : isVal c = true) : isCmd c = false := by
  unfold isVal isNum at h
  simp only [Bool.or_eq_true, beq_iff_eq] at h
  rcases h with (h | rfl) | rfl
  · by_contra hc
    have hc : isCmd c = true := by simpa using hc
    unfold isCmd at hc
    simp only [List.contains_eq_mem, List.mem_cons, List.not_mem_nil, or_false, decide_eq_true_eq] at hc
    rcases hc with rfl | rfl | rfl | rfl | rfl | rfl | rfl <;> revert h <;> decide
  · decide
  · decide

theorem isDec_all {s : Str} (h : IsDec s) : s.all isVal = true := by
  obtain ⟨ip, f, h1, _, _, h4, h5⟩ := h
  have a : ip.all isVal = true := all_mono h4 (fun c hc => by simp [isVal, isNum, hc])
  have b : f.all isVal = true := all_mono h5 (fun c hc => by simp [isVal, isNum, hc])
  rcases h1 with rfl | rfl
  · rw [List.all_append, List.all_cons, a, b]; rfl
  · rw [List.all_cons, List.all_append, List.all_cons, a, b]; rfl

theorem isInt_val {s : Str} (h : IsInt s) : s.all isVal = true :=
  all_mono (isInt_all h) (fun c hc => by simp [isVal, hc])

/-- A sequence of commands as text. -/
def segText (l : List (Char × Str)) : Str := (l.map fun x => x.1 :: x.2).flatten

/-- Commands can be told apart. -/
def SegOK (l : List (Char × Str)) : Prop := ∀ x ∈ l, isCmd x.1 = true ∧ x.2.all isVal = true

theorem commands_skip {w rest : Str} (hw : w.all isVal = true) : commands (w ++ rest) = commands rest := by
  induction w with
  | nil => rfl
  | cons c w ih =>
    rw [List.all_cons, Bool.and_eq_true] at hw
    rw [List.cons_append, commands, isVal_not_cmd hw.1]
    exact ih hw.2

theorem commands_segText : ∀ {l : List (Char × Str)}, SegOK l → commands (segText l) = l
  | [], _ => rfl
  | x :: l, h => by
    obtain ⟨h1, h2⟩ := h x (by simp)
    have ih := commands_segText (l := l) fun y hy => h y (List.mem_cons_of_mem _ hy)
    have e : segText (x :: l) = x.1 :: (x.2 ++ segText l) := by simp [segText]
    have hstop : ∀ c t, segText l = c :: t → (!isCmd c) = false := by
      intro c t hc
      cases l with
      | nil => cases hc
      | cons y l =>
        have : segText (y :: l) = y.1 :: (y.2 ++ segText l) := by simp [segText]
        rw [this] at hc
        cases hc
        rw [(h y (by simp)).1]; rfl
    rw [e, commands, h1]
    simp only [if_true]
    rw [takeWhile_append_of_all (all_mono h2 fun c hc => by rw [isVal_not_cmd hc]; rfl) hstop,
      commands_skip h2, ih]

/-- An optional command. -/
def optSeg (c : Char) : Option Str → List (Char × Str)
  | none => []
  | some w => [(c, w)]

theorem segText_append (a b : List (Char × Str)) : segText (a ++ b) = segText a ++ segText b := by
  simp [segText]

theorem segOK_append {a b : List (Char × Str)} (ha : SegOK a) (hb : SegOK b) : SegOK (a ++ b) := by
  intro x hx
  rcases List.mem_append.1 hx with h | h
  · exact ha x h
  · exact hb x h

theorem segOK_opt {c : Char} (hc : isCmd c = true) {w : Option Str} (hw : ∀ s, w = some s → s.all isVal = true) :
    SegOK (optSeg c w) := by
  intro x hx
  cases w with
  | none => cases hx
  | some s =>
    obtain rfl : x = (c, s) := by simpa [optSeg] using hx
    exact ⟨hc, hw s rfl⟩

/-- An optional number as command. -/
theorem field_seg {f : ℕ × ℕ} (hf : GoodFormat f) (zs : String) {v : Option ℚ} (hv : OptGrid f v) (c : Char) :
    ∃ w : Option Str, field c f zs v = .ok (segText (optSeg c w)) ∧ (∀ s, w = some s → s.all isVal = true) ∧
      w.map (parseGerberValue · f zs) = v.map .ok := by
  cases v with
  | none => exact ⟨none, rfl, fun _ h => (by cases h), rfl⟩
  | some q =>
    obtain ⟨w, a, b, d⟩ := field_spec hf zs (hv q rfl) c
    exact ⟨some w, by rw [a]; simp [segText, optSeg], fun _ h => (by cases h; exact isInt_val b), by simp [d]⟩

/-- Reading an optional command. -/
theorem command_opt {st : FileSettings} {c : Char} {set : Tool → Option ℚ → Tool} {g : ℚ → ℚ}
    (hcmd : ∀ t w v, value st w = .ok v → Tool.command st t (c, w) = .ok (set t (some (g v))))
    {w : Option Str} {v : Option ℚ} (hv : w.map (value st) = v.map .ok) {t : Tool}
    (hnone : set t none = t) :
    (optSeg c w).foldlM (fun t cv => t.command st cv) t = .ok (set t (v.map g)) := by
  cases w with
  | none => cases v with
    | none => exact congrArg Except.ok hnone.symm
    | some _ => simp at hv
  | some s => cases v with
    | none => simp at hv
    | some q =>
      simp only [Option.map_some, Option.some.injEq] at hv
      simp only [optSeg, List.foldlM_cons, List.foldlM_nil, hcmd t s q hv]
      rfl

/-- What can be written of a tool and read back. -/
structure GoodTool (f : ℕ × ℕ) (t : Tool) : Prop where
  retract : OptGrid f t.retractRate
  feed : OptGrid f t.feedRate
  maxHit : OptGrid f t.maxHitCount
  depth : OptGrid f t.depthOffset
  rpm : ∀ v, t.rpm = some v → v < 100000 ∧ OnGrid f (v / 1000)
  diameter : ∀ v, t.diameter = some v → Short f.2 v

/-- The text of a tool is a sequence of commands that reads back to it. -/
theorem tool_text {st : FileSettings} (hf : GoodFormat st.format) {t : Tool} (ht : GoodTool st.format t)
    (plated : Option String) : ∃ l, SegOK l ∧ t.toExcellon st = .ok (segText (('T', fmt02 t.number) :: l)) ∧
      Tool.fromExcellon (segText (('T', fmt02 t.number) :: l)) st plated =
        .ok { t with settings := some st, plated := plated, hitCount := 0 } := by
  obtain ⟨wb, b1, b2, b3⟩ := field_seg hf st.zeroSuppression ht.retract 'B'
  obtain ⟨wf, f1, f2, f3⟩ := field_seg hf st.zeroSuppression ht.feed 'F'
  obtain ⟨wh, h1, h2, h3⟩ := field_seg hf st.zeroSuppression ht.maxHit 'H'
  obtain ⟨wz, z1, z2, z3⟩ := field_seg hf st.zeroSuppression ht.depth 'Z'
  obtain ⟨ws, s1, s2, s3⟩ : ∃ w : Option Str, rpmField st t.rpm = .ok (segText (optSeg 'S' w)) ∧
      (∀ s, w = some s → s.all isVal = true) ∧
      w.map (parseGerberValue · st.format st.zeroSuppression) = (t.rpm.map (· / 1000)).map .ok := by
    rcases hr : t.rpm with _ | v
    · exact ⟨none, rfl, fun _ h => (by cases h), rfl⟩
    · obtain ⟨i1, i2⟩ := ht.rpm v hr
      obtain ⟨w, j1, j2, j3⟩ := field_seg hf st.zeroSuppression (v := some (v / 1000))
        (fun q hq => by cases hq; exact i2) 'S'
      refine ⟨w, ?_, j2, j3⟩
      unfold rpmField
      simp only
      rw [if_pos i1, j1]
  obtain ⟨wc, c1, c2, c3⟩ : ∃ w : Option Str, diaField st t.diameter = segText (optSeg 'C' w) ∧
      (∀ s, w = some s → s.all isVal = true) ∧
      w.map (parseGerberValue · st.format st.zeroSuppression) = t.diameter.map .ok := by
    rcases hr : t.diameter with _ | v
    · exact ⟨none, rfl, fun _ h => (by cases h), rfl⟩
    · obtain ⟨i1, i2⟩ := diameter_spec hf st.zeroSuppression (ht.diameter v hr)
      refine ⟨some (decimalString v st.format.2 true), ?_, fun s hs => ?_, ?_⟩
      · simp [diaField, optSeg, segText]
      · cases hs; exact isDec_all i1
      · simp [i2]
  refine ⟨optSeg 'B' wb ++ (optSeg 'F' wf ++ (optSeg 'H' wh ++ (optSeg 'S' ws ++ (optSeg 'C' wc ++ optSeg 'Z' wz)))),
    ?_, ?_, ?_⟩
  · exact segOK_append (segOK_opt rfl b2) (segOK_append (segOK_opt rfl f2) (segOK_append (segOK_opt rfl h2)
      (segOK_append (segOK_opt rfl s2) (segOK_append (segOK_opt rfl c2) (segOK_opt rfl z2)))))
  · unfold Tool.toExcellon
    rw [b1, f1, h1, s1, z1, c1]
    show Except.ok _ = _
    congr 1
    rw [show ∀ l, segText (('T', fmt02 t.number) :: l) = 'T' :: (fmt02 t.number ++ segText l) from
      fun l => by simp [segText]]
    simp only [segText_append, List.append_assoc]
  · unfold Tool.fromExcellon
    rw [commands_segText (by
      intro x hx
      rcases List.mem_cons.1 hx with rfl | hx
      · exact ⟨rfl, isInt_val (fmt02_isInt _)⟩
      · exact segOK_append (segOK_opt rfl b2) (segOK_append (segOK_opt rfl f2) (segOK_append (segOK_opt rfl h2)
          (segOK_append (segOK_opt rfl s2) (segOK_append (segOK_opt rfl c2) (segOK_opt rfl z2))))) x hx)]
    rw [List.foldlM_cons]
    have e0 : Tool.command st { settings := some st, number := 0, plated := plated } ('T', fmt02 t.number) =
        .ok { settings := some st, number := t.number, plated := plated } := by
      unfold Tool.command
      simp only [Char.reduceEq, if_false, if_true, pyInt_fmt02]
      rfl
    rw [e0]
    simp only [List.foldlM_append]
    have kB : ∀ (t : Tool) w v, value st w = .ok v → Tool.command st t ('B', w) = .ok { t with retractRate := some (id v) } := by
      intro t w v hv; unfold Tool.command; simp only [Char.reduceEq, if_false, if_true, hv]; rfl
    have kF : ∀ (t : Tool) w v, value st w = .ok v → Tool.command st t ('F', w) = .ok { t with feedRate := some (id v) } := by
      intro t w v hv; unfold Tool.command; simp only [Char.reduceEq, if_false, if_true, hv]; rfl
    have kH : ∀ (t : Tool) w v, value st w = .ok v → Tool.command st t ('H', w) = .ok { t with maxHitCount := some (id v) } := by
      intro t w v hv; unfold Tool.command; simp only [Char.reduceEq, if_false, if_true, hv]; rfl
    have kS : ∀ (t : Tool) w v, value st w = .ok v → Tool.command st t ('S', w) = .ok { t with rpm := some (1000 * v) } := by
      intro t w v hv; unfold Tool.command; simp only [Char.reduceEq, if_false, if_true, hv]; rfl
    have kC : ∀ (t : Tool) w v, value st w = .ok v → Tool.command st t ('C', w) = .ok { t with diameter := some (id v) } := by
      intro t w v hv; unfold Tool.command; simp only [Char.reduceEq, if_false, if_true, hv]; rfl
    have kZ : ∀ (t : Tool) w v, value st w = .ok v → Tool.command st t ('Z', w) = .ok { t with depthOffset := some (id v) } := by
      intro t w v hv; unfold Tool.command; simp only [Char.reduceEq, if_false, if_true, hv]; rfl
    have g1 := command_opt (t := { settings := some st, number := t.number, plated := plated })
      (set := fun t o => { t with retractRate := o }) kB b3 rfl
    have g2 := command_opt (t := { settings := some st, number := t.number, plated := plated, retractRate := t.retractRate.map id })
      (set := fun t o => { t with feedRate := o }) kF f3 rfl
    have g3 := command_opt (t := { settings := some st, number := t.number, plated := plated, retractRate := t.retractRate.map id, feedRate := t.feedRate.map id })
      (set := fun t o => { t with maxHitCount := o }) kH h3 rfl
    have g4 := command_opt (t := { settings := some st, number := t.number, plated := plated, retractRate := t.retractRate.map id, feedRate := t.feedRate.map id, maxHitCount := t.maxHitCount.map id })
      (set := fun t o => { t with rpm := o }) kS s3 rfl
    have g5 := command_opt (t := { settings := some st, number := t.number, plated := plated, retractRate := t.retractRate.map id, feedRate := t.feedRate.map id, maxHitCount := t.maxHitCount.map id, rpm := (t.rpm.map (· / 1000)).map (1000 * ·) })
      (set := fun t o => { t with diameter := o }) kC c3 rfl
    have g6 := command_opt (t := { settings := some st, number := t.number, plated := plated, retractRate := t.retractRate.map id, feedRate := t.feedRate.map id, maxHitCount := t.maxHitCount.map id, rpm := (t.rpm.map (· / 1000)).map (1000 * ·), diameter := t.diameter.map id })
      (set := fun t o => { t with depthOffset := o }) kZ z3 rfl
    have bind_ok : ∀ {α β : Type} (x : α) (k : α → PyR β), (Except.ok x >>= k : PyR β) = k x := fun _ _ => rfl
    rw [bind_ok, g1, bind_ok, g2, bind_ok, g3, bind_ok, g4, bind_ok, g5, bind_ok, g6]
    have e1 : (t.rpm.map (· / 1000)).map (1000 * ·) = t.rpm := by
      cases t.rpm with
      | none => rfl
      | some v => simp only [Option.map_some]; congr 1; ring
    rw [e1]
    simp only [Option.map_id, id_eq]

end Verif.Excellon
