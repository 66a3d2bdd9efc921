import Verif.Model.Cam

/-! # C07, C08: file settings -/

namespace Verif.Cam
open Verif.Py

/-! ## Histories of assignments to a settings object -/

/-- One operation on a settings object by client code. -/
inductive Op
  /-- `s[key] = value`; if it raises, the client may catch the exception and go on -/
  | item (key : String) (v : Value)
  /-- `s.zero_suppression = v` -/
  | attrZs (v : String)
  /-- `s.zeros = v` -/
  | attrZeros (v : String)

/-- Effect of an operation; a raising assignment leaves the object as it is. -/
def Op.apply (s : FileSettings) : Op → FileSettings
  | .item k v => match s.setItem k v with
    | .ok s' => s'
    | .error _ => s
  | .attrZs v => s.setZeroSuppression v
  | .attrZeros v => s.setZeros v

/-- Attribute assignments of documented values only. -/
def Op.documented : Op → Prop
  | .item _ _ => True
  | .attrZs v => v = "leading" ∨ v = "trailing"
  | .attrZeros v => v = "leading" ∨ v = "trailing"

/-- What a valid settings object looks like. -/
structure Valid (s : FileSettings) : Prop where
  nota : s.notation_ = "absolute" ∨ s.notation_ = "incremental"
  unit : s.units = "inch" ∨ s.units = "metric"
  angle : s.angleUnits = "degrees" ∨ s.angleUnits = "radians"
  zero : (s.zeroSuppression = "leading" ∧ s.zeros = "trailing") ∨
    (s.zeroSuppression = "trailing" ∧ s.zeros = "leading")

private theorem setZs_valid {s : FileSettings} (h : Valid s) {v : String}
    (hv : v = "leading" ∨ v = "trailing") : Valid (s.setZeroSuppression v) := by
  refine ⟨h.nota, h.unit, h.angle, ?_⟩
  rcases hv with rfl | rfl <;> simp [FileSettings.setZeroSuppression]

private theorem setZeros_valid {s : FileSettings} (h : Valid s) {v : String}
    (hv : v = "leading" ∨ v = "trailing") : Valid (s.setZeros v) := by
  refine ⟨h.nota, h.unit, h.angle, ?_⟩
  rcases hv with rfl | rfl <;> simp [FileSettings.setZeros]

private theorem setItem_valid {s s' : FileSettings} (h : Valid s) {k : String} {v : Value}
    (he : s.setItem k v = .ok s') : Valid s' := by
  unfold FileSettings.setItem at he
  split at he
  · split at he
    · split at he
      · cases he; exact ⟨h.nota, h.unit, h.angle, h.zero⟩
      · cases he
    · cases he
  · split at he
    · split at he <;> cases he
    · simp only [List.mem_cons, List.not_mem_nil, or_false, not_or] at he
      repeat' split at he
      all_goals first
        | cases he; done
        | skip
      · rename_i hv; cases he
        exact ⟨by tauto, h.unit, h.angle, h.zero⟩
      · rename_i hv; cases he
        exact ⟨h.nota, by tauto, h.angle, h.zero⟩
      · rename_i hv; cases he
        exact setZs_valid h (by tauto)
      · rename_i hv; cases he
        exact setZeros_valid h (by tauto)
      · rename_i hv; cases he
        exact ⟨h.nota, h.unit, by tauto, h.zero⟩

/-- **C07.** Every object the constructor returns is valid. -/
theorem C07_constructor_valid {n u a : String} {zs z : Option String} {f : List ℕ}
    {s : FileSettings} (h : FileSettings.init n u zs f z a = .ok s) :
    Valid s ∧ f = [s.format.1, s.format.2] ∧ s.notation_ = n ∧ s.units = u ∧ s.angleUnits = a := by
  unfold FileSettings.init at h
  simp only [List.mem_cons, List.not_mem_nil, or_false] at h
  split at h
  · cases h
  rename_i hn
  split at h
  · cases h
  rename_i hu
  split at h
  · cases h
  rename_i s0 hs0
  split at h
  · cases h
  rename_i f0 hf0
  split at h
  · cases h
  rename_i ha
  cases h
  have hf : f = [f0.1, f0.2] := by
    unfold checkFormat at hf0
    split at hf0
    · cases hf0; rfl
    · cases hf0
  have hs : (s0.notation_ = n ∧ s0.units = u) ∧
      ((s0.zeroSuppression = "leading" ∧ s0.zeros = "trailing") ∨
        (s0.zeroSuppression = "trailing" ∧ s0.zeros = "leading")) := by
    split at hs0
    · cases hs0; simp [FileSettings.setZeroSuppression]
    · split at hs0
      · cases hs0
      · split at hs0
        · split at hs0
          · cases hs0; simp [FileSettings.setZeroSuppression]
          · rename_i hz; cases hs0
            rcases not_not.1 hz with rfl | rfl <;> simp [FileSettings.setZeroSuppression]
        · split at hs0
          · split at hs0
            · cases hs0
            · rename_i hz; cases hs0
              rcases not_not.1 hz with rfl | rfl <;> simp [FileSettings.setZeros]
          · rename_i h1 h2; exact absurd rfl h2
  exact ⟨⟨by simpa [hs.1.1] using not_not.1 hn, by simpa [hs.1.2] using not_not.1 hu,
    by simpa using not_not.1 ha, hs.2⟩, hf, hs.1.1, hs.1.2, rfl⟩

/-- **C07.** The constructor rejects undocumented units, notation and angle units, formats that
are not pairs, and equal `zeros`/`zero_suppression` arguments. -/
theorem C07_constructor_rejects {n u a : String} {zs z : Option String} {f : List ℕ}
    (h : n ∉ ["absolute", "incremental"] ∨ u ∉ ["inch", "metric"] ∨ a ∉ ["degrees", "radians"] ∨
      f.length ≠ 2 ∨ (zs = z ∧ zs ≠ none)) :
    ∃ e, FileSettings.init n u zs f z a = .error e := by
  cases hr : FileSettings.init n u zs f z a with
  | error e => exact ⟨e, rfl⟩
  | ok s =>
    exfalso
    obtain ⟨hv, hf, h1, h2, h3⟩ := C07_constructor_valid hr
    rcases h with h | h | h | h | h
    · rw [← h1] at h; have := hv.nota; simp_all
    · rw [← h2] at h; have := hv.unit; simp_all
    · rw [← h3] at h; have := hv.angle; simp_all
    · rw [hf] at h; simp at h
    · unfold FileSettings.init at hr
      obtain ⟨rfl, hne⟩ := h
      simp only [and_self, hne, if_false, if_true] at hr
      repeat' split at hr
      all_goals cases hr

/-- **C07.** Validity is preserved by every history of assignments of documented values, mixed
with arbitrary (possibly rejected) item assignments. -/
theorem C07_history_valid (s : FileSettings) (h : Valid s) (ops : List Op)
    (hd : ∀ o ∈ ops, o.documented) : Valid (ops.foldl Op.apply s) := by
  induction ops generalizing s with
  | nil => exact h
  | cons o ops ih =>
    rw [List.foldl_cons]
    apply ih _ _ (fun o' ho' => hd o' (List.mem_cons_of_mem _ ho'))
    have ho := hd o List.mem_cons_self
    cases o with
    | item k v =>
      simp only [Op.apply]
      split
      · rename_i he; exact setItem_valid h he
      · exact h
    | attrZs v => exact setZs_valid h ho
    | attrZeros v => exact setZeros_valid h ho

/-- **C07.** Whatever strings are assigned to the attributes, the two zero settings never become
equal. -/
theorem C07_zeros_never_equal (s : FileSettings) (h : s.zeros ≠ s.zeroSuppression)
    (ops : List Op) :
    (ops.foldl Op.apply s).zeros ≠ (ops.foldl Op.apply s).zeroSuppression := by
  have hz : ∀ (s : FileSettings) v, (s.setZeroSuppression v).zeros ≠
      (s.setZeroSuppression v).zeroSuppression := by
    intro s v
    simp only [FileSettings.setZeroSuppression]
    split
    · rename_i h; rw [h]; decide
    · rename_i h; exact fun e => h e.symm
  have hzz : ∀ (s : FileSettings) v, (s.setZeros v).zeros ≠ (s.setZeros v).zeroSuppression := by
    intro s v
    simp only [FileSettings.setZeros]
    split
    · rename_i h; rw [h]; decide
    · rename_i h; exact h
  induction ops generalizing s with
  | nil => exact h
  | cons o ops ih =>
    rw [List.foldl_cons]
    apply ih
    cases o with
    | attrZs v => exact hz s v
    | attrZeros v => exact hzz s v
    | item k v =>
      simp only [Op.apply]
      split
      · rename_i s' he
        unfold FileSettings.setItem at he
        repeat' split at he
        all_goals first
          | (cases he; done)
          | (cases he; first | exact h | exact hz s _ | exact hzz s _)
      · exact h

/-- **C07.** Item assignment sets exactly the named field (read back through the same key) or
raises; here for the zero-suppression keys. -/
theorem C07_setitem_zero_reads_back (s s' : FileSettings) (v : String)
    (h : s.setItem "zero_suppression" (.str v) = .ok s') :
    s'.zeroSuppression = v ∧ s'.notation_ = s.notation_ ∧ s'.units = s.units ∧
      s'.format = s.format ∧ s'.angleUnits = s.angleUnits := by
  have h' : (if v ∉ ["leading", "trailing"] then .error .valueError
        else .ok (s.setZeroSuppression v) : PyR FileSettings) = .ok s' := h
  split at h'
  · cases h'
  · cases h'
    simp [FileSettings.setZeroSuppression]

example : ∃ s, FileSettings.init "absolute" "metric" none [3, 3] (some "trailing") "degrees" =
    .ok s ∧ s.zeroSuppression = "leading" := ⟨_, rfl, rfl⟩
example : Op.documented (.attrZs "leading") ∧ Op.documented (.item "foo" (.str "bar")) :=
  ⟨Or.inl rfl, trivial⟩

/-! ## C08 -/

/-- **C08.** A file built from valid settings in degrees reports exactly these settings. -/
theorem C08_settings_roundtrip_partial (s : FileSettings) (h : Valid s)
    (ha : s.angleUnits = "degrees") : (CamFile.init (some s)).settings = .ok s := by
  obtain ⟨n, u, zs, z, f, a⟩ := s
  obtain ⟨h1, h2, h3, h4⟩ := h
  simp only at h1 h2 h3 h4 ha
  subst ha
  unfold CamFile.settings CamFile.init FileSettings.init
  rcases h1 with rfl | rfl <;> rcases h2 with rfl | rfl <;> rcases h4 with ⟨rfl, rfl⟩ | ⟨rfl, rfl⟩ <;>
    simp [FileSettings.setZeroSuppression, checkFormat]

/-- **C08.** Reported settings are always valid, and a file built from reported settings reports
the same settings. -/
theorem C08_settings_idempotent (f : CamFile) (s : FileSettings) (h : f.settings = .ok s) :
    Valid s ∧ (CamFile.init (some s)).settings = .ok s := by
  obtain ⟨hv, _, _, _, ha⟩ := C07_constructor_valid h
  exact ⟨hv, C08_settings_roundtrip_partial s hv ha⟩

/-- **C08 fails** for the mode without zero suppression (produced by an `FS` statement that names
neither `L` nor `T`, and by assigning the attribute): the file reports `leading`. -/
theorem C08_none_suppression_violated (s : FileSettings)
    (h : s.notation_ = "absolute") (h' : s.units = "inch")
    (hz : s.zeroSuppression = "none") :
    ∃ s', (CamFile.init (some s)).settings = .ok s' ∧ s'.zeroSuppression = "leading" := by
  obtain ⟨n, u, zs, z, f, a⟩ := s
  simp only at h h' hz
  subst h h' hz
  exact ⟨_, rfl, rfl⟩

/-- **C08 fails** for radians: the file reports degrees. -/
theorem C08_radians_violated :
    ∃ s s', FileSettings.init "absolute" "inch" none [2, 5] none "radians" = .ok s ∧
      (CamFile.init (some s)).settings = .ok s' ∧ s'.angleUnits = "degrees" ∧
      s.angleUnits = "radians" :=
  ⟨_, _, rfl, rfl, rfl, rfl⟩

/-- Default settings: a file without settings reports the documented defaults. -/
theorem C08_default_settings : (CamFile.init none).settings =
    .ok { notation_ := "absolute", units := "inch", zeroSuppression := "trailing",
          zeros := "leading", format := (2, 5), angleUnits := "degrees" } := rfl

example : ∃ s, Valid s ∧ s.angleUnits = "degrees" ∧ s.units = "metric" :=
  ⟨⟨"incremental", "metric", "leading", "trailing", (3, 4), "degrees"⟩,
    ⟨Or.inr rfl, Or.inr rfl, Or.inl rfl, Or.inl ⟨rfl, rfl⟩⟩, rfl, rfl⟩

end Verif.Cam
