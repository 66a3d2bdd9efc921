import Verif.Props.Rs274xCodes

/-! # Only the macros that are used matter -/

set_option linter.unusedSectionVars false

namespace Verif.Rs274x
open Verif.Py Verif.Cam Verif.Gerber

variable {G : Type} [DecidableEq G]

/-- Two backends that differ only in what they write for groups outside `P`. -/
structure AgreeOn (P : G → Prop) (m n : MacroEnv G) : Prop where
  hash : m.hash = n.hash
  equiv : m.equiv = n.equiv
  macroOf : ∀ g, P g → m.macroOf g = n.macroOf g

variable {P : G → Prop} {m n : MacroEnv G}

theorem getMacro_agree (h : AgreeOn P m n) (s : RState G) {g : G} (hg : P g) : getMacro m s g = getMacro n s g := by
  simp only [getMacro, h.hash, h.equiv, h.macroOf g hg]

theorem selectAperture_agree (h : AgreeOn P m n) (s : RState G) {k : Option (RShape G)}
    (hk : ∀ g ∈ k.elim [] RShape.groups, P g) : selectAperture m s k = selectAperture n s k := by
  match k, hk with
  | none, _ => rfl
  | some (.circle _ _), _ => rfl
  | some (.rect _ _ _), _ => rfl
  | some (.obround _ _ _), _ => rfl
  | some (.polygon _ _ _ _), _ => rfl
  | some (.group g), hk => simp only [selectAperture, getMacro_agree h s (hk g (by simp [RShape.groups]))]

theorem renderEdge_agree (h : AgreeOn P m n) (s : RState G) (dflt : Option String) {r : REdge G}
    (hr : ∀ g ∈ r.groups, P g) : renderEdge m s dflt r = renderEdge n s dflt r := by
  cases r with
  | line a b ap pol => simp only [renderEdge, renderLine, selectAperture_agree h s hr]
  | arc a b c dir ap quad pol => simp only [renderEdge, renderArc, selectAperture_agree h _ hr]

theorem renderEdges_agree (h : AgreeOn P m n) (dflt : Option String) : ∀ (rs : List (REdge G)) (s : RState G),
    (∀ r ∈ rs, ∀ g ∈ r.groups, P g) → renderEdges m s dflt rs = renderEdges n s dflt rs
  | [], s, _ => rfl
  | r :: rs, s, hr => by
    have : ∀ s', renderEdges m s' dflt rs = renderEdges n s' dflt rs := fun s' =>
      renderEdges_agree h dflt rs s' fun r hr' => hr r (by simp [hr'])
    simp only [renderEdges, renderEdge_agree h s dflt (hr r (by simp)), this]

theorem render_agree (h : AgreeOn P m n) (o : Options) (s : RState G) (c : Option Str) {p : RPrim G}
    (hp : ∀ g ∈ p.groups, P g) : render m o s c p = render n o s c p := by
  cases p with
  | edge r => simp only [render, renderEdge_agree h _ _ hp]
  | region rs pol =>
    have : ∀ s', renderEdges m s' pol rs = renderEdges n s' pol rs := fun s' =>
      renderEdges_agree h pol rs s' fun r hr g hg => hp g (List.mem_flatMap.2 ⟨r, hr, hg⟩)
    simp only [render, renderRegion, this]
  | flash k q pol =>
    cases k with
    | group g => simp only [render, getMacro_agree h _ (hp g (by simp [RPrim.groups, RShape.groups]))]
    | _ => rfl

theorem renderAll_agree (h : AgreeOn P m n) (o : Options) : ∀ (ps : List (Option Str × RPrim G)) (s : RState G),
    (∀ p ∈ ps, ∀ g ∈ p.2.groups, P g) → renderAll m o s ps = renderAll n o s ps
  | [], s, _ => rfl
  | (c, p) :: ps, s, hp => by
    have : ∀ s', renderAll m o s' ps = renderAll n o s' ps := fun s' =>
      renderAll_agree h o ps s' fun p hp' => hp p (by simp [hp'])
    simp only [renderAll, render_agree h o s c (hp (c, p) (by simp)), this]

open Classical in
/-- The backend that refuses groups outside `P`. -/
noncomputable def onlyEnv (P : G → Prop) (menv : MacroEnv G) : MacroEnv G :=
  { menv with macroOf := fun g => if P g then menv.macroOf g else .error .valueError }

theorem onlyEnv_agree (P : G → Prop) (menv : MacroEnv G) : AgreeOn P menv (onlyEnv P menv) :=
  ⟨rfl, rfl, fun g hg => by simp [onlyEnv, hg]⟩

theorem onlyEnv_ok {P : G → Prop} {menv : MacroEnv G} {g : G} {t : Str × List Str}
    (h : (onlyEnv P menv).macroOf g = .ok t) : P g ∧ menv.macroOf g = .ok t := by
  simp only [onlyEnv] at h
  split at h
  · rename_i hg; exact ⟨hg, h⟩
  · cases h

/-- **C22**: primitives are never refused if the macros they use can be written. -/
theorem C22_total_used (env : EvalEnv G) (menv : MacroEnv G) (o : Options) (P : G → Prop)
    (hmac : ∀ g, P g → ∃ t, menv.macroOf g = .ok t) (ps : List (Option Str × RPrim G)) (s : RState G)
    (hok : ∀ p ∈ ps, p.2.OK env o) (hps : ∀ p ∈ ps, ∀ g ∈ p.2.groups, P g) :
    ∃ s', renderAll menv o s ps = .ok s' := by
  classical
  let n : MacroEnv G := { menv with macroOf := fun g => if P g then menv.macroOf g else .ok ([], []) }
  have hn : AgreeOn P menv n := ⟨rfl, rfl, fun g hg => by simp [n, hg]⟩
  rw [renderAll_agree hn o ps s hps]
  refine C22_total env n o (fun g => ?_) ps s hok
  by_cases hg : P g
  · simpa [n, hg] using hmac g hg
  · simp [n, hg]

example : ∃ s', renderAll { tryMacros with macroOf := fun g => if g = 3 then .ok ([], []) else .error .valueError } {}
    (start trySettings) [(none, .flash (.group 3) (0, 0) none)] = .ok s' :=
  C22_total_used tryEnv _ {} (· = 3) (by rintro _ rfl; exact ⟨_, rfl⟩) _ _
    (by intro p hp; rw [List.mem_singleton] at hp; subst hp; trivial)
    (by intro p hp; rw [List.mem_singleton] at hp; subst hp; simp [RPrim.groups, RShape.groups])

end Verif.Rs274x
