import Verif.Model.Directory
import Verif.Props.LayerGuess
import Mathlib.Data.List.Dedup

/-! # Boards from directories (C59) -/

namespace Verif.Layers

open Verif.Py

/-- A file that counts: not hidden and not made by the operating system. -/
def Visible (f : Str) : Prop :=
  f.head? ≠ some '.' ∧ f ≠ "Thumbs.db".toList ∧ f ≠ "ethumbs.db".toList

instance (f : Str) : Decidable (Visible f) := by unfold Visible; infer_instance

theorem listDir_eq (files : List Str) : listDir files = files.filter fun f => Visible f := by
  unfold listDir
  rw [List.filter_filter]
  congr 1
  funext f
  unfold Visible
  cases f with
  | nil => decide
  | cons c t =>
    by_cases hc : c = '.'
    · subst hc
      simp
    · have h1 : (c :: t) ≠ ".DS_Store".toList := fun e => hc (by
        have := congrArg List.head? e
        simpa using this)
      have h2 : ['.'].isPrefixOf (c :: t) = false := by
        simp only [List.isPrefixOf, Bool.and_true, beq_eq_false_iff_ne]
        exact fun e => hc e.symm
      rw [h2]
      simp only [List.contains_cons, List.contains_nil, Bool.or_false, Bool.not_or, Bool.not_false,
        Bool.and_true, List.head?_cons, Option.some.injEq, hc, not_false_iff, true_and, ne_eq]
      have h3 : ((c :: t) == ".DS_Store".toList) = false := by rw [beq_eq_false_iff_ne]; exact h1
      rw [h3]
      simp only [Bool.not_false, Bool.true_and]
      rw [Bool.eq_iff_iff]
      simp

/-- A file can be skipped: it is no board file, or it cannot be opened. -/
def Skipped (r : PyR Layer) : Prop := r = .error .parseError ∨ r = .error .ioError

/-- The loop over files that can be read or skipped. -/
theorem load_ok (found : String → Str → Bool) (d : Dir) : ∀ fs : List Str,
    (∀ f ∈ fs, (∃ l, d.layer found f = .ok l) ∨ Skipped (d.layer found f)) →
    ∃ ls ns, d.load found fs = .ok (ls, ns) ∧ ls = fs.filterMap (fun f => (d.layer found f).toOption) ∧ ns.Nodup ∧
      ∀ n, n ∈ ns ↔ ∃ f ∈ fs, ∃ l, d.layer found f = .ok l ∧ n = boardName f l.cls
  | [], _ => ⟨[], [], rfl, rfl, List.nodup_nil, by simp⟩
  | f :: fs, h => by
    obtain ⟨ls, ns, h1, h2, h3, h4⟩ := load_ok found d fs fun g hg => h g (by simp [hg])
    rcases h f (by simp) with ⟨l, hl⟩ | hs | hs
    · refine ⟨l :: ls, (boardName f l.cls :: ns).dedup, ?_, ?_, List.nodup_dedup _, ?_⟩
      · rw [Dir.load, hl]
        simp only [h1]
        rfl
      · rw [List.filterMap_cons, hl, h2]
        rfl
      · intro n
        rw [List.mem_dedup, List.mem_cons, h4]
        constructor
        · rintro (rfl | ⟨g, hg, k, hk, rfl⟩)
          · exact ⟨f, by simp, l, hl, rfl⟩
          · exact ⟨g, by simp [hg], k, hk, rfl⟩
        · rintro ⟨g, hg, k, hk, rfl⟩
          rcases List.mem_cons.1 hg with rfl | hg
          · rw [hl] at hk; cases hk; exact .inl rfl
          · exact .inr ⟨g, hg, k, hk, rfl⟩
    · refine ⟨ls, ns, ?_, ?_, h3, ?_⟩
      · rw [Dir.load, hs]; exact h1
      · rw [List.filterMap_cons, hs]; exact h2
      · intro n
        rw [h4]
        constructor
        · rintro ⟨g, hg, k, hk, rfl⟩; exact ⟨g, by simp [hg], k, hk, rfl⟩
        · rintro ⟨g, hg, k, hk, rfl⟩
          rcases List.mem_cons.1 hg with rfl | hg
          · rw [hs] at hk; cases hk
          · exact ⟨g, hg, k, hk, rfl⟩
    · refine ⟨ls, ns, ?_, ?_, h3, ?_⟩
      · rw [Dir.load, hs]; exact h1
      · rw [List.filterMap_cons, hs]; exact h2
      · intro n
        rw [h4]
        constructor
        · rintro ⟨g, hg, k, hk, rfl⟩; exact ⟨g, by simp [hg], k, hk, rfl⟩
        · rintro ⟨g, hg, k, hk, rfl⟩
          rcases List.mem_cons.1 hg with rfl | hg
          · rw [hs] at hk; cases hk
          · exact ⟨g, hg, k, hk, rfl⟩

/-- The layers of the visible files of a directory that can be read. -/
def Dir.layers (found : String → Str → Bool) (d : Dir) : List Layer :=
  (d.names.filter fun f => Visible f).filterMap fun f => (d.layer found f).toOption

/-- `n` is the name of the board: the one given, else the one that all files suggest, else the name of the
directory. -/
def IsName (found : String → Str → Bool) (d : Dir) (given : Option Str) (n : Str) : Prop :=
  let suggested := fun m => ∃ f ∈ d.names, Visible f ∧ ∃ l, d.layer found f = .ok l ∧ m = boardName f l.cls
  match given with
  | some g => n = g
  | none => (∃ m, (∀ k, suggested k ↔ k = m) ∧ n = m) ∨
      ((¬ ∃ m, ∀ k, suggested k ↔ k = m) ∧ n = baseName d.path)

theorem comparable_layers (found : String → Str → Bool) (d : Dir) (fs : List Str) :
    Comparable (fs.filterMap fun f => (d.layer found f).toOption) := by
  right
  intro l hl hi
  obtain ⟨f, _, hf⟩ := List.mem_filterMap.1 hl
  unfold Dir.layer at hf
  cases hr : d.read f with
  | error e => rw [hr] at hf; cases hf
  | ok r =>
    rw [hr] at hf
    have hl' : fromCam r.1 (d.path ++ '/' :: f) (guessLayerClass found (d.lines f) (d.path ++ '/' :: f)) r.2 = l :=
      Option.some.inj hf
    have := (fromCam_ok [(r.1, d.path ++ '/' :: f, guessLayerClass found (d.lines f) (d.path ++ '/' :: f), r.2)]).1
    rcases this with h | h
    · have h2 := (fromCam_ok [(r.1, d.path ++ '/' :: f, guessLayerClass found (d.lines f) (d.path ++ '/' :: f), r.2),
        (r.1, d.path ++ '/' :: f, guessLayerClass found (d.lines f) (d.path ++ '/' :: f), r.2)]).1
      rcases h2 with h2 | h2
      · simp only [List.map_cons, List.map_nil, hl', List.filter_cons, hi, decide_true, if_true, List.filter_nil,
          List.length_cons, List.length_nil] at h2
        omega
      · exact h2 l (by simp [hl']) hi
    · exact h l (by simp [hl']) hi

/-- **C59** A board made from a directory in which every visible file is a board file or skipped has the layers
of the readable visible files, stacked, then drill layers and drawings; its name is the one given, the one that
all files suggest, or the name of the directory.

Missing: files that raise another exception (`C59_bad_file_violated`); layers of unknown class and netlists are
not in the board (`C59_unknown_violated`). -/
theorem C59_directory_partial (found : String → Str → Bool) (d : Dir) (given : Option Str)
    (h : ∀ f ∈ d.names, Visible f → (∃ l, d.layer found f = .ok l) ∨ Skipped (d.layer found f)) :
    ∃ board n, fromDirectory found d given = .ok (board ++ (d.layers found).filter (·.cls = "drill") ++
        (d.layers found).filter (·.cls = "drawing"), n) ∧
      IsStack (d.layers found) board ∧ IsName found d given n := by
  obtain ⟨ls, ns, h1, h2, h3, h4⟩ := load_ok found d (d.names.filter fun f => Visible f) (by
    intro f hf
    have := List.mem_filter.1 hf
    exact h f this.1 (by simpa using this.2))
  obtain ⟨board, hb, hs⟩ := C37_sort_layers_partial (d.layers found)
    (comparable_layers found d (d.names.filter fun f => Visible f)) true
  rw [if_pos rfl] at hs
  unfold fromDirectory
  rw [listDir_eq, h1, h2]
  refine ⟨board, match given with | some n => n | none => onlyName ns (baseName d.path), ?_, hb, ?_⟩
  · simp only [bind, Except.bind, pcb]
    unfold Dir.layers at hs ⊢
    rw [hs]
    cases given <;> rfl
  · have h5 : ∀ n, n ∈ ns ↔ ∃ f ∈ d.names, Visible f ∧ ∃ l, d.layer found f = .ok l ∧ n = boardName f l.cls := by
      intro n
      rw [h4]
      constructor
      · rintro ⟨f, hf, r⟩
        have := List.mem_filter.1 hf
        exact ⟨f, this.1, by simpa using this.2, r⟩
      · rintro ⟨f, hf, hv, r⟩
        exact ⟨f, List.mem_filter.2 ⟨hf, by simpa using hv⟩, r⟩
    unfold IsName
    cases given with
    | some g => rfl
    | none =>
      simp only
      simp only [← h5]
      match ns, h3 with
      | [], _ =>
        right
        refine ⟨?_, rfl⟩
        rintro ⟨m, hm⟩
        have := (hm m).2 rfl
        cases this
      | [n], _ =>
        left
        exact ⟨n, fun k => List.mem_singleton, rfl⟩
      | a :: b :: t, hn =>
        right
        refine ⟨?_, rfl⟩
        rintro ⟨m, hm⟩
        have ha := (hm a).1 (by simp)
        have hb := (hm b).1 (by simp)
        rw [List.nodup_cons] at hn
        exact hn.1 (by simp [ha, hb])

/-- An exception that is neither of the two that are skipped comes out. -/
theorem C59_exception (found : String → Str → Bool) (d : Dir) (given : Option Str) {pre post : List Str} {f : Str}
    {e : PyErr} (hd : d.names.filter (fun f => Visible f) = pre ++ f :: post)
    (hp : ∀ g ∈ pre, (∃ l, d.layer found g = .ok l) ∨ Skipped (d.layer found g))
    (hf : d.layer found f = .error e) (h1 : e ≠ .parseError) (h2 : e ≠ .ioError) :
    fromDirectory found d given = .error e := by
  have hl : d.load found (pre ++ f :: post) = .error e := by
    clear hd
    induction pre with
    | nil =>
      rw [List.nil_append, Dir.load, hf]
      cases e <;> first | rfl | exact absurd rfl h1 | exact absurd rfl h2
    | cons g pre ih =>
      have ih := ih fun x hx => hp x (by simp [hx])
      rw [List.cons_append, Dir.load]
      rcases hp g (by simp) with ⟨l, hl⟩ | hs | hs
      · rw [hl]
        simp only [ih]
        rfl
      · rw [hs]; exact ih
      · rw [hs]; exact ih
  unfold fromDirectory
  rw [listDir_eq, hd, hl]
  rfl

/-- The order in which the operating system lists the files does not matter for the name and for which layers
are in the board. -/
theorem C59_listing (found : String → Str → Bool) (d : Dir) (given : Option Str) {names : List Str}
    (hp : names.Perm d.names)
    (h : ∀ f ∈ d.names, Visible f → (∃ l, d.layer found f = .ok l) ∨ Skipped (d.layer found f)) :
    ∃ b b' n, fromDirectory found d given = .ok (b, n) ∧
      fromDirectory found { d with names := names } given = .ok (b', n) ∧ b'.Perm b := by
  obtain ⟨b, n, e, hb, hn⟩ := C59_directory_partial found d given h
  obtain ⟨b', n', e', hb', hn'⟩ := C59_directory_partial found { d with names := names } given fun f hf =>
    h f (hp.mem_iff.1 hf)
  have hls : (Dir.layers found { d with names := names }).Perm (Dir.layers found d) :=
    (hp.filter _).filterMap _
  have hnn : n' = n := by
    unfold IsName at hn hn'
    cases given with
    | some g => exact hn'.trans hn.symm
    | none =>
      simp only at hn hn'
      have hs : ∀ m, (∃ f ∈ names, Visible f ∧ ∃ l, d.layer found f = .ok l ∧ m = boardName f l.cls) ↔
          ∃ f ∈ d.names, Visible f ∧ ∃ l, d.layer found f = .ok l ∧ m = boardName f l.cls := by
        intro m
        simp only [hp.mem_iff]
      change (∃ m, (∀ k, (∃ f ∈ names, Visible f ∧ ∃ l, d.layer found f = .ok l ∧ k = boardName f l.cls) ↔ k = m) ∧
        n' = m) ∨ (¬ ∃ m, ∀ k, (∃ f ∈ names, Visible f ∧ ∃ l, d.layer found f = .ok l ∧ k = boardName f l.cls) ↔ k = m) ∧
        n' = baseName d.path at hn'
      simp only [hs] at hn'
      rcases hn with ⟨m, h1, rfl⟩ | ⟨h1, rfl⟩ <;> rcases hn' with ⟨m', h2, rfl⟩ | ⟨h2, rfl⟩
      · exact (h1 _).1 ((h2 _).2 rfl)
      · exact absurd ⟨_, h1⟩ h2
      · exact absurd ⟨_, h2⟩ h1
      · rfl
  subst hnn
  refine ⟨_, _, _, e, e', ?_⟩
  refine List.Perm.append (List.Perm.append ?_ (hls.filter _)) (hls.filter _)
  exact hb'.once.trans ((hls.filter _).trans hb.once.symm)

/-! ## Examples and violations -/

/-- A directory given by a list of names with kinds (or exceptions). -/
def sampleDir (path : String) (l : List (String × PyR CamKind)) : Dir where
  path := path.toList
  names := l.map (·.1.toList)
  lines := fun _ => .error .ioError
  read := fun f => match l.find? fun x => x.1.toList = f with
    | some x => x.2.map fun k => (k, none)
    | none => .error .ioError

/-- Names and classes of the layers, and the name of the board. -/
def summary (r : PyR (List Layer × Str)) : PyR (List (String × String) × String) :=
  r.map fun x => (x.1.map fun l => (String.ofList (baseName l.filename), l.cls), String.ofList x.2)

example : summary (fromDirectory (fun _ _ => false) (sampleDir "/work/amp" [(".hidden", .error .valueError),
    ("Thumbs.db", .error .valueError), ("amp.gbl", .ok .gerber), ("amp.top.gbr", .ok .gerber), ("readme", .error .parseError),
    ("amp.drl", .ok .excellon)]) none) =
  .ok ([("amp.top.gbr", "top"), ("amp.gbl", "bottom"), ("amp.drl", "drill")], "amp") := by decide +kernel

example : summary (fromDirectory (fun _ _ => false) (sampleDir "/work/amp" [("a.gbl", .ok .gerber),
    ("b.gtl", .ok .gerber)]) none) = .ok ([("b.gtl", "top"), ("a.gbl", "bottom")], "amp") := by decide +kernel

/-- One file that cannot be read otherwise (such as a picture that is no text) spoils the whole board. -/
theorem C59_bad_file_violated : fromDirectory (fun _ _ => false) (sampleDir "/work/amp" [("amp.gtl", .ok .gerber),
    ("photo.png", .error .valueError)]) none = .error .valueError := by decide +kernel

/-- Layers of unknown class and netlists are lost. -/
theorem C59_unknown_violated : summary (fromDirectory (fun _ _ => false) (sampleDir "/work/amp" [("amp.gtl", .ok .gerber),
    ("amp.gm1", .ok .gerber), ("amp.ipc", .ok .ipc)]) none) = .ok ([("amp.gtl", "top")], "amp") := by decide +kernel

/-- Inner layers are sorted by the first digits anywhere in the path: in this directory all have the order 2. -/
theorem C59_path_digits_violated : summary (fromDirectory (fun _ _ => false) (sampleDir "/work2/amp" [
    ("amp.g3", .ok .gerber), ("amp.g1", .ok .gerber)]) none) =
  .ok ([("amp.g3", "internal"), ("amp.g1", "internal")], "amp") := by decide +kernel

end Verif.Layers
