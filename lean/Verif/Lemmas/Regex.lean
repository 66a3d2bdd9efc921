import Verif.Py.Regex
import Verif.Lemmas.PyNum

/-! # Lemmas about regular expression matching

`First a s m`: the first match of `a` on `s` is `m`.  `Fails a s`: no match. -/

namespace Verif.Py.Re

/-- The first match of `a` on `s`. -/
def First (a : Re) (s : Str) (m : M) : Prop := (a.run s).head? = some m

/-- `a` matches no prefix of `s`. -/
def Fails (a : Re) (s : Str) : Prop := a.run s = []

theorem First.pyMatch {a : Re} {s u r : Str} {cs : Caps} (h : First a s (u, cs, r)) :
    a.pyMatch s = some (cs, r) := by
  unfold Re.pyMatch; rw [h]; rfl

theorem Fails.pyMatch {a : Re} {s : Str} (h : Fails a s) : a.pyMatch s = none := by
  unfold Re.pyMatch; rw [h]; rfl

theorem First.seq {a b : Re} {s u r u' r' : Str} {cs cs' : Caps} (h : First a s (u, cs, r))
    (h' : First b r (u', cs', r')) : First (.seq a b) s (u ++ u', cs ++ cs', r') := by
  unfold First at *
  simp only [Re.run]
  cases ha : a.run s with
  | nil => rw [ha] at h; cases h
  | cons m l =>
    rw [ha] at h; simp only [List.head?_cons, Option.some.injEq] at h; subst h
    cases hb : b.run r with
    | nil => rw [hb] at h'; cases h'
    | cons m' l' =>
      rw [hb] at h'; simp only [List.head?_cons, Option.some.injEq] at h'; subst h'
      simp [hb]

theorem Fails.seq_left {a b : Re} {s : Str} (h : Fails a s) : Fails (.seq a b) s := by
  unfold Fails at *
  simp [Re.run, h]

theorem Fails.seq {a b : Re} {s : Str} (h : ∀ m ∈ a.run s, Fails b m.2.2) :
    Fails (.seq a b) s := by
  unfold Fails at *
  simp only [Re.run, List.flatMap_eq_nil_iff]
  intro m hm
  simp [h m hm]

theorem First.grp {n : String} {a : Re} {s u r : Str} {cs : Caps} (h : First a s (u, cs, r)) :
    First (.grp n a) s (u, (n, u) :: cs, r) := by
  unfold First at *
  simp [Re.run, List.head?_map, h]

theorem Fails.grp {n : String} {a : Re} {s : Str} (h : Fails a s) : Fails (.grp n a) s := by
  unfold Fails at *; simp [Re.run, h]

theorem First.alt_left {a b : Re} {s : Str} {m : M} (h : First a s m) : First (.alt a b) s m := by
  unfold First at *
  simp [Re.run, List.head?_append, h]

theorem First.alt_right {a b : Re} {s : Str} {m : M} (ha : Fails a s) (h : First b s m) :
    First (.alt a b) s m := by
  unfold First Fails at *
  simp [Re.run, ha, h]

theorem Fails.alt {a b : Re} {s : Str} (ha : Fails a s) (hb : Fails b s) : Fails (.alt a b) s := by
  unfold Fails at *
  simp [Re.run, ha, hb]

theorem First.eps (s : Str) : First .eps s ([], [], s) := rfl

theorem First.opt_some {a : Re} {s : Str} {m : M} (h : First a s m) : First (opt a) s m :=
  First.alt_left h

theorem First.opt_none {a : Re} {s : Str} (h : Fails a s) : First (opt a) s ([], [], s) :=
  First.alt_right h (First.eps s)

theorem run_opt_of_fails {a : Re} {s : Str} (h : Fails a s) : (opt a).run s = [([], [], s)] := by
  unfold Fails at h
  simp [opt, Re.run, h]

theorem First.chr {p : Char → Bool} {c : Char} {s : Str} (h : p c = true) :
    First (.chr p) (c :: s) ([c], [], s) := by
  simp [First, Re.run, h]

theorem Fails.chr {p : Char → Bool} {c : Char} {s : Str} (h : p c = false) :
    Fails (.chr p) (c :: s) := by
  simp [Fails, Re.run, h]

theorem Fails.chr_nil {p : Char → Bool} : Fails (.chr p) [] := rfl

theorem First.lit {c : Char} {s : Str} : First (lit c) (c :: s) ([c], [], s) :=
  First.chr (by simp)

theorem Fails.lit {c d : Char} {s : Str} (h : d ≠ c) : Fails (lit c) (d :: s) :=
  Fails.chr (by simpa using h)

theorem Fails.lit_nil {c : Char} : Fails (Re.lit c) [] := rfl

theorem First.str (t s : Str) : First (Re.str t) (t ++ s) (t, [], s) := by
  induction t with
  | nil => exact First.eps s
  | cons c t ih =>
    cases t with
    | nil => exact First.lit
    | cons d t => exact First.seq First.lit ih

theorem Fails.str_head {c d : Char} {t s : Str} (h : d ≠ c) : Fails (Re.str (c :: t)) (d :: s) := by
  cases t with
  | nil => exact Fails.lit h
  | cons e t => exact Fails.seq_left (Fails.lit h)

theorem starMatch_head {p : Char → Bool} (s : Str) :
    (starMatch p s).head? = some (s.takeWhile p, s.dropWhile p) := by
  induction s with
  | nil => rfl
  | cons c s ih =>
    unfold starMatch
    by_cases h : p c = true
    · simp [h, List.head?_append, List.head?_map, ih]
    · simp [h]

theorem First.star {p : Char → Bool} (s : Str) :
    First (.star p) s (s.takeWhile p, [], s.dropWhile p) := by
  simp [First, Re.run, List.head?_map, starMatch_head]

/-- Greedy repetition stops in front of a character outside the class. -/
theorem First.star_append {p : Char → Bool} {a b : Str} (ha : a.all p = true)
    (hb : ∀ c t, b = c :: t → p c = false) : First (.star p) (a ++ b) (a, [], b) := by
  have := First.star (p := p) (a ++ b)
  rwa [takeWhile_append_of_all ha hb, dropWhile_append_of_all ha hb] at this

theorem First.plus_append {p : Char → Bool} {a b : Str} (hne : a ≠ []) (ha : a.all p = true)
    (hb : ∀ c t, b = c :: t → p c = false) : First (plus p) (a ++ b) (a, [], b) := by
  cases a with
  | nil => exact absurd rfl hne
  | cons c a =>
    simp only [List.all_cons, Bool.and_eq_true] at ha
    exact First.seq (First.chr ha.1) (First.star_append ha.2 hb)

theorem Fails.plus {p : Char → Bool} {c : Char} {s : Str} (h : p c = false) :
    Fails (plus p) (c :: s) := Fails.seq_left (Fails.chr h)

/-- `class* rest` where the class also contains characters of the rest: the greedy repetition
takes everything it can and gives back one character at a time.  If the text is `a ++ b` with `b`
matched by `rest` and no longer split works, the first match takes exactly `a`. -/
theorem run_star_seq {p : Char → Bool} {k : Re} (s : Str) :
    (Re.seq (.star p) k).run s =
      (starMatch p s).flatMap fun x => (k.run x.2).map fun y => (x.1 ++ y.1, y.2.1, y.2.2) := by
  simp [Re.run, List.flatMap_map]

theorem starMatch_split {p : Char → Bool} (t : Str) : ∀ x ∈ starMatch p t,
    t = x.1 ++ x.2 ∧ x.1.all p = true := by
  induction t with
  | nil => intro x h; simp [starMatch] at h; subst h; simp
  | cons c t ih =>
    intro x h
    unfold starMatch at h
    by_cases hx : p c = true
    · rw [if_pos hx, List.mem_append, List.mem_map] at h
      rcases h with ⟨w, hw, rfl⟩ | h
      · obtain ⟨h1, h2⟩ := ih _ hw
        refine ⟨by simp [← h1], by simpa [hx] using h2⟩
      · simp at h; subst h; simp
    · rw [if_neg hx] at h
      simp at h; subst h; simp

/-- `class* k` fails if `k` fails after every choice. -/
theorem Fails.star_seq {p : Char → Bool} {k : Re} {s : Str}
    (h : ∀ u r, s = u ++ r → u.all p = true → Fails k r) : Fails (.seq (.star p) k) s := by
  unfold Fails
  rw [run_star_seq, List.flatMap_eq_nil_iff]
  intro x hx
  obtain ⟨h1, h2⟩ := starMatch_split s x hx
  have := h x.1 x.2 h1 h2
  unfold Fails at this
  simp [this]

theorem First.star_seq_backtrack {p : Char → Bool} {k : Re} {a b u r : Str} {cs : Caps}
    (ha : a.all p = true) (hk : First k b (u, cs, r))
    (hfail : ∀ c t, b = c :: t → p c = true → ∀ t1 t2, t = t1 ++ t2 → t1.all p = true →
      Fails k t2) :
    First (.seq (.star p) k) (a ++ b) (a ++ u, cs, r) := by
  unfold First
  rw [run_star_seq]
  induction a with
  | nil =>
    simp only [List.nil_append]
    have hk' : (k.run b).head? = some (u, cs, r) := hk
    cases b with
    | nil => simp [starMatch, hk']
    | cons c t =>
      unfold starMatch
      by_cases h : p c = true
      · have hz := Fails.star_seq (p := p) (k := k) (s := t)
          (fun u r h1 h2 => hfail c t rfl h u r h1 h2)
        unfold Fails at hz
        rw [run_star_seq, List.flatMap_eq_nil_iff] at hz
        rw [if_pos h, List.flatMap_append, List.flatMap_map]
        rw [List.flatMap_eq_nil_iff.2]
        · simp [hk']
        · intro x hx
          have := hz x hx
          simp only [List.map_eq_nil_iff] at this
          simp [this]
      · simp [h, hk']
  | cons x a ih =>
    simp only [List.all_cons, Bool.and_eq_true] at ha
    have := ih ha.2
    simp only [List.cons_append]
    unfold starMatch
    rw [if_pos ha.1, List.flatMap_append, List.flatMap_map, List.head?_append]
    have hmap : (List.flatMap (fun z : Str × Str =>
          (k.run z.2).map fun y : M => ((x :: z.1) ++ y.1, y.2.1, y.2.2)) (starMatch p (a ++ b))) =
        (List.flatMap (fun z : Str × Str =>
          (k.run z.2).map fun y : M => (z.1 ++ y.1, y.2.1, y.2.2))
          (starMatch p (a ++ b))).map (fun y => (x :: y.1, y.2.1, y.2.2)) := by
      rw [List.map_flatMap]
      congr 1
      funext y
      simp
    simp only
    rw [hmap, List.head?_map, this]
    rfl

end Verif.Py.Re

namespace Verif.Py.Re

theorem Fails.opt_seq {a k : Re} {s : Str} (ha : Fails a s) (hk : Fails k s) :
    Fails (.seq (opt a) k) s := by
  apply Fails.seq
  rw [run_opt_of_fails ha]
  intro m hm
  simp at hm; subst hm; exact hk

/-- Both choices of an optional part fail to be continued. -/
theorem Fails.opt_seq' {a k : Re} {s : Str} (ha : Fails (.seq a k) s) (hk : Fails k s) :
    Fails (.seq (opt a) k) s := by
  unfold Fails at *
  simp only [opt, Re.run, List.flatMap_append, List.append_eq_nil_iff] at *
  exact ⟨ha, by simp [hk]⟩

theorem First.opt_skip {a k : Re} {s u r : Str} {cs : Caps} (ha : Fails a s)
    (hk : First k s (u, cs, r)) : First (.seq (opt a) k) s (u, cs, r) :=
  First.seq (First.opt_none ha) hk

theorem Fails.lit_seq {c : Char} {k : Re} {s : Str} (hk : Fails k s) :
    Fails (.seq (Re.lit c) k) (c :: s) := by
  apply Fails.seq
  intro m hm
  simp [Re.lit, Re.run] at hm; subst hm; exact hk

theorem Fails.chr_seq {p : Char → Bool} {c : Char} {k : Re} {s : Str} (hk : Fails k s) :
    Fails (.seq (.chr p) k) (c :: s) := by
  apply Fails.seq
  intro m hm
  by_cases h : p c = true
  · simp [Re.run, h] at hm; subst hm; exact hk
  · simp [Re.run, h] at hm

/-- `(?P<n>[class]*) k` with backtracking. -/
theorem First.grp_star_backtrack {p : Char → Bool} {n : String} {k : Re} {a b u r : Str} {cs : Caps}
    (ha : a.all p = true) (hk : First k b (u, cs, r))
    (hfail : ∀ c t, b = c :: t → p c = true → ∀ t1 t2, t = t1 ++ t2 → t1.all p = true →
      Fails k t2) :
    First (.seq (.grp n (.star p)) k) (a ++ b) (a ++ u, (n, a) :: cs, r) := by
  have h := First.star_seq_backtrack ha hk hfail
  unfold First at *
  rw [run_star_seq] at h
  -- the group variant has the same candidates, with the group added
  have hrun : (Re.seq (.grp n (.star p)) k).run (a ++ b) =
      (starMatch p (a ++ b)).flatMap fun x =>
        (k.run x.2).map fun y => (x.1 ++ y.1, (n, x.1) :: y.2.1, y.2.2) := by
    simp [Re.run, List.flatMap_map, List.map_map]
  rw [hrun]
  -- compare with the longest split that works
  clear hrun h
  induction a with
  | nil =>
    simp only [List.nil_append]
    cases b with
    | nil => simp [starMatch, hk]
    | cons c t =>
      unfold starMatch
      by_cases hc : p c = true
      · rw [if_pos hc, List.flatMap_append, List.flatMap_map]
        rw [List.flatMap_eq_nil_iff.2]
        · simp [hk]
        · intro x hx
          obtain ⟨h1, h2⟩ := starMatch_split t x hx
          have := hfail c t rfl hc x.1 x.2 h1 h2
          unfold Fails at this
          simp [this]
      · simp [hc, hk]
  | cons x a ih =>
    simp only [List.all_cons, Bool.and_eq_true] at ha
    have ih := ih ha.2
    simp only [List.cons_append]
    unfold starMatch
    rw [if_pos ha.1, List.flatMap_append, List.flatMap_map, List.head?_append]
    have hmap : ∀ L : List (Str × Str), (L.flatMap (fun z : Str × Str =>
          (k.run z.2).map fun y : M => ((x :: z.1) ++ y.1, (n, x :: z.1) :: y.2.1, y.2.2))) =
        (L.flatMap (fun z : Str × Str =>
          (k.run z.2).map fun y : M => (z.1 ++ y.1, (n, z.1) :: y.2.1, y.2.2))).map
            (fun y => (x :: y.1, (n, x :: (match y.2.1 with
              | [] => []
              | (_, v) :: _ => v)) :: y.2.1.tail, y.2.2)) := by
      intro L
      rw [List.map_flatMap]
      congr 1
      funext y
      simp
    simp only
    rw [hmap, List.head?_map, ih]
    rfl

/-- `(?P<n>[class]*) k` fails if `k` fails after every choice. -/
theorem Fails.grp_star_seq {p : Char → Bool} {n : String} {k : Re} {s : Str}
    (h : ∀ u r, s = u ++ r → u.all p = true → Fails k r) :
    Fails (.seq (.grp n (.star p)) k) s := by
  apply Fails.seq
  intro m hm
  simp only [Re.run, List.mem_map] at hm
  obtain ⟨w, ⟨x, hx, rfl⟩, rfl⟩ := hm
  obtain ⟨h1, h2⟩ := starMatch_split s x hx
  exact h x.1 x.2 h1 h2

/-- All matches of `[class]+`. -/
theorem plus_matches {p : Char → Bool} {s : Str} {m : M} (hm : m ∈ (plus p).run s) :
    s = m.1 ++ m.2.2 ∧ m.1 ≠ [] ∧ m.1.all p = true := by
  cases s with
  | nil => simp [plus, Re.run] at hm
  | cons c s =>
    simp only [plus, Re.run] at hm
    by_cases hc : p c = true
    · rw [if_pos hc] at hm
      simp only [List.flatMap_cons, List.flatMap_nil, List.append_nil, List.map_map,
        List.mem_map] at hm
      obtain ⟨x, hx, rfl⟩ := hm
      obtain ⟨h1, h2⟩ := starMatch_split s x hx
      simp [h1, hc, h2]
    · rw [if_neg hc] at hm; simp at hm

/-- `(?P<n>[class]+) k` fails if `k` fails after every choice. -/
theorem Fails.grp_plus_seq {p : Char → Bool} {n : String} {k : Re} {s : Str}
    (h : ∀ u r, s = u ++ r → u ≠ [] → u.all p = true → Fails k r) :
    Fails (.seq (.grp n (Re.plus p)) k) s := by
  apply Fails.seq
  intro m hm
  simp only [Re.run, List.mem_map] at hm
  obtain ⟨x, hx, rfl⟩ := hm
  obtain ⟨h1, h2, h3⟩ := plus_matches hx
  exact h x.1 x.2.2 h1 h2 h3

/-! ## Consumption -/

/-- Every match consumes a prefix of the text. -/
theorem run_split (a : Re) (s : Str) : ∀ m ∈ a.run s, s = m.1 ++ m.2.2 := by
  induction a generalizing s with
  | chr p =>
    cases s with
    | nil => simp [Re.run]
    | cons c s =>
      intro m hm
      simp only [Re.run] at hm
      split at hm <;> simp at hm
      subst hm; rfl
  | eps => intro m hm; simp [Re.run] at hm; subst hm; rfl
  | seq a b iha ihb =>
    intro m hm
    simp only [Re.run, List.mem_flatMap, List.mem_map] at hm
    obtain ⟨x, hx, y, hy, rfl⟩ := hm
    rw [iha s x hx, ihb _ y hy]; simp
  | alt a b iha ihb =>
    intro m hm
    simp only [Re.run, List.mem_append] at hm
    exact hm.elim (iha s m) (ihb s m)
  | star p =>
    intro m hm
    simp only [Re.run, List.mem_map] at hm
    obtain ⟨x, hx, rfl⟩ := hm
    exact (starMatch_split s x hx).1
  | grp n a ih =>
    intro m hm
    simp only [Re.run, List.mem_map] at hm
    obtain ⟨x, hx, rfl⟩ := hm
    exact ih s x hx

/-- Least number of characters of a match. -/
def minLen : Re → ℕ
  | .chr _ => 1
  | .eps => 0
  | .seq a b => a.minLen + b.minLen
  | .alt a b => min a.minLen b.minLen
  | .star _ => 0
  | .grp _ a => a.minLen

theorem minLen_le (a : Re) (s : Str) : ∀ m ∈ a.run s, a.minLen ≤ m.1.length := by
  induction a generalizing s with
  | chr p =>
    cases s with
    | nil => simp [Re.run]
    | cons c s =>
      intro m hm
      simp only [Re.run] at hm
      split at hm <;> simp at hm
      subst hm; simp [minLen]
  | eps => intro m hm; simp [minLen]
  | seq a b iha ihb =>
    intro m hm
    simp only [Re.run, List.mem_flatMap, List.mem_map] at hm
    obtain ⟨x, hx, y, hy, rfl⟩ := hm
    have := iha s x hx
    have := ihb _ y hy
    simp only [minLen, List.length_append]; omega
  | alt a b iha ihb =>
    intro m hm
    simp only [Re.run, List.mem_append] at hm
    simp only [minLen]
    rcases hm with hm | hm
    · exact le_trans (min_le_left _ _) (iha s m hm)
    · exact le_trans (min_le_right _ _) (ihb s m hm)
  | star p => intro m hm; simp [minLen]
  | grp n a ih =>
    intro m hm
    simp only [Re.run, List.mem_map] at hm
    obtain ⟨x, hx, rfl⟩ := hm
    exact ih s x hx

/-- The rest after a match of an expression that cannot match the empty text is shorter. -/
theorem pyMatch_shorter {a : Re} (h : 1 ≤ a.minLen) {s r : Str} {cs : Caps}
    (hm : a.pyMatch s = some (cs, r)) : r.length < s.length := by
  unfold pyMatch at hm
  cases hr : a.run s with
  | nil => rw [hr] at hm; simp at hm
  | cons m l =>
    rw [hr] at hm
    simp only [List.head?_cons, Option.map_some, Option.some.injEq] at hm
    have h1 := run_split a s m (by rw [hr]; simp)
    have h2 := minLen_le a s m (by rw [hr]; simp)
    rw [h1, List.length_append, hm]
    simp only; omega

end Verif.Py.Re
