import Verif.Model.Whitespace
import Verif.Spec.Whitespace
import Verif.Lemmas.Regex
import Verif.Lemmas.Bib
namespace L2J
open Spec

/-- The boolean form of `Spec.Ws`. -/
def wsB (c : Char) : Bool := isBlank c || c == '\n'

theorem wsB_iff (c : Char) : wsB c = true ↔ Ws c := by
  unfold wsB isBlank Ws
  simp [or_assoc]

/-- What follows the next newline if only blanks precede it. -/
def afterNl (s : Str) : Option Str :=
  match s.dropWhile isBlank with
  | [] => none
  | c :: r => if c = '\n' then some r else none

theorem nlRe_run (rev rest : Str) (g) :
    nlRe.run ⟨rev, rest, g⟩ =
      match afterNl rest with
      | none => []
      | some r => charRuns isBlank g ('\n' :: ((rest.takeWhile isBlank).reverse ++ rev)) r := by
  have h : nlRe.run ⟨rev, rest, g⟩ =
      ((Re.star (.chr isBlank)).run ⟨rev, rest, g⟩).flatMap
        (Re.run (.seq (.chr (· == '\n')) (.star (.chr isBlank)))) := by
    simp only [nlRe]; conv => lhs; unfold Re.run
  have hk : ∀ rev x rest, isBlank x = true →
      Re.run (.seq (.chr (· == '\n')) (.star (.chr isBlank))) ⟨rev, x :: rest, g⟩ = [] := by
    intro rev x rest hx
    have : (x == '\n') = false := by
      unfold isBlank at hx
      simp at hx
      rcases hx with rfl | rfl <;> decide
    simp [Re.run, this]
  rw [h, run_star_chr, charRuns_flatMap isBlank g _ hk]
  unfold afterNl
  have e : ∀ st, Re.run (.seq (.chr (· == '\n')) (.star (.chr isBlank))) st =
      (Re.run (.chr (· == '\n')) st).flatMap (Re.run (.star (.chr isBlank))) := by
    intro st; conv => lhs; unfold Re.run
  rw [e]
  cases hd : rest.dropWhile isBlank with
  | nil => simp [Re.run]
  | cons c r =>
    by_cases hc : c = '\n'
    · subst hc
      have : Re.run (.chr (· == '\n')) ⟨(rest.takeWhile isBlank).reverse ++ rev, '\n' :: r, g⟩ =
        [⟨'\n' :: ((rest.takeWhile isBlank).reverse ++ rev), r, g⟩] := by simp [Re.run]
      rw [this]
      simp only [List.flatMap_cons, List.flatMap_nil, List.append_nil, if_true]
      rw [run_star_chr]
    · have : (c == '\n') = false := by simpa using hc
      simp [Re.run, this, hc]

theorem charRuns_dropWhile (p : Char → Bool) (g) : ∀ (rest rev : Str) (x : MSt), x ∈ charRuns p g rev rest →
    x.rest.dropWhile p = rest.dropWhile p ∧ x.groups = g
  | [], rev, x, h => by simp [charRuns] at h; subst h; simp
  | c :: rest, rev, x, h => by
    by_cases hp : p c
    · simp only [charRuns, hp, if_true, List.mem_append, List.mem_singleton] at h
      rcases h with h | h
      · have := charRuns_dropWhile p g rest (c :: rev) x h
        simpa [hp] using this
      · subst h; simp
    · simp [charRuns, hp] at h; subst h; simp

theorem afterNl_congr {s t : Str} (h : s.dropWhile isBlank = t.dropWhile isBlank) : afterNl s = afterNl t := by
  unfold afterNl; rw [h]

theorem dropWhile_idem (p : Char → Bool) (s : Str) : (s.dropWhile p).dropWhile p = s.dropWhile p := by
  induction s with
  | nil => rfl
  | cons c s ih =>
    by_cases hp : p c
    · simpa [hp] using ih
    · simp [hp]

/-- The following text does not continue a gap. -/
def NoWsHead (b : Str) : Prop := ∀ c, b.head? = some c → wsB c = false

/-- Inside a gap: the next newline. -/
theorem afterNl_gap (s b : Str) (hs : ∀ c ∈ s, wsB c = true) (hb : NoWsHead b) :
    (s.count '\n' = 0 ∧ afterNl (s ++ b) = none) ∨
    (∃ s', s.count '\n' = s'.count '\n' + 1 ∧ (∀ c ∈ s', wsB c = true) ∧ s'.length < s.length ∧
      afterNl (s ++ b) = some (s' ++ b)) := by
  induction s with
  | nil =>
    left
    refine ⟨rfl, ?_⟩
    unfold afterNl
    cases b with
    | nil => rfl
    | cons c b =>
      have := hb c rfl
      simp only [wsB, Bool.or_eq_false_iff] at this
      have h2 : c ≠ '\n' := by simpa using this.2
      simp [this.1, h2]
  | cons c s ih =>
    have hc := hs c (by simp)
    have hs' : ∀ c ∈ s, wsB c = true := fun x hx => hs x (by simp [hx])
    by_cases hbk : isBlank c = true
    · have hne : c ≠ '\n' := by rintro rfl; revert hbk; decide
      have e : afterNl (c :: s ++ b) = afterNl (s ++ b) := afterNl_congr (by simp [hbk])
      have e2 : (c :: s).count '\n' = s.count '\n' := by simp [hne]
      rw [e, e2]
      rcases ih hs' with h | ⟨s', h1, h2, h3, h4⟩
      · exact Or.inl h
      · exact Or.inr ⟨s', h1, h2, by simp; omega, h4⟩
    · have hn : c = '\n' := by
        simp only [wsB, Bool.or_eq_true] at hc
        rcases hc with hc | hc
        · exact absurd hc hbk
        · simpa using hc
      subst hn
      right
      refine ⟨s, by simp, hs', by simp, ?_⟩
      unfold afterNl
      simp [isBlank]

theorem takeWhile_blank_gap (s b : Str) (hs : ∀ c ∈ s, wsB c = true) (hb : NoWsHead b) :
    ∃ s', (s ++ b).dropWhile isBlank = s' ++ b ∧ (∀ c ∈ s', wsB c = true) ∧ s'.count '\n' = s.count '\n' ∧
      s'.length ≤ s.length ∧ (s' = [] ∨ ∃ r, s' = '\n' :: r) := by
  induction s with
  | nil =>
    refine ⟨[], ?_, by simp, rfl, by simp, Or.inl rfl⟩
    cases b with
    | nil => rfl
    | cons c b =>
      have := hb c rfl
      simp only [wsB, Bool.or_eq_false_iff] at this
      simp [this.1]
  | cons c s ih =>
    have hs' : ∀ c ∈ s, wsB c = true := fun x hx => hs x (by simp [hx])
    have hc := hs c (by simp)
    by_cases hbk : isBlank c = true
    · obtain ⟨s', h1, h2, h3, h4, h5⟩ := ih hs'
      have hne : c ≠ '\n' := by rintro rfl; revert hbk; decide
      refine ⟨s', by simpa [hbk] using h1, h2, by simp [hne, h3], by simp; omega, h5⟩
    · have hn : c = '\n' := by
        simp only [wsB, Bool.or_eq_true] at hc
        rcases hc with hc | hc
        · exact absurd hc hbk
        · simpa using hc
      subst hn
      exact ⟨'\n' :: s, by simp [isBlank], hs, rfl, by simp, Or.inr ⟨s, rfl⟩⟩

/-- One newline with the blanks around it, greedily. -/
theorem nlRe_gap_head (s b : Str) (hs : ∀ c ∈ s, wsB c = true) (hb : NoWsHead b) (rev : Str) (g) (hn : s.count '\n' ≠ 0) :
    ∃ rev' s', (nlRe.run ⟨rev, s ++ b, g⟩).head? = some ⟨rev', s' ++ b, g⟩ ∧ s.count '\n' = s'.count '\n' + 1 ∧
      (∀ c ∈ s', wsB c = true) ∧ s'.length < s.length ∧ (s' = [] ∨ ∃ r, s' = '\n' :: r) := by
  rw [nlRe_run]
  rcases afterNl_gap s b hs hb with h | ⟨s1, h1, h2, h3, h4⟩
  · exact absurd h.1 hn
  · rw [h4]
    simp only
    rw [charRuns_head?]
    obtain ⟨s', k1, k2, k3, k4, k5⟩ := takeWhile_blank_gap s1 b h2 hb
    exact ⟨_, s', by rw [k1], by omega, k2, by omega, k5⟩

theorem head?_flatMap_some {α β} {l : List α} {x : α} {f : α → List β} {y : β} (h : l.head? = some x)
    (h2 : (f x).head? = some y) : (l.flatMap f).head? = some y := by
  cases l with
  | nil => simp at h
  | cons a l => simp at h; subst h; simp [List.head?_append, h2]

theorem head?_filter_some {α} {l : List α} {x : α} {p : α → Bool} (h : l.head? = some x) (hp : p x = true) :
    (l.filter p).head? = some x := by
  cases l with
  | nil => simp at h
  | cons a l => simp at h; subst h; simp [hp]

theorem star_nlRe_gap (b : Str) (hb : NoWsHead b) (g) : ∀ (n : Nat) (s : Str), s.length ≤ n →
    (∀ c ∈ s, wsB c = true) → (s = [] ∨ s.count '\n' ≠ 0) → ∀ (fuel : Nat), s.length ≤ fuel → ∀ rev,
    ∃ rev', (iterGreedy nlRe.run fuel ⟨rev, s ++ b, g⟩).head? = some ⟨rev', b, g⟩ := by
  intro n
  induction n with
  | zero =>
    intro s hl hs _ fuel _ rev
    have : s = [] := List.length_eq_zero_iff.1 (by omega)
    subst this
    have hnil : nlRe.run ⟨rev, [] ++ b, g⟩ = [] := by
      rw [nlRe_run]
      rcases afterNl_gap [] b (by simp) hb with h | ⟨s1, h1, _⟩
      · rw [h.2]
      · simp at h1
    cases fuel with
    | zero => exact ⟨rev, rfl⟩
    | succ k => exact ⟨rev, by simp only [iterGreedy, hnil]; rfl⟩
  | succ n ih =>
    intro s hl hs hd fuel hf rev
    rcases hd with rfl | hd
    · exact ih [] (by simp) (by simp) (Or.inl rfl) fuel (by simp) rev
    · obtain ⟨rev', s', h1, h2, h3, h4, h5⟩ := nlRe_gap_head s b hs hb rev g hd
      cases fuel with
      | zero => omega
      | succ k =>
        have h5' : s' = [] ∨ s'.count '\n' ≠ 0 := by
          rcases h5 with h | ⟨r, rfl⟩
          · exact Or.inl h
          · right; simp
        obtain ⟨rev'', ih'⟩ := ih s' (by omega) h3 h5' k (by omega) rev'
        refine ⟨rev'', ?_⟩
        simp only [iterGreedy]
        rw [List.head?_append]
        rw [head?_flatMap_some (head?_filter_some h1 (by simp; omega)) ih']
        rfl

theorem seq_head {a b : Re} {st x y : MSt} (h : (a.run st).head? = some x) (h2 : (b.run x).head? = some y) :
    ((Re.seq a b).run st).head? = some y := by
  show ((a.run st).flatMap b.run).head? = some y
  exact head?_flatMap_some h h2

/-- A gap with a blank line is matched completely by the paragraph pattern. -/
theorem paraRe_gap (s b : Str) (hs : ∀ c ∈ s, wsB c = true) (hb : NoWsHead b) (rev : Str) (hn : 2 ≤ s.count '\n') :
    ∃ m, paraRe.matchAt rev (s ++ b) = some m ∧ m.len = s.length := by
  obtain ⟨rev1, s1, h1, h2, h3, h4, h5⟩ := nlRe_gap_head s b hs hb rev [] (by omega)
  obtain ⟨rev2, s2, k1, k2, k3, k4, k5⟩ := nlRe_gap_head s1 b h3 hb rev1 [] (by omega)
  have k5' : s2 = [] ∨ s2.count '\n' ≠ 0 := by
    rcases k5 with h | ⟨r, rfl⟩
    · exact Or.inl h
    · right; simp
  obtain ⟨rev3, h6⟩ := star_nlRe_gap b hb [] s2.length s2 (Nat.le_refl _) k3 k5' (s2 ++ b).length (by simp) rev2
  have : (paraRe.run ⟨rev, s ++ b, []⟩).head? = some ⟨rev3, b, []⟩ := seq_head h1 (seq_head k1 h6)
  rw [Re.matchAt_eq, this]
  exact ⟨_, rfl, by simp⟩

theorem nlRe_none_of {rev rest : Str} {g} (h : afterNl rest = none) : nlRe.run ⟨rev, rest, g⟩ = [] := by
  rw [nlRe_run, h]

/-- Fewer than two newlines: no match of the paragraph pattern. -/
theorem paraRe_gap_none (s b : Str) (hs : ∀ c ∈ s, wsB c = true) (hb : NoWsHead b) (rev : Str) (hn : s.count '\n' < 2) :
    paraRe.matchAt rev (s ++ b) = none := by
  have : paraRe.run ⟨rev, s ++ b, []⟩ = [] := by
    show (nlRe.run ⟨rev, s ++ b, []⟩).flatMap (Re.run (.seq nlRe (.star nlRe))) = []
    rw [nlRe_run]
    rcases afterNl_gap s b hs hb with h | ⟨s1, h1, h2, h3, h4⟩
    · rw [h.2]; rfl
    · rw [h4]
      simp only
      rw [List.flatMap_eq_nil_iff]
      intro x hx
      have hd := charRuns_dropWhile _ _ _ _ x hx
      have : afterNl x.rest = none := by
        rw [afterNl_congr hd.1]
        rcases afterNl_gap s1 b h2 hb with h | ⟨s2, h5, _⟩
        · exact h.2
        · omega
      show (nlRe.run x).flatMap _ = []
      obtain ⟨xr, xs, xg⟩ := x
      rw [nlRe_none_of this]; rfl
  rw [Re.matchAt_eq, this]; rfl

theorem nlRe_gap (s b : Str) (hs : ∀ c ∈ s, wsB c = true) (hb : NoWsHead b) (rev : Str) (hn : s.count '\n' = 1) :
    ∃ m, nlRe.matchAt rev (s ++ b) = some m ∧ m.len = s.length := by
  obtain ⟨rev1, s1, h1, h2, h3, h4, h5⟩ := nlRe_gap_head s b hs hb rev [] (by omega)
  have : s1 = [] := by
    rcases h5 with h | ⟨r, rfl⟩
    · exact h
    · simp at h2; omega
  subst this
  rw [Re.matchAt_eq, h1]
  exact ⟨_, rfl, by simp⟩

theorem nlRe_gap_none (s b : Str) (hs : ∀ c ∈ s, wsB c = true) (hb : NoWsHead b) (rev : Str) (hn : s.count '\n' = 0) :
    nlRe.matchAt rev (s ++ b) = none := by
  rw [Re.matchAt_eq, nlRe_none_of]
  · rfl
  · rcases afterNl_gap s b hs hb with h | ⟨s1, h1, _⟩
    · exact h.2
    · omega

theorem count_zero_isBlank {s : Str} (hs : ∀ c ∈ s, wsB c = true) (hn : s.count '\n' = 0) : ∀ c ∈ s, isBlank c = true := by
  intro c hc
  have h := hs c hc
  simp only [wsB, Bool.or_eq_true] at h
  rcases h with h | h
  · exact h
  · have : c = '\n' := by simpa using h
    subst this
    exact absurd (List.count_pos_iff.2 hc) (by omega)

theorem blanksRe_gap (s b : Str) (hs : ∀ c ∈ s, wsB c = true) (hb : NoWsHead b) (rev : Str) (hn : s.count '\n' = 0)
    (hne : s ≠ []) : ∃ m, blanksRe.matchAt rev (s ++ b) = some m ∧ m.len = s.length := by
  have hbl := count_zero_isBlank hs hn
  have hd : (s ++ b).dropWhile isBlank = b := by
    rw [List.dropWhile_append_of_pos hbl]
    cases b with
    | nil => rfl
    | cons c b =>
      have := hb c rfl
      simp only [wsB, Bool.or_eq_false_iff] at this
      simp [this.1]
  rw [Re.matchAt_eq, blanksRe, run_plus_chr_head?, if_neg, hd]
  · exact ⟨_, rfl, by simp⟩
  · cases s with
    | nil => exact absurd rfl hne
    | cons c s => simp [hbl c (by simp)]

theorem nlRe_word (rev : Str) (x : Char) (rest : Str) (h : wsB x = false) : nlRe.matchAt rev (x :: rest) = none := by
  exact nlRe_gap_none [] (x :: rest) (by simp) (by intro c hc; simp at hc; subst hc; exact h) rev rfl

theorem paraRe_word (rev : Str) (x : Char) (rest : Str) (h : wsB x = false) : paraRe.matchAt rev (x :: rest) = none :=
  paraRe_gap_none [] (x :: rest) (by simp) (by intro c hc; simp at hc; subst hc; exact h) rev (by simp)

theorem blanksRe_word (rev : Str) (x : Char) (rest : Str) (h : wsB x = false) : blanksRe.matchAt rev (x :: rest) = none := by
  rw [Re.matchAt_eq, blanksRe, run_plus_chr_head?]
  simp only [wsB, Bool.or_eq_false_iff] at h
  simp [h.1]

/-- WsPieces where gaps may be empty. -/
def Loose (ps : List (Str × Str)) : Prop :=
  ∀ p ∈ ps, (∀ c ∈ p.1, wsB c = true) ∧ p.2 ≠ [] ∧ ∀ c ∈ p.2, wsB c = false

theorem subAux_word (r : Re) (f : Match → Str) (hw : ∀ rev x rest, wsB x = false → r.matchAt rev (x :: rest) = none) :
    ∀ (w rev b : Str), (∀ c ∈ w, wsB c = false) → r.subAux f 0 rev (w ++ b) = w ++ r.subAux f 0 (w.reverse ++ rev) b
  | [], rev, b, _ => by simp
  | c :: w, rev, b, h => by
    rw [List.cons_append, Re.subAux_none r f c rev _ (hw _ _ _ (h c (by simp))),
      subAux_word r f hw w _ b (fun x hx => h x (by simp [hx]))]
    simp

/-- Substituting in a whole text is substituting in its gaps. -/
theorem sub_pieces (r : Re) (f : Match → Str) (F : Str → Str) (P : Str → Prop)
    (hw : ∀ rev x rest, wsB x = false → r.matchAt rev (x :: rest) = none)
    (hg : ∀ rev g b, (∀ c ∈ g, wsB c = true) → NoWsHead b → P g →
      r.subAux f 0 rev (g ++ b) = F g ++ r.subAux f 0 (g.reverse ++ rev) b) :
    ∀ (ps : List (Str × Str)) (tail : Str), Loose ps → (∀ c ∈ tail, wsB c = true) → (∀ p ∈ ps, P p.1) → P tail →
    ∀ rev, r.subAux f 0 rev (wsText ps tail) = wsText (ps.map fun p => (F p.1, p.2)) (F tail)
  | [], tail, _, ht, _, hp, rev => by
    have := hg rev tail [] ht (by intro c hc; simp at hc) hp
    simpa [wsText, Re.subAux] using this
  | (g, w) :: ps, tail, hl, ht, hps, hp, rev => by
    have h0 := hl (g, w) (by simp)
    obtain ⟨h1, h2, h3⟩ := h0
    have e : wsText ((g, w) :: ps) tail = g ++ (w ++ wsText ps tail) := by simp [wsText]
    have hb : NoWsHead (w ++ wsText ps tail) := by
      intro c hc
      cases w with
      | nil => exact absurd rfl h2
      | cons x w => simp at hc; subst hc; exact h3 x (by simp)
    rw [e, hg rev g _ h1 hb (hps (g, w) (by simp)), subAux_word r f hw w _ _ h3,
      sub_pieces r f F P hw hg ps tail (fun p hp => hl p (by simp [hp])) ht (fun p hp => hps p (by simp [hp])) hp]
    simp [wsText]

/-- No match at any position of a gap. -/
theorem subAux_gap_id (r : Re) (f : Match → Str) (b : Str) : ∀ (g rev : Str),
    (∀ rev a c, g = a ++ c → c ≠ [] → r.matchAt rev (c ++ b) = none) →
    r.subAux f 0 rev (g ++ b) = g ++ r.subAux f 0 (g.reverse ++ rev) b
  | [], rev, _ => by simp
  | x :: g, rev, h => by
    have h0 : r.matchAt rev (x :: (g ++ b)) = none := h rev [] (x :: g) rfl (by simp)
    rw [List.cons_append, Re.subAux_none r f x rev _ h0,
      subAux_gap_id r f b g (x :: rev) (fun rev a c e hc => h rev (x :: a) c (by simp [e]) hc)]
    simp


theorem suffix_ws {g a c : Str} (h : g = a ++ c) (hg : ∀ x ∈ g, wsB x = true) : ∀ x ∈ c, wsB x = true :=
  fun x hx => hg x (by simp [h, hx])

theorem suffix_count {g a c : Str} (h : g = a ++ c) : c.count '\n' ≤ g.count '\n' := by
  subst h; simp

/-- First step of the normalisation, one gap. -/
def gap1 (g : Str) : Str := if 2 ≤ g.count '\n' then paraMarker else g

theorem step1_gap (rev g b : Str) (hg : ∀ c ∈ g, wsB c = true) (hb : NoWsHead b) :
    paraRe.subAux (fun _ => paraMarker) 0 rev (g ++ b) = gap1 g ++ paraRe.subAux (fun _ => paraMarker) 0 (g.reverse ++ rev) b := by
  unfold gap1
  by_cases h : 2 ≤ g.count '\n'
  · obtain ⟨m, h1, h2⟩ := paraRe_gap g b hg hb rev h
    rw [if_pos h]
    exact Re.subAux_match _ _ g rev b m (by rintro rfl; simp at h) h1 h2
  · rw [if_neg h]
    refine subAux_gap_id _ _ b g rev ?_
    intro rev a c e _
    exact paraRe_gap_none c b (suffix_ws e hg) hb rev (by have := suffix_count e; omega)

/-- Second step, one gap with at most one newline. -/
def gap2 (g : Str) : Str := if g.count '\n' = 1 then [' '] else g

theorem step2_gap (rev g b : Str) (hg : ∀ c ∈ g, wsB c = true) (hb : NoWsHead b) (h2 : g.count '\n' < 2) :
    nlRe.subAux (fun _ => [' ']) 0 rev (g ++ b) = gap2 g ++ nlRe.subAux (fun _ => [' ']) 0 (g.reverse ++ rev) b := by
  unfold gap2
  by_cases h : g.count '\n' = 1
  · obtain ⟨m, h1, h2⟩ := nlRe_gap g b hg hb rev h
    rw [if_pos h]
    exact Re.subAux_match _ _ g rev b m (by rintro rfl; simp at h) h1 h2
  · rw [if_neg h]
    refine subAux_gap_id _ _ b g rev ?_
    intro rev a c e _
    exact nlRe_gap_none c b (suffix_ws e hg) hb rev (by have := suffix_count e; omega)

/-- Third step, one gap without newline. -/
def gap3 (g : Str) : Str := if g = [] then [] else [' ']

theorem step3_gap (rev g b : Str) (hg : ∀ c ∈ g, wsB c = true) (hb : NoWsHead b) (h2 : g.count '\n' = 0) :
    blanksRe.subAux (fun _ => [' ']) 0 rev (g ++ b) = gap3 g ++ blanksRe.subAux (fun _ => [' ']) 0 (g.reverse ++ rev) b := by
  unfold gap3
  by_cases h : g = []
  · subst h; simp
  · obtain ⟨m, h1, h2⟩ := blanksRe_gap g b hg hb rev h2 h
    rw [if_neg h]
    exact Re.subAux_match _ _ g rev b m h h1 h2

/-- The pieces after the first step: a paragraph break becomes part of the next word. -/
def pieces1 (ps : List (Str × Str)) : List (Str × Str) :=
  ps.map fun p => if 2 ≤ p.1.count '\n' then ([], paraMarker ++ p.2) else p

theorem paraMarker_ne : paraMarker ≠ [] := by
  intro h; have := congrArg List.length h; revert this; decide

theorem paraMarker_noWs : ∀ c ∈ paraMarker, wsB c = false := by decide

theorem wsText_pieces1 (ps : List (Str × Str)) (tail : Str) :
    wsText (ps.map fun p => (gap1 p.1, p.2)) tail = wsText (pieces1 ps) tail := by
  unfold wsText pieces1
  rw [List.flatMap_map, List.flatMap_map]
  congr 2
  funext p
  unfold gap1
  split <;> simp

/-- What the first three steps make of a gap. -/
def gap123 (g : Str) : Str := if g = [] then [] else if 2 ≤ g.count '\n' then paraMarker else [' ']

theorem gap123_small {g : Str} (h : g.count '\n' < 2) : gap3 (gap2 g) = gap123 g := by
  unfold gap3 gap2 gap123
  by_cases h0 : g = []
  · subst h0; rfl
  · by_cases h1 : g.count '\n' = 1
    · simp [h1, h0]
    · simp only [h1, if_false, h0]
      rw [if_neg (by omega)]

theorem steps23 (ps : List (Str × Str)) (tail : Str) (hl : Loose ps) (ht : ∀ c ∈ tail, wsB c = true)
    (h2 : ∀ p ∈ ps, p.1.count '\n' < 2) (h3 : tail.count '\n' < 2) :
    blanksRe.sub (fun _ => [' ']) (nlRe.sub (fun _ => [' ']) (wsText ps tail)) =
      wsText (ps.map fun p => (gap123 p.1, p.2)) (gap123 tail) := by
  unfold Re.sub
  rw [sub_pieces nlRe _ gap2 (fun g => g.count '\n' < 2) nlRe_word (fun rev g b hg hb hp => step2_gap rev g b hg hb hp)
    ps tail hl ht h2 h3]
  have hws : ∀ g : Str, (∀ c ∈ g, wsB c = true) → ∀ c ∈ gap2 g, wsB c = true := by
    intro g hg
    unfold gap2
    split
    · decide
    · exact hg
  have hc : ∀ g : Str, g.count '\n' < 2 → (gap2 g).count '\n' = 0 := by
    intro g hg
    unfold gap2
    split
    · decide
    · omega
  rw [sub_pieces blanksRe _ gap3 (fun g => g.count '\n' = 0) blanksRe_word (fun rev g b hg hb hp => step3_gap rev g b hg hb hp)
    _ _ ?_ (hws _ ht) ?_ (hc _ h3)]
  · rw [gap123_small h3, List.map_map]
    congr 1
    apply List.map_congr_left
    intro p hp
    simp [gap123_small (h2 p hp)]
  · intro p hp
    obtain ⟨q, hq, rfl⟩ := List.mem_map.1 hp
    exact ⟨hws _ (hl q hq).1, (hl q hq).2⟩
  · intro p hp
    obtain ⟨q, hq, rfl⟩ := List.mem_map.1 hp
    exact hc _ (h2 q hq)

/-- The three regex steps on a text. -/
theorem steps123 (ps : List (Str × Str)) (tail : Str) (hl : Loose ps) (ht : ∀ c ∈ tail, wsB c = true) :
    blanksRe.sub (fun _ => [' ']) (nlRe.sub (fun _ => [' ']) (paraRe.sub (fun _ => paraMarker) (wsText ps tail))) =
      wsText (ps.map fun p => (gap123 p.1, p.2)) (gap123 tail) := by
  have e : paraRe.sub (fun _ => paraMarker) (wsText ps tail) = wsText (ps.map fun p => (gap1 p.1, p.2)) (gap1 tail) := by
    unfold Re.sub
    exact sub_pieces paraRe _ gap1 (fun _ => True) paraRe_word (fun rev g b hg hb _ => step1_gap rev g b hg hb)
      ps tail hl ht (fun _ _ => trivial) trivial []
  rw [e, wsText_pieces1]
  have hl1 : Loose (pieces1 ps) := by
    intro p hp
    obtain ⟨q, hq, rfl⟩ := List.mem_map.1 hp
    obtain ⟨k1, k2, k3⟩ := hl q hq
    split
    · refine ⟨by simp, by intro h; exact paraMarker_ne (List.append_eq_nil_iff.1 h).1, ?_⟩
      intro c hc
      rcases List.mem_append.1 hc with hc | hc
      · exact paraMarker_noWs c hc
      · exact k3 c hc
    · exact ⟨k1, k2, k3⟩
  have hc1 : ∀ p ∈ pieces1 ps, p.1.count '\n' < 2 := by
    intro p hp
    obtain ⟨q, hq, rfl⟩ := List.mem_map.1 hp
    split
    · simp
    · omega
  have hmap : ∀ tl, wsText ((pieces1 ps).map fun p => (gap123 p.1, p.2)) tl = wsText (ps.map fun p => (gap123 p.1, p.2)) tl := by
    intro tl
    unfold wsText pieces1
    rw [List.map_map, List.flatMap_map, List.flatMap_map]
    congr 2
    funext p
    simp only [Function.comp]
    by_cases h : 2 ≤ p.1.count '\n'
    · have h0 : p.1 ≠ [] := by intro h0; rw [h0] at h; simp at h
      simp [h, h0, gap123]
    · simp [h]
  by_cases h : 2 ≤ tail.count '\n'
  · have e1 : wsText (pieces1 ps) (gap1 tail) = wsText (pieces1 ps ++ [([], paraMarker)]) [] := by
      simp [wsText, gap1, h]
    rw [e1, steps23 _ [] ?_ (by simp) ?_ (by simp)]
    · have h0 : tail ≠ [] := by rintro rfl; simp at h
      have := hmap (gap123 tail)
      rw [← this]
      simp [wsText, gap123, h, h0]
    · intro p hp
      rcases List.mem_append.1 hp with hp | hp
      · exact hl1 p hp
      · simp at hp; subst hp
        exact ⟨by simp, paraMarker_ne, paraMarker_noWs⟩
    · intro p hp
      rcases List.mem_append.1 hp with hp | hp
      · exact hc1 p hp
      · simp at hp; subst hp; simp
  · have e1 : gap1 tail = tail := by simp [gap1, h]
    rw [e1, steps23 _ tail hl1 ht hc1 (by omega), hmap]

end L2J
