import Verif.Model.Conditional
import Verif.Spec.Conditional
import Verif.Lemmas.May
import Verif.Props.C23
import Verif.Props.C62
/-! C63: what a conditional command takes, and its branches. -/
namespace L2J.Cond
open Spec Defn Cmds Fmt

/-! Where no part of a conditional begins. -/

theorem quiet_prefix {a v R w' : Str} (h : ¬ Contains a ('\\' :: w')) (hw : '\\' ∉ w') (hv : ∃ u, a = u ++ v) (h0 : v ≠ []) (hR : ∀ c ∈ R.head?, c = '\\') : ¬ ('\\' :: w') <+: v ++ R := by
  intro hp
  obtain ⟨u, rfl⟩ := hv
  rcases List.prefix_or_prefix_of_prefix hp (List.prefix_append v R) with h1 | h1
  · obtain ⟨t, rfl⟩ := h1
    exact h ⟨u, t, by simp⟩
  · cases v with
    | nil => exact h0 rfl
    | cons x v =>
      obtain ⟨t, ht⟩ := h1
      simp at ht
      cases t with
      | nil => exact h ⟨u, [], by simp [ht.1, ← ht.2]⟩
      | cons y t =>
        obtain ⟨z, hz⟩ := hp
        rw [ht.1] at hz
        rw [← ht.2] at hz
        simp at hz
        have : y = '\\' := hR y (by rw [← hz]; simp)
        apply hw; rw [← ht.2]; simp [this]

/-- None of the words begins the text. -/
def NoneOf (l : List Str) (s : Str) : Prop := ∀ w ∈ l, ¬ w <+: s

def ifWords : List Str := ["\\if".toList, "\\@if".toList, "\\If".toList]

theorem not_longer {w w' s : Str} (h : ¬ w <+: s) : ¬ (w ++ w') <+: s := fun hp => h ((List.prefix_append w w').trans hp)

theorem altRe_dead {s : Str} : ∀ {l : List Re}, (∀ r ∈ l, Dead r s) → Dead (altRe l) s
  | [], _ => fun _ _ => rfl
  | r :: l, h => Dead.alt (h r (by simp)) (altRe_dead fun q hq => h q (by simp [hq]))

theorem ifRe_dead2 {s : Str} (h1 : ¬ "\\if".toList <+: s) (h2 : ¬ "\\@if".toList <+: s) : Dead ifRe s := by
  cases s with
  | nil => exact Dead.seq (Dead.char (by simp))
  | cons c t =>
    by_cases hc : c = '\\'
    · subst hc
      have d : ∀ {t : Str}, ¬ "\\if".toList <+: '\\' :: t → Dead (.seq (.lit "if".toList) (defaultIfRe 1)) t := by
        intro t ht
        refine Dead.seq (Dead.lit ?_)
        rintro ⟨u, rfl⟩
        exact ht ⟨u, rfl⟩
      refine Dead.after_lit (t := ['\\']) ?_
      intro rev g
      show ((Re.opt (.lit ['@'])).run ⟨rev, t, g⟩).flatMap _ = []
      rw [show (Re.opt (.lit ['@'])).run ⟨rev, t, g⟩ = (Re.lit ['@']).run ⟨rev, t, g⟩ ++ [⟨rev, t, g⟩] from rfl, List.flatMap_append, List.append_eq_nil_iff]
      constructor
      · cases t with
        | nil => rfl
        | cons x t =>
          by_cases hx : x = '@'
          · subst hx
            exact Dead.after_lit (t := ['@']) (Dead.seq (Dead.lit (by rintro ⟨u, rfl⟩; exact h2 ⟨u, rfl⟩))) rev g
          · rw [Dead.char (s := x :: t) (c := '@') (by simpa using hx)]; rfl
      · simpa using d h1 rev g
    · exact Dead.seq (Dead.char (by simpa using hc))

theorem ifRe_dead {s : Str} (h : NoneOf ifWords s) : Dead ifRe s :=
  ifRe_dead2 (h _ (show "\\if".toList ∈ ifWords by decide)) (h _ (show "\\@if".toList ∈ ifWords by decide))

theorem seq_lit_dead {w w' s : Str} {b : Re} (h : ¬ w <+: s) (hw : w <+: w') : Dead (.seq (.lit w') b) s :=
  Dead.seq (Dead.lit fun hp => h (hw.trans hp))

theorem newif_dead {n s : Str} (h : ¬ "\\if".toList <+: s) : Dead (newifRe n) s := seq_lit_dead h (List.prefix_append _ _)

theorem allIfs_dead {ns : List Str} {s : Str} (h : NoneOf ifWords s) : ∀ x ∈ allIfs ns, Dead x.2.1 s ∧ Dead x.2.2 s := by
  have h1 := h _ (show "\\if".toList ∈ ifWords by decide)
  have h2 := h _ (show "\\@if".toList ∈ ifWords by decide)
  have h3 := h _ (show "\\If".toList ∈ ifWords by decide)
  intro x hx
  rcases List.mem_append.1 hx with hx | hx
  · obtain ⟨n, _, rfl⟩ := List.mem_map.1 hx
    exact ⟨newif_dead h1, newif_dead h1⟩
  · simp only [defaults, List.mem_cons, List.not_mem_nil, or_false] at hx
    rcases hx with rfl | rfl | rfl | rfl | rfl | rfl | rfl | rfl | rfl | rfl | rfl | rfl | rfl
    · exact ⟨seq_lit_dead h1 (by decide), seq_lit_dead h1 (by decide)⟩
    · exact ⟨seq_lit_dead h1 (by decide), seq_lit_dead h1 (by decide)⟩
    · exact ⟨seq_lit_dead h1 (by decide), seq_lit_dead h1 (by decide)⟩
    · exact ⟨seq_lit_dead h1 (by decide), seq_lit_dead h1 (by decide)⟩
    · exact ⟨seq_lit_dead h1 (by decide), seq_lit_dead h1 (by decide)⟩
    · exact ⟨seq_lit_dead h1 (by decide), seq_lit_dead h1 (by decide)⟩
    · exact ⟨seq_lit_dead h1 (by decide), seq_lit_dead h1 (by decide)⟩
    · exact ⟨seq_lit_dead h3 (by decide), seq_lit_dead h3 (by decide)⟩
    · exact ⟨seq_lit_dead h2 (by decide), seq_lit_dead h2 (by decide)⟩
    · exact ⟨seq_lit_dead h2 (by decide), seq_lit_dead h2 (by decide)⟩
    · exact ⟨seq_lit_dead h2 (by decide), seq_lit_dead h2 (by decide)⟩
    · exact ⟨seq_lit_dead h2 (by decide), seq_lit_dead h2 (by decide)⟩
    · exact ⟨ifRe_dead h, ifRe_dead h⟩

theorem compiled_dead {ns : List Str} {s : Str} (h : NoneOf ifWords s) : Dead (compiled ns) s := by
  refine altRe_dead fun r hr => ?_
  obtain ⟨x, hx, rfl⟩ := List.mem_map.1 hr
  exact (allIfs_dead h x hx).2

theorem fi_dead {s : Str} (h : ¬ "\\fi".toList <+: s) : Dead fiRe s := Dead.seq (Dead.lit h)
theorem else_dead {s : Str} (h : ¬ "\\els".toList <+: s) : Dead elseRe s := seq_lit_dead h (by decide)
theorem elsif_dead {s : Str} (h1 : ¬ "\\els".toList <+: s) (h2 : ¬ "\\or".toList <+: s) : Dead elsifRe s := Dead.alt (Dead.seq (Dead.lit h1)) (Dead.seq (Dead.lit h2))

/-- `\else` is not an `\elsif`. -/
theorem elsif_else {X : Str} (h : ∀ c ∈ X.head?, isWord c = false) : Dead elsifRe ("\\else".toList ++ X) := by
  refine Dead.alt ?_ (Dead.seq (Dead.lit (by rintro ⟨t, ht⟩; simp at ht)))
  rw [show "\\else".toList ++ X = "\\els".toList ++ ('e' :: X) by simp]
  refine Dead.after_lit ?_
  intro rev g
  show ((Re.opt (.lit ['e'])).run ⟨rev, 'e' :: X, g⟩).flatMap _ = []
  rw [show (Re.opt (.lit ['e'])).run ⟨rev, 'e' :: X, g⟩ = (Re.lit ['e']).run ⟨rev, 'e' :: X, g⟩ ++ [⟨rev, 'e' :: X, g⟩] from rfl, List.flatMap_append, List.append_eq_nil_iff]
  constructor
  · refine Dead.after_lit (t := ['e']) (Dead.seq (Dead.lit ?_)) rev g
    rintro ⟨t, rfl⟩
    have := h 'i' (by simp)
    revert this; decide
  · have : Dead (.seq (.lit "if".toList) (defaultIfRe 1)) ('e' :: X) := Dead.seq (Dead.lit (by rintro ⟨t, ht⟩; simp at ht))
    simpa using this rev g

/-! Searching. -/

theorem hit_skip {r : Re} {a R : Str} (h : ∀ u v, a = u ++ v → v ≠ [] → Dead r (v ++ R)) : r.search (a ++ R) = r.searchFrom a.reverse R := by
  have := searchFrom_skip r a [] R (fun u v e hv => (h u v e hv).matchAt _)
  simpa [Re.search] using this

theorem hit_here {r : Re} {a x rest : Str} {g} (h : ∀ u v, a = u ++ v → v ≠ [] → Dead r (v ++ (x ++ rest))) (hx : Eats r x rest [] g) :
    r.hit (a ++ (x ++ rest)) = some ⟨a.length, a.length + x.length, (g.find? (·.1 == 1)).map (·.2)⟩ := by
  unfold Re.hit
  rw [hit_skip h]
  have : r.searchFrom a.reverse (x ++ rest) = some ⟨a.reverse, x ++ rest, x.length, g⟩ := by
    have := hx.matchAt a.reverse
    generalize x ++ rest = s at *
    cases s with
    | nil => simpa [Re.searchFrom] using this
    | cons c s => simp [Re.searchFrom, this]
  rw [this]
  simp [Match.start, Match.stop, Match.group]

theorem hit_later {r : Re} {a R : Str} {h' : Hit} (h : ∀ u v, a = u ++ v → v ≠ [] → Dead r (v ++ R)) (hd : Dead r R) (hh : r.hit (a ++ R) = some h') : a.length < h'.start := by
  unfold Re.hit at hh
  rw [hit_skip h] at hh
  cases R with
  | nil =>
    have := hd.matchAt a.reverse
    rw [show r.searchFrom a.reverse [] = r.matchAt a.reverse [] from rfl, this] at hh
    cases hh
  | cons c R =>
    have := hd.matchAt a.reverse
    simp only [Re.searchFrom, this] at hh
    rw [Option.map_eq_some_iff] at hh
    obtain ⟨m, hm, rfl⟩ := hh
    rcases Re.searchFrom_spec r R (c :: a.reverse) with ⟨h1, _⟩ | ⟨k, m', h1, h2, h3, _⟩
    · rw [h1] at hm; cases hm
    · rw [h2] at hm
      injection hm with hm
      subst hm
      have := (r.matchAt_zip _ _ _ h3).1
      simp only [Match.start, this]
      simp; omega

end L2J.Cond
