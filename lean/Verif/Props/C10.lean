import Verif.Lemmas.EnvBlock
/-! C10: `substitute_patterns`. -/
namespace L2J
open Spec

variable {M : Type} {search : Str → Option M} {start : M → Nat} {f : Str → M → Str × Nat}

/-- What the loop needs from a pattern: a match starts inside the searched text, and the empty text
has no match (so the pattern is not one that matches the empty string at the end of the text). -/
structure GoodSearch (search : Str → Option M) (start : M → Nat) : Prop where
  inside : ∀ t m, search t = some m → start m ≤ t.length
  empty : search [] = none

/-- The handler consumes at least one character at every match. -/
def Consumes (search : Str → Option M) (f : Str → M → Str × Nat) : Prop :=
  ∀ t m, search t = some m → 1 ≤ (f t m).2

theorem substLoop_step (pre t : Str) (m : M) (fuel : Nat) (hm : search t = some m) (hi : start m ≤ t.length) :
    substLoop search start f (fuel + 1) (pre ++ t) pre.length =
      substLoop search start f fuel
        ((pre ++ (t.take (start m) ++ (f t m).1)) ++ t.drop (f t m).2)
        (pre ++ (t.take (start m) ++ (f t m).1)).length := by
  conv => lhs; unfold substLoop
  rw [List.drop_left, hm]
  simp only []
  have e1 : (pre ++ t).take (pre.length + start m) = pre ++ t.take (start m) := by
    rw [List.take_append]; simp
    rw [List.take_of_length_le (by omega)]
  have e2 : (pre ++ t).drop (pre.length + (f t m).2) = t.drop (f t m).2 := by
    rw [← List.drop_drop, List.drop_left]
  rw [e1, e2]
  congr 1
  · simp
  · simp; omega

theorem OnePass_unique : ∀ {t o o'}, OnePass search start f t o → OnePass search start f t o' → o = o' := by
  intro t o o' h
  induction h generalizing o' with
  | done t h => intro h'; cases h' with
    | done _ _ => rfl
    | step _ m _ h2 _ => rw [h] at h2; cases h2
  | step t m out h1 _ ih => intro h'; cases h' with
    | done _ h2 => rw [h1] at h2; cases h2
    | step _ m' out' h2 h3 =>
      rw [h1] at h2; injection h2 with h2; subst h2
      rw [ih h3]

/-- C10: the loop, started at the end of an already processed prefix, terminates and produces that
prefix followed by the single left-to-right pass over the rest. -/
theorem C10_terminates (gs : GoodSearch search start) (hc : Consumes search f) :
    ∀ (fuel : Nat) (t pre : Str), t.length < fuel →
    ∃ o, OnePass search start f t o ∧ substLoop search start f fuel (pre ++ t) pre.length = some (pre ++ o) := by
  intro fuel
  induction fuel with
  | zero => intro t pre h; omega
  | succ fuel ih =>
    intro t pre h
    cases hm : search t with
    | none =>
      refine ⟨t, .done t hm, ?_⟩
      unfold substLoop
      rw [List.drop_left, hm]
    | some m =>
      have hi := gs.inside t m hm
      have h1 := hc t m hm
      have ht : t ≠ [] := by rintro rfl; rw [gs.empty] at hm; cases hm
      have hl : 0 < t.length := List.length_pos_iff.2 ht
      obtain ⟨o, ho, he⟩ := ih (t.drop (f t m).2) (pre ++ (t.take (start m) ++ (f t m).1)) (by simp; omega)
      refine ⟨t.take (start m) ++ (f t m).1 ++ o, .step t m o hm ho, ?_⟩
      rw [substLoop_step pre t m fuel hm hi, he]
      simp

/-- C10: `substitute_patterns` with one pattern returns exactly the result of the single
left-to-right pass (`Spec.OnePass`): unmatched text verbatim, each match replaced once by the handler's
output, the pass resuming on what the handler did not consume. -/
theorem C10_one_pass (gs : GoodSearch search start) (hc : Consumes search f) (text out : Str) :
    substLoop search start f (text.length + 1) text 0 = some out ↔ OnePass search start f text out := by
  obtain ⟨o, ho, he⟩ := C10_terminates gs hc (text.length + 1) text [] (by omega)
  simp only [List.nil_append, List.length_nil] at he
  rw [he]
  constructor
  · intro h; injection h with h; subst h; exact ho
  · intro h; rw [OnePass_unique ho h]

/-- More fuel changes nothing: the loop has genuinely finished. -/
theorem C10_fuel_irrelevant (gs : GoodSearch search start) (hc : Consumes search f) (text : Str) (fuel : Nat)
    (h : text.length < fuel) :
    substLoop search start f fuel text 0 = substLoop search start f (text.length + 1) text 0 := by
  obtain ⟨o, ho, he⟩ := C10_terminates gs hc fuel text [] h
  obtain ⟨o', ho', he'⟩ := C10_terminates gs hc (text.length + 1) text [] (by omega)
  simp only [List.nil_append, List.length_nil] at he he'
  rw [he, he', OnePass_unique ho ho']

/-- C10: several patterns are applied in order, each as one pass over the previous result. -/
inductive Spec.Passes (start : M → Nat) : List ((Str → Option M) × (Str → M → Str × Nat)) → Str → Str → Prop
  | nil (t) : Passes start [] t t
  | cons (search f ps t u v) : OnePass search start f t u → Passes start ps u v →
      Passes start ((search, f) :: ps) t v

theorem C10_patterns (ps : List ((Str → Option M) × (Str → M → Str × Nat)))
    (h : ∀ p ∈ ps, GoodSearch p.1 start ∧ Consumes p.1 p.2) : ∀ (text out : Str),
    substPatterns start (fun t => t.length + 1) ps text = some out ↔ Spec.Passes start ps text out := by
  induction ps with
  | nil =>
    intro text out
    simp only [substPatterns]
    constructor
    · intro h; injection h with h; subst h; exact .nil _
    · intro h; cases h; rfl
  | cons p ps ih =>
    intro text out
    obtain ⟨search, f⟩ := p
    have hg := h (search, f) (by simp)
    have ih := ih (fun p hp => h p (by simp [hp]))
    obtain ⟨o, ho, he⟩ := C10_terminates hg.1 hg.2 (text.length + 1) text [] (by omega)
    simp only [List.nil_append, List.length_nil] at he
    simp only [substPatterns, he]
    rw [ih]
    constructor
    · intro h2; exact .cons _ _ _ _ _ _ ho h2
    · intro h2
      cases h2 with
      | cons _ _ _ _ u _ h3 h4 =>
        have := OnePass_unique ho h3
        subst this
        exact h4

/-- C10: the proviso is needed. If the handler consumes nothing at the first match, the loop never
finishes, whatever the number of iterations. -/
theorem C10_diverges_without_progress (t : Str) (m : M) (hm : search t = some m) (hi : start m ≤ t.length)
    (h0 : (f t m).2 = 0) : ∀ (fuel : Nat) (pre : Str),
    substLoop search start f fuel (pre ++ t) pre.length = none
  | 0, _ => rfl
  | fuel + 1, pre => by
    rw [substLoop_step pre t m fuel hm hi, h0, List.drop_zero]
    exact C10_diverges_without_progress t m hm hi h0 fuel _

/-- The searches of the regex model satisfy the requirement when the pattern never matches the empty
string. -/
theorem goodSearch_re (r : Re) (hr : NonEmptyRe r) : GoodSearch r.search Match.start where
  inside := by
    intro t m h
    rcases r.searchFrom_spec t [] with ⟨h1, _⟩ | ⟨k, m', h1, h2, h3, _⟩
    · unfold Re.search at h; rw [h1] at h; cases h
    · unfold Re.search at h; rw [h2] at h; injection h with h; subst h
      have := (r.matchAt_zip _ _ _ h3).1
      simp [Match.start, this]; omega
  empty := by
    unfold Re.search Re.searchFrom
    cases h : r.matchAt [] [] with
    | none => rfl
    | some m => have := hr _ _ _ h; simp at this; omega

/-- Concrete case: every `\begin{i}` is replaced by `X`, consuming the match and nothing else. -/
def exHandler (_ : Str) (m : Match) : Str × Nat := (['X'], m.stop)

example : Consumes (beginRe ['i']).search exHandler := by
  intro t m h
  rcases (beginRe ['i']).searchFrom_spec t [] with ⟨h1, _⟩ | ⟨k, m', h1, h2, h3, _⟩
  · unfold Re.search at h; rw [h1] at h; cases h
  · unfold Re.search at h; rw [h2] at h; injection h with h; subst h
    have := beginRe_nonEmpty ['i'] _ _ _ h3
    simp [exHandler, Match.stop]; omega
example : substLoop (beginRe ['i']).search Match.start exHandler 40 "a\\begin{i}b\\begin{i}\\begin{i}".toList 0 =
    some "aXbXX".toList := by decide

end L2J
