import Verif.Lemmas.Args
/-! C04: math delimiters (`$`, `$$`) end at the first live, top-level occurrence. -/
namespace L2J
open Spec

/-- C04 for `find_delimiter_end(content, start, d)`: the result is the end of the first live
occurrence of `d` at brace depth 0 at or after `start`; `-1` (`none`) exactly when there is none. -/
theorem C04_find_end_iff (content d : Str) (start : Nat) (hst : start ≤ content.length) (hd : d ≠ [])
    (hd1 : d.head? ≠ some '{') (hd2 : d.head? ≠ some '}') (e : Nat) :
    findDelimiterEnd content start d = some e ↔
      ∃ i, TopDelimAt content d start i ∧ e = i + d.length ∧
        ∀ j, j < i → ¬ TopDelimAt content d start j := by
  have hlen : (content.take start).reverse.length = start := by simp; omega
  have := findDelimEndLoop_iff d hd hd1 hd2 start (content.drop start) (content.take start).reverse 0 e
    (by omega) (by rw [hlen]; simp [braceDepth])
  unfold findDelimiterEnd
  rw [this]
  simp only [List.reverse_reverse, List.take_append_drop, hlen]
  constructor
  · rintro ⟨i, h1, h2, h3, h4⟩
    refine ⟨i, h2, h3, fun j hj hT => h4 j hT.1 hj hT⟩
  · rintro ⟨i, h2, h3, h4⟩
    exact ⟨i, h2.1, h2, h3, fun j _ hj => h4 j hj⟩

/-- C04 for `extract_equation_content`. -/
theorem C04_equation_iff (content d : Str) (hd : d ≠ []) (hd1 : d.head? ≠ some '{')
    (hd2 : d.head? ≠ some '}') (eqn : Str) (e : Nat) :
    extractEquationContent content d = some (eqn, e) ↔
      d <+: content ∧ ∃ i, TopDelimAt content d d.length i ∧
        (∀ j, j < i → ¬ TopDelimAt content d d.length j) ∧
        e = i + d.length ∧ eqn = strip (slice content d.length i) := by
  unfold extractEquationContent startsWith
  by_cases hp : d <+: content
  · have hst : d.length ≤ content.length := hp.length_le
    have hp' : d.isPrefixOf content = true := by simpa using hp
    simp only [hp', Bool.not_true, Bool.false_eq_true, if_false, hp, true_and]
    cases hf : findDelimiterEnd content d.length d with
    | none =>
      simp only [reduceCtorEq, false_iff]
      rintro ⟨i, h1, h2, h3, _⟩
      have := (C04_find_end_iff content d d.length hst hd hd1 hd2 e).2 ⟨i, h1, h3, h2⟩
      rw [hf] at this; cases this
    | some e' =>
      obtain ⟨i, h1, h2, h3⟩ := (C04_find_end_iff content d d.length hst hd hd1 hd2 e').1 hf
      subst h2
      simp only [Option.some.injEq, Prod.mk.injEq, Nat.add_sub_cancel]
      constructor
      · rintro ⟨rfl, rfl⟩
        exact ⟨i, h1, h3, rfl, rfl⟩
      · rintro ⟨i', g1, g2, rfl, rfl⟩
        have : i' = i := by
          rcases Nat.lt_trichotomy i' i with h | h | h
          · exact absurd g1 (h3 i' h)
          · exact h
          · exact absurd h1 (g2 i h)
        subst this
        exact ⟨rfl, rfl⟩
  · have hp' : d.isPrefixOf content = false := by
      rw [Bool.eq_false_iff]; simpa using hp
    simp [hp', hp]

/-- C04, failure case: `("", 0)` exactly when the text does not start with `d` or no closing
occurrence exists. -/
theorem C04_equation_none_iff (content d : Str) (hd : d ≠ []) (hd1 : d.head? ≠ some '{')
    (hd2 : d.head? ≠ some '}') :
    extractEquationContent content d = none ↔
      ¬ (d <+: content ∧ ∃ i, TopDelimAt content d d.length i) := by
  constructor
  · rintro h ⟨hp, hi⟩
    have hmin : ∃ i, TopDelimAt content d d.length i ∧ ∀ j, j < i → ¬ TopDelimAt content d d.length j := by
      obtain ⟨i, hi⟩ := hi
      induction i using Nat.strongRecOn with
      | _ i ih =>
        by_cases hex : ∃ j, j < i ∧ TopDelimAt content d d.length j
        · obtain ⟨j, hj, hT⟩ := hex
          exact ih j hj hT
        · exact ⟨i, hi, fun j hj hT => hex ⟨j, hj, hT⟩⟩
    obtain ⟨i, h1, h2⟩ := hmin
    have := (C04_equation_iff content d hd hd1 hd2 _ _).2 ⟨hp, i, h1, h2, rfl, rfl⟩
    rw [h] at this; cases this
  · intro h
    cases he : extractEquationContent content d with
    | none => rfl
    | some p =>
      obtain ⟨hp, i, h1, _⟩ := (C04_equation_iff content d hd hd1 hd2 p.1 p.2).1 he
      exact absurd ⟨hp, i, h1⟩ h

/-- Non-vacuity (tests). -/
example : extractEquationContent "$a \\$ {b $ c} d$ e".toList "$".toList
    = some ("a \\$ {b $ c} d".toList, 16) := by decide
example : extractEquationContent "$$ x $$".toList "$$".toList = some ("x".toList, 7) := by decide
example : extractEquationContent "$ {x $".toList "$".toList = none := by decide

end L2J
