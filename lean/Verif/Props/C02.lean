import Verif.Lemmas.Args
/-! C02: `extract_nested_content_sequence_blocks`. -/
namespace L2J
open Spec

/-- C02, main statement: with a limit `n` the result is the maximal sequence of at most `n`
consecutive blocks from the start of the text, and the position is the end of the last one
(`0` if there is none). The right-hand side determines the result uniquely. -/
theorem C02_seq_iff (text : Str) (o c : Char) (hc : c ≠ '\\') (n : Nat) (bs : List Str) (q : Nat) :
    seqBlocks text o c (some n) = (bs, q) ↔
      bs.length ≤ n ∧ Blocks text o c 0 bs q ∧ (bs.length < n → NoBlockFrom text o c q) := by
  obtain ⟨q', h1, h2, h3, h4, _⟩ := seqBlocksLoop_spec text o c hc n 0 0 rfl (Nat.zero_le _)
  unfold seqBlocks
  simp only [Option.getD_some, List.drop_zero] at *
  have hq' : (seqBlocksLoop o c n text 0 0).2 = q' := by
    rw [h4]
    by_cases hnil : (seqBlocksLoop o c n text 0 0).1 = []
    · rw [hnil] at h2; rw [if_pos hnil]; cases h2; rfl
    · rw [if_neg hnil]
  constructor
  · intro h
    rw [h] at h1 h2 h3 hq'
    simp only at *
    subst hq'
    exact ⟨h1, h2, h3⟩
  · rintro ⟨g1, g2, g3⟩
    obtain ⟨a, b⟩ := h2.unique (n := n) g2 h1 g1 h3 g3
    rw [← a, ← b, ← hq']

/-- C02: the reported position lies in the text, and every block consumes at least two characters. -/
theorem C02_position (text : Str) (o c : Char) (hc : c ≠ '\\') (n : Nat) :
    (seqBlocks text o c (some n)).2 ≤ text.length ∧
    2 * (seqBlocks text o c (some n)).1.length ≤ (seqBlocks text o c (some n)).2 ∧
    ((seqBlocks text o c (some n)).1 = [] ↔ (seqBlocks text o c (some n)).2 = 0) := by
  obtain ⟨h1, h2, h3⟩ := (C02_seq_iff text o c hc n (seqBlocks text o c (some n)).1 (seqBlocks text o c (some n)).2).1 rfl
  have := h2.le
  refine ⟨h2.le_length (Nat.zero_le _), by omega, ?_, ?_⟩
  · intro h; rw [h] at h2; generalize (seqBlocks text o c (some n)).2 = q at h2; cases h2; rfl
  · intro h; apply List.eq_nil_of_length_eq_zero; omega

/-- C02, no limit (`float("inf")`): the loop stops by itself within `len(text)` iterations, and any
larger number of iterations gives the same result, so the unlimited call terminates; its result
is the full maximal sequence. -/
theorem C02_unlimited (text : Str) (o c : Char) (hc : c ≠ '\\') :
    (∀ n, text.length ≤ n → seqBlocks text o c (some n) = seqBlocks text o c none) ∧
    Blocks text o c 0 (seqBlocks text o c none).1 (seqBlocks text o c none).2 ∧
    NoBlockFrom text o c (seqBlocks text o c none).2 := by
  have e0 : seqBlocks text o c none = seqBlocks text o c (some text.length) := by simp [seqBlocks]
  obtain ⟨h1, h2, h3⟩ := (C02_seq_iff text o c hc text.length (seqBlocks text o c (some text.length)).1
    (seqBlocks text o c (some text.length)).2).1 rfl
  have h4 := h2.le
  have h5 := h2.le_length (Nat.zero_le _)
  have hnb : NoBlockFrom text o c (seqBlocks text o c (some text.length)).2 := by
    by_cases hlt : (seqBlocks text o c (some text.length)).1.length < text.length
    · exact h3 hlt
    · rintro ⟨s, e, g1, g2⟩
      have := liveAt_lt g2.opener
      have := g1.1
      omega
  refine ⟨?_, by rw [e0]; exact h2, by rw [e0]; exact hnb⟩
  intro n hn
  rw [e0]
  have := (C02_seq_iff text o c hc n _ _).2 ⟨by omega, h2, fun _ => hnb⟩
  exact this

/-- Non-vacuity (test, from tests/test_tex_utils.py shape). -/
example : seqBlocks " {a} {b{c}} x {d}".toList '{' '}' none = (["a".toList, "b{c}".toList], 11) := by decide
example : seqBlocks " {a} {b{c}} x {d}".toList '{' '}' (some 1) = (["a".toList], 4) := by decide

end L2J
