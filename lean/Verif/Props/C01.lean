import Verif.Lemmas.Args
/-! C01: `extract_nested_content` returns exactly the first balanced block. -/
namespace L2J
open Spec

/-- C01, main statement. `extract_nested_content(text, o, c)` succeeds with `(content, e)` exactly
when, after `s` leading whitespace characters, a block `text[s:e]` (in the sense of the
specification) starts at `s`, and `content` is the text strictly between its delimiters. -/
theorem C01_extract_iff (text : Str) (o c : Char) (content : Str) (e : Nat) :
    extractNestedContent text o c = some (content, e) ↔
      ∃ s, LeadingSpace text s ∧ IsBlock text o c s e ∧ content = slice text (s + 1) (e - 1) :=
  extract_iff text o c content e

/-- C01, failure: `(None, 0)` exactly when no block starts after the leading whitespace. -/
theorem C01_extract_none_iff (text : Str) (o c : Char) :
    extractNestedContent text o c = none ↔
      ¬ ∃ s e, LeadingSpace text s ∧ IsBlock text o c s e :=
  extract_none_iff text o c

/-- C01: the extracted content is itself balanced, the position is inside the text, the character
just before it is the (unescaped) closing delimiter, and the consumed prefix is
whitespace, opener, content, closer. -/
theorem C01_content_balanced (text : Str) (o c : Char) (ho : o ≠ '\\') (content : Str) (e : Nat)
    (h : extractNestedContent text o c = some (content, e)) :
    Balanced content o c ∧ e ≤ text.length ∧ liveAt text c (e - 1) = true ∧
    ∃ ws, (∀ x ∈ ws, isSpace x = true) ∧ text.take e = ws ++ [o] ++ content ++ [c] := by
  obtain ⟨s, hs, hb, rfl⟩ := (extract_iff _ _ _ _ _).1 h
  have hlen := block_len hb
  have hle := hb.le
  refine ⟨block_content_balanced ho hb, hb.le, block_closer hb, text.take s, ?_, ?_⟩
  · intro x hx
    obtain ⟨i, hi, rfl⟩ := List.mem_iff_getElem.1 hx
    have hi1 : i < s := by simp at hi; omega
    obtain ⟨y, hy, hsp⟩ := hs.1 i hi1
    have : (text.take s)[i]? = some y := by rw [List.getElem?_take_of_lt hi1]; exact hy
    rw [List.getElem?_eq_getElem hi] at this
    injection this with this
    rw [this]; exact hsp
  · have ho' := (liveAt_get hb.opener).1
    have hc' := (liveAt_get (block_closer hb)).1
    have e1 : text.take e = text.take (e - 1) ++ [c] := by
      rw [show e = (e - 1) + 1 by omega, List.take_add_one, hc']; rfl
    have e2 : text.take (e - 1) = text.take (s + 1) ++ slice text (s + 1) (e - 1) := by
      unfold slice
      have := List.take_append_drop (s + 1) (text.take (e - 1))
      rw [List.take_take, Nat.min_eq_left (by omega)] at this
      exact this.symm
    have e3 : text.take (s + 1) = text.take s ++ [o] := by
      rw [List.take_add_one, ho']; rfl
    rw [e1, e2, e3]

/-- C01, completeness as a round trip: wrapping any balanced content (not ending in a live
backslash) in delimiters, after any whitespace and before any text, extracts that content. -/
theorem C01_round_trip (ws content rest : Str) (o c : Char)
    (hws : ∀ x ∈ ws, isSpace x = true) (hos : isSpace o = false) (ho : o ≠ '\\') (hoc : o ≠ c)
    (hb : Balanced content o c) (hesc : escapedAt content content.length = false) :
    extractNestedContent (ws ++ o :: (content ++ c :: rest)) o c =
      some (content, ws.length + content.length + 2) := by
  rw [extract_iff]
  have hls : LeadingSpace (ws ++ o :: (content ++ c :: rest)) ws.length := by
    constructor
    · intro j hj
      refine ⟨ws[j], ?_, hws _ (List.getElem_mem hj)⟩
      rw [List.getElem?_append_left hj]; simp
    · intro x hx
      simp at hx
      exact hx ▸ hos
  have hpre : escapedAt ws ws.length = false := by
    rw [← escapedAt_append_left ws (o :: (content ++ c :: rest)) _ (Nat.le_refl _)]
    exact escapedAt_of_leadingSpace hls
  refine ⟨ws.length, hls, wrap_isBlock _ _ _ _ _ ho hoc hpre hb hesc, ?_⟩
  unfold slice
  have h1 : (ws ++ o :: (content ++ c :: rest)) = (ws ++ [o]) ++ (content ++ c :: rest) := by simp
  rw [h1, List.drop_take]
  rw [show ws.length + 1 = (ws ++ [o]).length by simp, List.drop_left]
  rw [show ws.length + content.length + 2 - 1 - (ws ++ [o]).length = content.length by simp; try omega,
    List.take_left]

/-- Non-vacuity (test): a concrete successful extraction with nesting and escapes. -/
example : extractNestedContent "  {a{b}\\}c} d".toList '{' '}' = some ("a{b}\\}c".toList, 11) := by decide
/-- Non-vacuity (test): a failing extraction. -/
example : extractNestedContent "  {a{b}\\}c d".toList '{' '}' = none := by decide
/-- The specification is inhabited by a concrete block. -/
example : ∃ s, LeadingSpace "  {a{b}\\}c} d".toList s ∧ IsBlock "  {a{b}\\}c} d".toList '{' '}' s 11 := by
  obtain ⟨s, h1, h2, _⟩ := (C01_extract_iff "  {a{b}\\}c} d".toList '{' '}' "a{b}\\}c".toList 11).1 (by decide)
  exact ⟨s, h1, h2⟩
/-- Hypotheses of the round trip are met by a concrete content. -/
example : escapedAt "a{b}\\}c".toList 7 = false ∧ checkDelimiterBalance "a{b}\\}c".toList '{' '}' = true := by decide

end L2J
