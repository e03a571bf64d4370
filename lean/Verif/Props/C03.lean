import Verif.Lemmas.Args
/-! C03: `check_delimiter_balance` is sound and complete. -/
namespace L2J
open Spec

/-- C03: `True` exactly when no prefix has negative depth and the whole text has depth 0. -/
theorem C03_balance_iff (text : Str) (o c : Char) :
    checkDelimiterBalance text o c = true ↔ Balanced text o c := by
  have := checkBalanceLoop_iff o c text [] 0 (by simp [level])
  simp only [List.reverse_nil, List.nil_append, List.length_nil, Nat.zero_le, true_imp_iff] at this
  exact this

/-- C03 and C01 agree: whatever `extract_nested_content` returns passes the balance check. -/
theorem C03_extract_balanced (text : Str) (o c : Char) (ho : o ≠ '\\') (content : Str) (e : Nat)
    (h : extractNestedContent text o c = some (content, e)) :
    checkDelimiterBalance content o c = true := by
  obtain ⟨s, _, hb, rfl⟩ := (extract_iff _ _ _ _ _).1 h
  exact (C03_balance_iff _ _ _).2 (block_content_balanced ho hb)

/-- Non-vacuity (tests). -/
example : checkDelimiterBalance "a{b\\}{c}}d".toList '{' '}' = true := by decide
example : checkDelimiterBalance "a}{b".toList '{' '}' = false := by decide

end L2J
