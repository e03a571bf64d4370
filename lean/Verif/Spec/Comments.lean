import Verif.Spec.Delim
namespace L2J.Spec

/-- `ls` are the lines of a text: each line is free of line breaks and ended by one break
(`\r\n` counting as one), except possibly the last, which is then non-empty. -/
inductive IsLines : Str → List Str → Prop
  | nil : IsLines [] []
  | last (l) : l ≠ [] → (∀ x ∈ l, isLineBreak x = false) → IsLines l [l]
  | crlf (l rest ls) : (∀ x ∈ l, isLineBreak x = false) → IsLines rest ls →
      IsLines (l ++ '\r' :: '\n' :: rest) (l :: ls)
  | brk (l c rest ls) : (∀ x ∈ l, isLineBreak x = false) → isLineBreak c = true →
      ¬ (c = '\r' ∧ rest.head? = some '\n') → IsLines rest ls → IsLines (l ++ c :: rest) (l :: ls)

/-- `out` is `line` cut at its first live percent sign, with trailing whitespace removed. -/
def CommentFree (line out : Str) : Prop :=
  ∃ k, k ≤ line.length ∧ (∀ j, j < k → liveAt line '%' j = false) ∧
    (k < line.length → liveAt line '%' k = true) ∧
    ∃ ws, line.take k = out ++ ws ∧ (∀ x ∈ ws, isSpace x = true) ∧
      (∀ x, out.getLast? = some x → isSpace x = false)

end L2J.Spec
