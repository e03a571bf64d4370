import Verif.Model.Comments
/-! C74: is there a comment before a place on its line? -/
namespace L2J

/-- `line` is what stands on the line of the place `pos`, before it. -/
def Spec.LineBefore (content : Str) (pos : Nat) (line : Str) : Prop :=
  '\n' ∉ line ∧ ∃ a, content.take pos = a ++ line ∧ ∀ c ∈ a.getLast?, c = '\n'

/-- A comment begins in the line: a percent sign with an even number of backslashes right before it. -/
def Spec.CommentIn (line : Str) : Prop :=
  ∃ a n b, line = a ++ List.replicate (2 * n) '\\' ++ '%' :: b ∧ a.getLast? ≠ some '\\'

theorem line_unique {content : Str} {pos : Nat} {line : Str} (h : Spec.LineBefore content pos line) :
    ((content.take pos).reverse.takeWhile (· != '\n')).reverse = line := by
  obtain ⟨h1, a, h2, h3⟩ := h
  rw [h2, List.reverse_append, List.takeWhile_append_of_pos]
  · have : a.reverse.takeWhile (· != '\n') = [] := by
      cases ha : a.reverse with
      | nil => rfl
      | cons c r =>
        have := h3 c (by rw [List.getLast?_eq_head?_reverse, ha]; rfl)
        rw [List.takeWhile_cons, this]
        rfl
    rw [this]; simp
  · intro c hc
    have : c ≠ '\n' := fun e => h1 (by rw [← e]; simpa using hc)
    simpa using this

theorem hasCommentLoop_iff : ∀ (s : Str) (p : Option Char),
    hasCommentLoop p s = true ↔ ∃ a b, s = a ++ '%' :: b ∧ (if a = [] then p else a.getLast?) ≠ some '\\'
  | [], p => by simp [hasCommentLoop]
  | x :: s, p => by
    rw [hasCommentLoop]
    by_cases h : (x == '%' && p != some '\\') = true
    · rw [if_pos h]
      simp only [Bool.and_eq_true, beq_iff_eq, bne_iff_ne] at h
      simp only [true_iff]
      exact ⟨[], s, by simp [h.1], by simpa using h.2⟩
    · rw [if_neg h, hasCommentLoop_iff s (some x)]
      simp only [Bool.and_eq_true, beq_iff_eq, bne_iff_ne] at h
      constructor
      · rintro ⟨a, b, rfl, h2⟩
        refine ⟨x :: a, b, rfl, ?_⟩
        cases a with
        | nil => simpa using h2
        | cons y a => simpa using h2
      · rintro ⟨a, b, e, h2⟩
        cases a with
        | nil =>
          simp at e h2
          exact absurd ⟨e.1, h2⟩ h
        | cons y a =>
          simp only [List.cons_append, List.cons.injEq] at e
          obtain ⟨rfl, rfl⟩ := e
          refine ⟨a, b, rfl, ?_⟩
          cases a with
          | nil => simpa using h2
          | cons z a => simpa using h2

/-- C74: the answer, for every text and place: there is a percent sign without a backslash right before it. -/
theorem C74_answer (content : Str) (pos : Nat) (line : Str) (h : Spec.LineBefore content pos line) :
    hasCommentOnSameLine content pos = true ↔ ∃ a b, line = a ++ '%' :: b ∧ a.getLast? ≠ some '\\' := by
  unfold hasCommentOnSameLine
  rw [line_unique h, hasCommentLoop_iff]
  constructor
  · rintro ⟨a, b, e, h2⟩
    refine ⟨a, b, e, ?_⟩
    cases a with
    | nil => simp
    | cons x a => simpa using h2
  · rintro ⟨a, b, e, h2⟩
    refine ⟨a, b, e, ?_⟩
    cases a with
    | nil => simp
    | cons x a => simpa using h2

/-- C74: what it answers is whether a comment begins before the place, unless two backslashes stand side by side. -/
theorem C74_comment_partial (content : Str) (pos : Nat) (line : Str) (h : Spec.LineBefore content pos line) (hb : ∀ a b, line ≠ a ++ '\\' :: '\\' :: b) :
    hasCommentOnSameLine content pos = true ↔ Spec.CommentIn line := by
  rw [C74_answer content pos line h]
  constructor
  · rintro ⟨a, b, e, h2⟩
    exact ⟨a, 0, b, by simpa using e, h2⟩
  · rintro ⟨a, n, b, e, h2⟩
    cases n with
    | zero => exact ⟨a, b, by simpa using e, h2⟩
    | succ n =>
      refine absurd e ?_
      rw [show 2 * (n + 1) = (2 * n) + 2 from rfl, List.replicate_succ, List.replicate_succ, List.append_assoc]
      exact hb a _

/-- C74: if it says that there is a comment, there is one. -/
theorem C74_sound (content : Str) (pos : Nat) (line : Str) (h : Spec.LineBefore content pos line) (hc : hasCommentOnSameLine content pos = true) : Spec.CommentIn line := by
  obtain ⟨a, b, e, h2⟩ := (C74_answer content pos line h).1 hc
  exact ⟨a, 0, b, by simpa using e, h2⟩

/-- C74, violated: a comment behind a line break `\\` is not seen, whatever stands around it. -/
theorem C74_violated_break (before a b : Str) (h1 : '\n' ∉ a ++ b) (h2 : '%' ∉ a ++ b) (h3 : a.getLast? ≠ some '\\') (rest : Str) (hb : ∀ c ∈ before.getLast?, c = '\n') :
    Spec.LineBefore (before ++ (a ++ "\\\\%".toList ++ b) ++ rest) (before ++ (a ++ "\\\\%".toList ++ b)).length (a ++ "\\\\%".toList ++ b) ∧
    Spec.CommentIn (a ++ "\\\\%".toList ++ b) ∧
    hasCommentOnSameLine (before ++ (a ++ "\\\\%".toList ++ b) ++ rest) (before ++ (a ++ "\\\\%".toList ++ b)).length = false := by
  have hl : Spec.LineBefore (before ++ (a ++ "\\\\%".toList ++ b) ++ rest) (before ++ (a ++ "\\\\%".toList ++ b)).length (a ++ "\\\\%".toList ++ b) := by
    refine ⟨?_, before, by rw [List.take_left], hb⟩
    simp only [List.mem_append, not_or] at h1 ⊢
    exact ⟨⟨h1.1, by decide⟩, h1.2⟩
  refine ⟨hl, ⟨a, 1, b, by simp, h3⟩, ?_⟩
  rw [← Bool.not_eq_true, C74_answer _ _ _ hl]
  rintro ⟨x, y, e, hx⟩
  rw [List.mem_append, not_or] at h2
  have e' : (a ++ ['\\', '\\']) ++ '%' :: b = x ++ '%' :: y := by rw [← e]; simp
  rcases List.append_eq_append_iff.1 e' with ⟨c, h4, h5⟩ | ⟨c, h4, h5⟩
  · cases c with
    | nil => apply hx; rw [h4]; simp
    | cons z c =>
      injection h5 with _ h5
      exact h2.2 (by rw [h5]; simp)
  · cases c with
    | nil => apply hx; rw [List.append_nil] at h4; rw [← h4]; simp
    | cons z c =>
      injection h5 with h5 _
      have : '%' ∈ a ++ ['\\', '\\'] := by rw [h4, ← h5]; simp
      simp at this
      exact h2.1 this

/-- Lines before, an escaped percent sign, a comment; and one where the percent sign is on the line before. -/
example : hasCommentOnSameLine "a%\nb\\% % c \\begin".toList 10 = true ∧ hasCommentOnSameLine "a%\nb\\% \\begin".toList 7 = false := by
  constructor
  · exact (C74_comment_partial _ _ "b\\% % c".toList ⟨by decide, "a%\n".toList, by decide, by decide⟩ (by
      intro a b e
      have : (List.range 7).all (fun k => !(['\\', '\\'].isPrefixOf ("b\\% % c".toList.drop k))) = true := by decide
      rw [List.all_eq_true] at this
      have hlen := congrArg List.length e
      have := this a.length (by rw [List.mem_range]; simp at hlen; omega)
      rw [e, List.drop_left] at this
      cases this)).2 ⟨"b\\% ".toList, 0, " c".toList, by decide, by decide⟩
  · decide

end L2J
