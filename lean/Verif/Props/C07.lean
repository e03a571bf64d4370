import Verif.Lemmas.Comments
/-! C07: `strip_latex_comments`. -/
namespace L2J
open Spec

/-- C07, main statement: the output is the newline-join of one output line per input line, each the
input line cut at its first live percent sign and right-trimmed. -/
theorem C07_strip_lines (text : Str) :
    ∃ ls outs, IsLines text ls ∧ outs.length = ls.length ∧
      (∀ (i : Nat) (l o : Str), ls[i]? = some l → outs[i]? = some o → CommentFree l o) ∧
      stripLatexComments text = joinWith ['\n'] outs := by
  refine ⟨splitLines text, (splitLines text).map fun line => rstrip (stripCommentLoop [] line),
    splitLines_isLines text, by simp, ?_, rfl⟩
  intro i l o hl ho
  rw [List.getElem?_map, hl] at ho
  injection ho with ho
  subst ho
  exact commentFree_line l

/-- C07: the specification of one line determines its output. -/
theorem C07_line_unique {line out out' : Str} (h : CommentFree line out) (h' : CommentFree line out') :
    out = out' := commentFree_unique h h'

/-- C07: no unescaped percent sign is left anywhere in the output. -/
theorem C07_no_comment_left (text : Str) (i : Nat) :
    liveAt (stripLatexComments text) '%' i = false := by
  apply joinWith_no_live
  intro l hl j
  simp only [List.mem_map] at hl
  obtain ⟨l', _, rfl⟩ := hl
  exact (commentFree_line l').no_live j

/-- C07: the number of lines is unchanged (newlines in the output = input lines - 1). -/
theorem C07_line_count (text : Str) :
    (stripLatexComments text).count '\n' = (splitLines text).length - 1 := by
  have hnb : ∀ l ∈ (splitLines text).map (fun line => rstrip (stripCommentLoop [] line)),
      ∀ x ∈ l, isLineBreak x = false := by
    intro l hl x hx
    simp only [List.mem_map] at hl
    obtain ⟨l', h1, rfl⟩ := hl
    exact (splitLines_isLines text).no_break l' h1 x ((commentFree_line l').mem hx)
  have : ∀ ls : List Str, (∀ l ∈ ls, ∀ x ∈ l, isLineBreak x = false) →
      (joinWith ['\n'] ls).count '\n' = ls.length - 1 := by
    intro ls
    have h0 : ∀ l : Str, (∀ x ∈ l, isLineBreak x = false) → l.count '\n' = 0 := by
      intro l hl
      rw [List.count_eq_zero]
      intro h; have := hl _ h; revert this; decide
    induction ls with
    | nil => intro _; rfl
    | cons l ls ih =>
      intro h
      cases ls with
      | nil => simpa [joinWith] using h0 l (h l (by simp))
      | cons m ls =>
        have := ih (fun l' h' => h l' (by simp at h' ⊢; right; exact h'))
        simp only [joinWith, List.count_append, h0 l (h l (by simp)), this]
        simp; omega
  unfold stripLatexComments
  rw [this _ hnb]; simp

/-- C07: stripping is stable on output that does not end in a blank line: a second application
changes nothing. -/
theorem C07_idempotent (text : Str) (h : (stripLatexComments text).getLast? ≠ some '\n') :
    stripLatexComments (stripLatexComments text) = stripLatexComments text := by
  have hnb : ∀ l ∈ (splitLines text).map (fun line => rstrip (stripCommentLoop [] line)),
      ∀ x ∈ l, isLineBreak x = false := by
    intro l hl x hx
    simp only [List.mem_map] at hl
    obtain ⟨l', h1, rfl⟩ := hl
    exact (splitLines_isLines text).no_break l' h1 x ((commentFree_line l').mem hx)
  have hfix : ∀ l ∈ (splitLines text).map (fun line => rstrip (stripCommentLoop [] line)),
      rstrip (stripCommentLoop [] l) = l := by
    intro l hl
    simp only [List.mem_map] at hl
    obtain ⟨l', h1, rfl⟩ := hl
    have hc := commentFree_line l'
    have hnl := hc.no_live
    generalize hr : rstrip (stripCommentLoop [] l') = out at *
    apply commentFree_unique (commentFree_line out)
    obtain ⟨k, _, _, _, ws, _, _, h6⟩ := hc
    exact ⟨out.length, Nat.le_refl _, fun j _ => hnl j, fun h => by omega, [], by simp, by simp, h6⟩
  unfold stripLatexComments at *
  generalize (splitLines text).map (fun line => rstrip (stripCommentLoop [] line)) = outs at *
  have key : ∀ outs : List Str, outs.getLast? = some [] → 2 ≤ outs.length →
      (joinWith ['\n'] outs).getLast? = some '\n' := by
    intro outs
    induction outs with
    | nil => simp
    | cons a outs ih =>
      intro h1 h2
      cases outs with
      | nil => simp at h2
      | cons b outs =>
        cases outs with
        | nil => simp at h1; subst h1; simp [joinWith]
        | cons c outs =>
          have := ih (by simpa using h1) (by simp)
          simp only [joinWith] at this ⊢
          simp only [List.getLast?_append] at this ⊢
          simp_all
  by_cases hlast : outs.getLast? = some []
  · by_cases hlen : 2 ≤ outs.length
    · exact absurd (key outs hlast hlen) h
    · match outs, hlast, hlen with
      | [], h1, _ => simp at h1
      | [a], h1, _ => simp at h1; subst h1; simp [joinWith, splitLines, splitLinesAux]
      | _ :: _ :: _, _, h2 => simp at h2
  · rw [(joinWith_isLines outs hnb hlast).splitLines_eq]
    rw [List.map_congr_left hfix]
    simp

/-- C07: without the proviso stability fails: a comment on the last line leaves a trailing newline
that a second application removes. -/
theorem C07_not_idempotent_in_general :
    ¬ ∀ text, stripLatexComments (stripLatexComments text) = stripLatexComments text := by
  intro h; exact absurd (h "a\n% c".toList) (by decide)

/-- Non-vacuity (tests). -/
example : stripLatexComments "a \\% b % c\r\n\\\\% d\n x ".toList = "a \\% b\n\\\\\n x".toList := by decide
example : (stripLatexComments "a % x\nb".toList).getLast? ≠ some '\n' := by decide

end L2J
