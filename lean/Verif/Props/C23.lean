import Verif.Lemmas.IfElse
import Verif.Lemmas.Nested
/-! C23: conditional branches are split at the matching `\else` and `\fi`. `D` are the delimiter patterns, arbitrary
except that they never match the empty string; `TopDelims D t 0 1 evs` says that `evs` are the delimiters
belonging to the outermost conditional of the body `t`, the last one being the matching `\fi`. -/
namespace L2J
open Spec

/-- C23, no `\else`: everything up to the matching `\fi` is the if-branch. -/
theorem C23_if_fi (D : CondDelims) (hD : CondDelims.WF D) (t : Str) (fi : CondEv) (h : TopDelims D t 0 1 [fi]) :
    extractElseElseifFi D t = .ok (strip (slice t 0 fi.a)) [] [] fi.b := by
  obtain ⟨_, _, fuel', chunks, _, h2, h3⟩ := step_top D hD t h (t.length + 1) {} (by omega)
  unfold extractElseElseifFi
  rcases h3 with ⟨_, _, h3⟩ | ⟨_, h3, _⟩ | ⟨_, h3, _⟩
  · rw [h3]
    show CondSt.finish (CondSt.pushAll ⟨[], [], .inIf, []⟩ chunks) _ = _
    rw [pushAll_inIf]
    simp [CondSt.finish, h2]
    decide
  · cases run_to_top D hD t h3 (t.length + 1) {} (by omega) with
    | intro e h => obtain ⟨_, _, _, _, h, _⟩ := h; cases h
  · cases run_to_top D hD t h3 (t.length + 1) {} (by omega) with
    | intro e h => obtain ⟨_, _, _, _, h, _⟩ := h; cases h

/-- Every walk ends with a `\fi`, and only there. -/
theorem topDelims_shape (D : CondDelims) (t : Str) {p d : Nat} {evs : List CondEv} (h : TopDelims D t p d evs) :
    ∃ es fi, evs = es ++ [fi] ∧ fi.kind = .fi ∧ ∀ e ∈ es, e.kind = .els ∨ e.kind = .elsif := by
  induction h with
  | fi p e h1 h2 => exact ⟨[], e, rfl, h2, by simp⟩
  | sep p e es h1 h2 h3 ih =>
    obtain ⟨es', fi, rfl, g2, g3⟩ := ih
    refine ⟨e :: es', fi, rfl, g2, ?_⟩
    intro x hx
    simp only [List.mem_cons] at hx
    rcases hx with rfl | hx
    · exact h2
    · exact g3 x hx
  | opens p d e es _ _ _ _ ih => exact ih
  | closes p d e es _ _ _ _ ih => exact ih

theorem strip_nil : strip [] = [] := by decide

/-- From the `\else` on: the rest up to the matching `\fi` is the else-branch. -/
theorem else_tail (D : CondDelims) (hD : CondDelims.WF D) (t : Str) (p : Nat) (fi : CondEv)
    (h : TopDelims D t p 1 [fi]) (fuel : Nat) (hf : t.length < p + fuel) (a : List Str) (br) :
    condLoop D t fuel p 1 ⟨a, [], .inElse, br⟩ =
      .ok (strip a.flatten) (strip (slice t p fi.a)) br fi.b := by
  obtain ⟨_, _, fuel', chunks, _, h2, h3⟩ := step_top D hD t h fuel ⟨a, [], .inElse, br⟩ hf
  rcases h3 with ⟨_, _, h3⟩ | ⟨_, h3, _⟩ | ⟨_, h3, _⟩
  · rw [h3, pushAll_inElse]
    simp [CondSt.finish, h2]
  · obtain ⟨es, fi', h, _⟩ := topDelims_shape D t h3
    cases es <;> simp at h
  · obtain ⟨es, fi', h, _⟩ := topDelims_shape D t h3
    cases es <;> simp at h

/-- C23, `\if A \else B \fi`: the two branches are the texts before and after the `\else` of this conditional, the
position is just past the matching `\fi`. -/
theorem C23_if_else_fi (D : CondDelims) (hD : CondDelims.WF D) (t : Str) (els fi : CondEv)
    (h : TopDelims D t 0 1 [els, fi]) (hk : els.kind = .els) :
    extractElseElseifFi D t = .ok (strip (slice t 0 els.a)) (strip (slice t els.b fi.a)) [] fi.b := by
  obtain ⟨_, _, fuel', chunks, h1, h2, h3⟩ := step_top D hD t h (t.length + 1) {} (by omega)
  unfold extractElseElseifFi
  rcases h3 with ⟨h3, _⟩ | ⟨_, h4, h3⟩ | ⟨h3, _⟩
  · rw [hk] at h3; cases h3
  · rw [h3]
    show condLoop D t fuel' els.b 1 (CondSt.onElse (CondSt.pushAll ⟨[], [], .inIf, []⟩ chunks)) = _
    rw [pushAll_inIf]
    simp only [CondSt.onElse, setLast, List.getLast?_nil, Option.getD_none, List.nil_append]
    rw [else_tail D hD t els.b fi h4 fuel' (by omega), h2]
  · rw [hk] at h3; cases h3

theorem setLast_snoc (bs : List (Option Str × Str)) (g : Option Str) (c c' : Str) :
    setLast (bs ++ [(g, c)]) c' = some (bs ++ [(g, c')]) := by
  simp [setLast]

/-- Reading `\elsif` branches after the first one up to the `\else`. -/
theorem elsif_run (D : CondDelims) (hD : CondDelims.WF D) (t : Str) (els fi : CondEv) (hk : els.kind = .els)
    (ifc : Str) : ∀ (es : List CondEv), (∀ e ∈ es, e.kind = .elsif) → ∀ p fuel bs g,
    TopDelims D t p 1 (es ++ [els, fi]) → t.length < p + fuel →
    (∀ b ∈ between t p es, b ≠ ifc) →
    condLoop D t fuel p 1 ⟨[ifc], [], .other [], bs ++ [(g, [])]⟩ =
      .ok (strip ifc) (strip (slice t els.b fi.a))
        (bs ++ (g :: es.map (·.group)).zip ((between t p (es ++ [els])).map strip)) fi.b := by
  intro es
  induction es with
  | nil =>
    intro _ p fuel bs g h hf _
    obtain ⟨_, _, fuel', chunks, h1, h2, h3⟩ := step_top D hD t h fuel _ hf
    rcases h3 with ⟨h3, _⟩ | ⟨_, h4, h3⟩ | ⟨h3, _⟩
    · rw [hk] at h3; cases h3
    · rw [h3, pushAll_other]
      simp only [CondSt.onElse, CondSt.buf, setLast_snoc, Option.getD_some, List.nil_append, h2]
      rw [else_tail D hD t els.b fi h4 fuel' (by omega)]
      simp [between]
    · rw [hk] at h3; cases h3
  | cons e es ih =>
    intro hes p fuel bs g h hf hne
    obtain ⟨_, _, fuel', chunks, h1, h2, h3⟩ := step_top D hD t h fuel _ hf
    have hek := hes e (by simp)
    rcases h3 with ⟨h3, _⟩ | ⟨h3, _⟩ | ⟨_, h4, h3⟩
    · rw [hek] at h3; cases h3
    · rw [hek] at h3; cases h3
    · rw [h3, pushAll_other]
      have hcl : ¬ (([] : List Str) ++ chunks = [ifc]) := by
        intro hc
        simp only [List.nil_append] at hc
        rw [hc] at h2
        simp only [List.flatten_cons, List.flatten_nil, List.append_nil] at h2
        exact hne _ (by simp [between]) h2.symm
      simp only [CondSt.onElsif, CondSt.buf, hcl, if_false, setLast_snoc]
      rw [ih (fun x hx => hes x (by simp [hx])) e.b fuel' (bs ++ [(g, _)]) e.group h4 (by omega)
        (fun b hb => hne b (by simp [between, hb]))]
      simp [between, h2]

theorem strip_strip (s : Str) : strip (strip s) = strip s := by
  have h1 : ∀ (p : Char → Bool) (l : List Char), (l.dropWhile p).dropWhile p = l.dropWhile p := by
    intro p l
    induction l with
    | nil => rfl
    | cons x l ih =>
      by_cases h : p x
      · simp [h, ih]
      · simp [h]
  have h2 : ∀ (p : Char → Bool) (l : List Char), l.dropWhile p = l →
      ((l.reverse.dropWhile p).reverse).dropWhile p = (l.reverse.dropWhile p).reverse := by
    intro p l hl
    cases l with
    | nil => rfl
    | cons x l =>
      have hx : p x = false := by
        cases h : p x with
        | false => rfl
        | true =>
          simp only [List.dropWhile_cons, h, if_true] at hl
          have := congrArg List.length hl
          have h3 := (List.dropWhile_sublist p (l := l)).length_le
          simp at this; omega
      rw [List.reverse_cons, List.dropWhile_append]
      split
      · simp [hx]
      · rw [List.reverse_append]
        simp [hx]
  unfold strip rstrip lstrip
  rw [h2 isSpace _ (h1 isSpace s)]
  rw [List.reverse_reverse, h1]

/-- C23, `\if A \elsif c₁ B₁ … \elsif cₙ Bₙ \else C \fi`: each condition is paired with the text of its own branch.
Partial: there must be an `\else` (see `C23_violated_elsif_lost`), and no branch followed by another `\elsif` may
equal the trimmed if-branch (see the example `C23_clash`). -/
theorem C23_elsif_partial (D : CondDelims) (hD : CondDelims.WF D) (t : Str) (e : CondEv) (es : List CondEv)
    (els fi : CondEv) (h : TopDelims D t 0 1 (e :: es ++ [els, fi])) (hk : els.kind = .els)
    (hes : ∀ x ∈ e :: es, x.kind = .elsif)
    (hne : ∀ b ∈ between t e.b es, b ≠ strip (slice t 0 e.a)) :
    extractElseElseifFi D t = .ok (strip (slice t 0 e.a)) (strip (slice t els.b fi.a))
      (((e :: es).map (·.group)).zip ((between t e.b (es ++ [els])).map strip)) fi.b := by
  obtain ⟨_, _, fuel', chunks, h1, h2, h3⟩ := step_top D hD t h (t.length + 1) {} (by omega)
  have hek := hes e (by simp)
  unfold extractElseElseifFi
  rcases h3 with ⟨h3, _⟩ | ⟨h3, _⟩ | ⟨_, h4, h3⟩
  · rw [hek] at h3; cases h3
  · rw [hek] at h3; cases h3
  · rw [h3]
    show (match (CondSt.pushAll ⟨[], [], .inIf, []⟩ chunks).onElsif e.group with | none => _ | some st' => _) = _
    rw [pushAll_inIf]
    simp only [CondSt.onElsif, CondSt.buf, if_true, List.nil_append]
    rw [← h2] at hne ⊢
    have := elsif_run D hD t els fi hk (strip chunks.flatten) es (fun x hx => hes x (by simp [hx])) e.b fuel' []
      e.group h4 (by omega) hne
    rw [List.nil_append] at this
    rw [this]
    simp [strip_strip]

/-- C23 violated: the text of an `\elsif` branch that is closed by `\fi` without an `\else` is lost. For every such
conditional the branch is reported with empty text, whatever it contains. -/
theorem C23_violated_elsif_lost (D : CondDelims) (hD : CondDelims.WF D) (t : Str) (e fi : CondEv)
    (h : TopDelims D t 0 1 [e, fi]) (hk : e.kind = .elsif) :
    extractElseElseifFi D t = .ok (strip (slice t 0 e.a)) [] [(e.group, [])] fi.b := by
  obtain ⟨_, _, fuel', chunks, h1, h2, h3⟩ := step_top D hD t h (t.length + 1) {} (by omega)
  unfold extractElseElseifFi
  rcases h3 with ⟨h3, _⟩ | ⟨h3, _⟩ | ⟨_, h4, h3⟩
  · rw [hk] at h3; cases h3
  · rw [hk] at h3; cases h3
  · rw [h3]
    show (match (CondSt.pushAll ⟨[], [], .inIf, []⟩ chunks).onElsif e.group with | none => _ | some st' => _) = _
    rw [pushAll_inIf]
    simp only [CondSt.onElsif, CondSt.buf, if_true, List.nil_append]
    obtain ⟨_, _, fuel2, chunks2, _, g2, g3⟩ := step_top D hD t h4 fuel' ⟨[strip chunks.flatten], [], .other [], [(e.group, [])]⟩ (by omega)
    rcases g3 with ⟨_, _, g3⟩ | ⟨_, g3, _⟩ | ⟨_, g3, _⟩
    · rw [g3, pushAll_other]
      simp [CondSt.finish, strip_strip, h2, strip_nil]
    · obtain ⟨es, fi', h, _⟩ := topDelims_shape D t g3
      cases es <;> simp at h
    · obtain ⟨es, fi', h, _⟩ := topDelims_shape D t g3
      cases es <;> simp at h

/-- C23 violated: an `\elsif` after the `\else` raises an exception that `handle` does not catch (`IndexError`),
unless the two branches happen to have the same text. -/
theorem C23_violated_elsif_after_else (D : CondDelims) (hD : CondDelims.WF D) (t : Str) (els e : CondEv) (es : List CondEv)
    (h : TopDelims D t 0 1 (els :: e :: es)) (hk1 : els.kind = .els) (hk2 : e.kind = .elsif)
    (hne : slice t 0 els.a ≠ slice t els.b e.a) :
    extractElseElseifFi D t = .indexError := by
  obtain ⟨_, _, fuel', chunks, h1, h2, h3⟩ := step_top D hD t h (t.length + 1) {} (by omega)
  unfold extractElseElseifFi
  rcases h3 with ⟨h3, _⟩ | ⟨_, h4, h3⟩ | ⟨h3, _⟩
  · rw [hk1] at h3; cases h3
  · rw [h3]
    show condLoop D t fuel' els.b 1 (CondSt.onElse (CondSt.pushAll ⟨[], [], .inIf, []⟩ chunks)) = _
    rw [pushAll_inIf]
    simp only [CondSt.onElse, setLast, List.getLast?_nil, Option.getD_none, List.nil_append]
    obtain ⟨_, _, fuel2, chunks2, _, g2, g3⟩ := step_top D hD t h4 fuel' ⟨chunks, [], .inElse, []⟩ (by omega)
    rcases g3 with ⟨g3, _⟩ | ⟨g3, _⟩ | ⟨_, _, g3⟩
    · rw [hk2] at g3; cases g3
    · rw [hk2] at g3; cases g3
    · rw [g3, pushAll_inElse]
      have : ¬ ([] ++ chunks2 = chunks) := by
        intro hc
        apply hne
        rw [← h2, ← g2, ← hc]; simp
      simp only [CondSt.onElsif, CondSt.buf, this, if_false, setLast, List.getLast?_nil]
  · rw [hk1] at h3; cases h3

/-- C23, unbalanced bodies: if the text runs out of delimiters while the conditional is open, the conditional is
reported as not handled (or, for a stray `\elsif` after `\else`, an exception escapes). -/
theorem C23_unclosed (D : CondDelims) (hD : CondDelims.WF D) (content : Str) (startPos : Nat) (cond : Str)
    (h : RunsDry D (content.drop startPos) 0 1) :
    handleCond D content startPos cond = .notHandled ∨ handleCond D content startPos cond = .raised := by
  have key : ∀ (t : Str) {p d}, RunsDry D t p d → ∀ fuel st, t.length < p + fuel →
      condLoop D t fuel p d st = .valueError ∨ condLoop D t fuel p d st = .indexError := by
    intro t p d hr
    induction hr with
    | here p d h0 h1 h2 =>
      intro fuel st hf
      cases fuel with
      | zero => omega
      | succ fuel => left; rw [condLoop, if_pos ⟨h1, h0⟩, nextCond_none h2]
    | sep p e h1 h2 h3 ih =>
      intro fuel st hf
      have hb := nextCond_bounds hD h1
      obtain ⟨hh, g1, g2, g3, g4⟩ := nextCond_hit h1
      cases fuel with
      | zero => omega
      | succ fuel =>
        rw [condLoop, if_pos ⟨hb.2.2.2, by omega⟩, g1]
        rcases h2 with k | k
        · rw [k]; simp only [← g3]; exact ih _ _ (by omega)
        · rw [k]
          simp only [← g3]
          split
          · exact .inr rfl
          · exact ih _ _ (by omega)
    | opens p d e h0 h1 h2 h3 ih =>
      intro fuel st hf
      have hb := nextCond_bounds hD h1
      obtain ⟨hh, g1, g2, g3, g4⟩ := nextCond_hit h1
      cases fuel with
      | zero => omega
      | succ fuel =>
        rw [condLoop, if_pos ⟨hb.2.2.2, by omega⟩, g1, h2]
        simp only [← g3]; exact ih _ _ (by omega)
    | closes p d e h0 h1 h2 h3 ih =>
      intro fuel st hf
      have hb := nextCond_bounds hD h1
      obtain ⟨hh, g1, g2, g3, g4⟩ := nextCond_hit h1
      cases fuel with
      | zero => omega
      | succ fuel =>
        rw [condLoop, if_pos ⟨hb.2.2.2, by omega⟩, g1, h2]
        simp only [← g3, Nat.add_sub_cancel]; exact ih _ _ (by omega)
  unfold handleCond extractElseElseifFi
  rcases key _ h ((content.drop startPos).length + 1) {} (by omega) with h | h <;> rw [h]
  · exact .inl rfl
  · exact .inr rfl

/-- C23: "not handled" is reported only for such unbalanced bodies. -/
theorem C23_not_handled_only_if (D : CondDelims) (content : Str) (startPos : Nat) (cond : Str)
    (h : handleCond D content startPos cond = .notHandled) : RunsDry D (content.drop startPos) 0 1 := by
  have key : ∀ (t : Str) fuel p d st, 1 ≤ d → condLoop D t fuel p d st = .valueError → RunsDry D t p d := by
    intro t fuel
    induction fuel with
    | zero => intro p d st _ h; simp [condLoop, CondSt.finish] at h
    | succ fuel ih =>
      intro p d st hd h
      rw [condLoop] at h
      split at h
      · rename_i hc
        cases hm : minMatch (validMatches D d (t.drop p)) with
        | none =>
          refine .here p d hd hc.1 ?_
          intro e he
          obtain ⟨hh, g1, _⟩ := nextCond_hit he
          rw [hm] at g1; cases g1
        | some x =>
          obtain ⟨k, hh⟩ := x
          rw [hm] at h
          have hn := (nextCond_iff D t p d k hh).1 hm
          cases k with
          | start => exact .opens p d _ hd hn rfl (ih _ _ _ (by omega) h)
          | fi =>
            simp only at h
            by_cases hd1 : d = 1
            · subst hd1
              cases fuel <;> simp [condLoop, CondSt.finish] at h
            · obtain ⟨d', rfl⟩ : ∃ d', d = d' + 1 := ⟨d - 1, by omega⟩
              exact .closes p d' _ (by omega) hn rfl (ih _ _ _ (by omega) h)
          | els =>
            have hd1 : d = 1 := by
              obtain ⟨_, _, hc, _⟩ := hn
              rcases hc with hc | hc | hc
              · exact hc
              · cases hc
              · cases hc
            subst hd1
            exact .sep p _ hn (.inl rfl) (ih _ _ _ (by omega) h)
          | elsif =>
            have hd1 : d = 1 := by
              obtain ⟨_, _, hc, _⟩ := hn
              rcases hc with hc | hc | hc
              · exact hc
              · cases hc
              · cases hc
            subst hd1
            simp only at h
            split at h
            · cases h
            · exact .sep p _ hn (.inr rfl) (ih _ _ _ (by omega) h)
      · simp [CondSt.finish] at h
  unfold handleCond at h
  split at h
  · rename_i he
    exact key _ _ _ _ _ (by omega) he
  · cases h
  · split at h <;> cases h

/-- C23 violated: if the text ends exactly at the end of a delimiter, an unclosed conditional is *not* reported: it is
handled as if it were closed, the whole rest of the text becoming its branches. -/
theorem C23_violated_unclosed_at_end (D : CondDelims) (hD : CondDelims.WF D) (t : Str) (h : EndsOpen D t 0 1) :
    ∃ i e bs, extractElseElseifFi D t = .ok i e bs t.length := by
  have key : ∀ {p d}, EndsOpen D t p d → ∀ fuel st, t.length < p + fuel →
      ∃ i e bs, condLoop D t fuel p d st = .ok i e bs t.length := by
    intro p d hr
    induction hr with
    | here d h0 =>
      intro fuel st hf
      refine ⟨strip st.ifBuf.flatten, strip st.elseBuf.flatten, st.branches, ?_⟩
      cases fuel with
      | zero => rfl
      | succ fuel => rw [condLoop, if_neg (by omega)]; rfl
    | els p e h1 h2 h3 ih =>
      intro fuel st hf
      have hb := nextCond_bounds hD h1
      obtain ⟨hh, g1, g2, g3, g4⟩ := nextCond_hit h1
      cases fuel with
      | zero => omega
      | succ fuel =>
        rw [condLoop, if_pos ⟨hb.2.2.2, by omega⟩, g1, h2]
        simp only [← g3]; exact ih _ _ (by omega)
    | opens p d e h0 h1 h2 h3 ih =>
      intro fuel st hf
      have hb := nextCond_bounds hD h1
      obtain ⟨hh, g1, g2, g3, g4⟩ := nextCond_hit h1
      cases fuel with
      | zero => omega
      | succ fuel =>
        rw [condLoop, if_pos ⟨hb.2.2.2, by omega⟩, g1, h2]
        simp only [← g3]; exact ih _ _ (by omega)
    | closes p d e h0 h1 h2 h3 ih =>
      intro fuel st hf
      have hb := nextCond_bounds hD h1
      obtain ⟨hh, g1, g2, g3, g4⟩ := nextCond_hit h1
      cases fuel with
      | zero => omega
      | succ fuel =>
        rw [condLoop, if_pos ⟨hb.2.2.2, by omega⟩, g1, h2]
        simp only [← g3, Nat.add_sub_cancel]; exact ih _ _ (by omega)
  exact key h (t.length + 1) {} (by omega)

/-- C23, `\iffalse`: the branches are swapped, so that the text after `\else` is the one that is selected. -/
theorem C23_iffalse (D : CondDelims) (content : Str) (startPos : Nat) (i e : Str) (bs) (p : Nat)
    (h : extractElseElseifFi D (content.drop startPos) = .ok i e bs p) :
    handleCond D content startPos "false".toList = .token "false".toList e i bs (startPos + p) ∧
    ∀ cond, cond.filter (fun c => c != '{' && c != '}') ≠ "false".toList →
      handleCond D content startPos cond = .token cond i e bs (startPos + p) := by
  unfold handleCond
  rw [h]
  refine ⟨if_pos (by decide), fun cond hc => if_neg hc⟩

/-! The default patterns never match the empty string, so the theorems apply to them. -/

theorem Re.run_le (r : Re) : ∀ st st', st' ∈ r.run st → st'.rest.length ≤ st.rest.length := by
  have iterG : ∀ (f : MSt → List MSt), (∀ st st', st' ∈ f st → st'.rest.length ≤ st.rest.length) →
      ∀ n st st', st' ∈ iterGreedy f n st → st'.rest.length ≤ st.rest.length := by
    intro f hf n
    induction n with
    | zero => intro st st' h; simp [iterGreedy] at h; simp [h]
    | succ n ih =>
      intro st st' h
      simp only [iterGreedy, List.mem_append, List.mem_flatMap, List.mem_filter, List.mem_singleton] at h
      rcases h with ⟨s, ⟨h1, _⟩, h3⟩ | h
      · have := hf _ _ h1; have := ih _ _ h3; omega
      · simp [h]
  have iterL : ∀ (f : MSt → List MSt), (∀ st st', st' ∈ f st → st'.rest.length ≤ st.rest.length) →
      ∀ n st st', st' ∈ iterLazy f n st → st'.rest.length ≤ st.rest.length := by
    intro f hf n
    induction n with
    | zero => intro st st' h; simp [iterLazy] at h; simp [h]
    | succ n ih =>
      intro st st' h
      simp only [iterLazy, List.mem_cons, List.mem_flatMap, List.mem_filter] at h
      rcases h with h | ⟨s, ⟨h1, _⟩, h3⟩
      · simp [h]
      · have := hf _ _ h1; have := ih _ _ h3; omega
  induction r with
  | eps => intro st st' h; simp [Re.run] at h; simp [h]
  | fail => intro st st' h; simp [Re.run] at h
  | chr p =>
    intro st st' h
    simp only [Re.run] at h
    split at h
    · simp at h
    · rename_i x rest hr
      split at h
      · simp at h; simp [h, hr]
      · simp at h
  | seq a b iha ihb =>
    intro st st' h
    simp only [Re.run, List.mem_flatMap] at h
    obtain ⟨s, h1, h2⟩ := h
    have := iha _ _ h1; have := ihb _ _ h2; omega
  | alt a b iha ihb =>
    intro st st' h
    simp only [Re.run, List.mem_append] at h
    exact h.elim (iha _ _) (ihb _ _)
  | star a ih => intro st st' h; exact iterG _ ih _ _ _ h
  | lazyStar a ih => intro st st' h; exact iterL _ ih _ _ _ h
  | group n a ih =>
    intro st st' h
    simp only [Re.run, List.mem_map] at h
    obtain ⟨s, h1, rfl⟩ := h
    exact ih _ s h1
  | look a _ =>
    intro st st' h
    simp only [Re.run] at h
    split at h <;> simp at h; simp [h]
  | nlook a _ =>
    intro st st' h
    simp only [Re.run] at h
    split at h <;> simp at h; simp [h]
  | nbehind p =>
    intro st st' h
    simp only [Re.run] at h
    split at h
    · simp at h; simp [h]
    · split at h <;> simp at h; simp [h]
  | eos =>
    intro st st' h
    simp only [Re.run] at h
    split at h <;> simp at h; simp [h]

/-- The regex consumes at least one character. -/
def Re.Consumes (r : Re) : Prop := ∀ st st', st' ∈ r.run st → st'.rest.length < st.rest.length

theorem consumes_chr (p : Char → Bool) : (Re.chr p).Consumes := by
  intro st st' h
  simp only [Re.run] at h
  split at h
  · simp at h
  · rename_i x rest hr
    split at h
    · simp at h; simp [h, hr]
    · simp at h

theorem consumes_seq_left {a : Re} (b : Re) (h : a.Consumes) : (Re.seq a b).Consumes := by
  intro st st' hs
  simp only [Re.run, List.mem_flatMap] at hs
  obtain ⟨s, h1, h2⟩ := hs
  have := h _ _ h1; have := b.run_le _ _ h2; omega

theorem consumes_alt {a b : Re} (ha : a.Consumes) (hb : b.Consumes) : (Re.alt a b).Consumes := by
  intro st st' hs
  simp only [Re.run, List.mem_append] at hs
  exact hs.elim (ha _ _) (hb _ _)

theorem consumes_lit (c : Char) (cs : Str) : (Re.lit (c :: cs)).Consumes := consumes_seq_left _ (consumes_chr _)

theorem nonEmpty_of_consumes {r : Re} (h : r.Consumes) : NonEmptyRe r := by
  intro rev rest m hm
  unfold Re.matchAt at hm
  split at hm
  · cases hm
  · rename_i st l hr
    injection hm with hm
    have := h ⟨rev, rest, []⟩ st (by rw [hr]; simp)
    rw [← hm]
    simp only at this ⊢
    omega

theorem hit_bounds {r : Re} (h : r.Consumes) (s : Str) (x : Hit) (hx : r.hit s = some x) :
    x.start < x.stop ∧ x.stop ≤ s.length := by
  unfold Re.hit at hx
  rw [Option.map_eq_some_iff] at hx
  obtain ⟨m, hm, rfl⟩ := hx
  have : r.searchPos s 0 = some (m.start, m.stop) := by
    unfold Re.searchPos
    simp only [List.take_zero, List.reverse_nil, List.drop_zero]
    unfold Re.search at hm
    rw [hm]; rfl
  have := searchPos_bounds r (nonEmpty_of_consumes h) s 0 _ _ (by omega) this
  exact this.2

/-- The default delimiters satisfy the hypothesis of the C23 theorems; so does any other `\if` pattern that consumes
something in place of the default one. -/
theorem C23_default_wf : CondDelims.WF defaultDelims := by
  intro s h hh
  rcases hh with hh | hh | hh | hh
  · exact hit_bounds (consumes_seq_left _ (consumes_lit _ _)) s h hh
  · exact hit_bounds (consumes_seq_left _ (consumes_lit _ _)) s h hh
  · exact hit_bounds (consumes_seq_left _ (consumes_lit _ _)) s h hh
  · exact hit_bounds (consumes_alt (consumes_seq_left _ (consumes_lit _ _)) (consumes_seq_left _ (consumes_lit _ _))) s h hh

/- Non-vacuity (tests). -/
example : extractElseElseifFi defaultDelims " a \\iftrue b \\else c \\fi d \\else e \\fi f".toList =
    .ok "a \\iftrue b \\else c \\fi d".toList "e".toList [] 38 := by decide +kernel
example : extractElseElseifFi defaultDelims " a \\elsif xx b \\else c \\fi".toList =
    .ok "a".toList "c".toList [(some "xx".toList, "b".toList)] 26 := by decide +kernel
example : extractElseElseifFi defaultDelims " a \\elsif xx lost \\fi".toList =
    .ok "a".toList [] [(some "xx".toList, [])] 21 := by decide +kernel
example : extractElseElseifFi defaultDelims " a \\else b \\elsif xx c \\fi".toList = .indexError := by decide +kernel
example : extractElseElseifFi defaultDelims " a \\iftrue b \\fi c".toList = .valueError := by decide +kernel
example : extractElseElseifFi defaultDelims " a \\iftrue b \\fi".toList =
    .ok "a \\iftrue b \\fi".toList [] [] 16 := by decide +kernel
/-- The clash excluded in `C23_elsif_partial`: the second branch has the text of the first and is lost. -/
example : extractElseElseifFi defaultDelims "\\a\\elsif xx\\a\\elsif yy\\b\\else\\c\\fi".toList =
    .ok "\\a".toList "\\c".toList [(some "xx".toList, []), (some "yy".toList, "\\b".toList)] 34 := by decide +kernel
/-- The hypothesis of `C23_if_else_fi` is met by a text with a nested conditional. -/
example : ∃ els fi, els.kind = .els ∧
    TopDelims defaultDelims " a \\iftrue b \\fi\\else e \\fi f".toList 0 1 [els, fi] := by
  refine ⟨⟨.els, 16, 21, none⟩, ⟨.fi, 24, 27, none⟩, rfl, ?_⟩
  refine .opens 0 1 ⟨.start, 3, 10, some "true".toList⟩ _ (by omega) ?_ rfl ?_
  · exact (nextCond_iff defaultDelims _ 0 1 .start ⟨3, 10, some "true".toList⟩).1 (by decide +kernel)
  · refine .closes 10 1 ⟨.fi, 13, 16, none⟩ _ (by omega) ?_ rfl ?_
    · exact (nextCond_iff defaultDelims _ 10 2 .fi ⟨3, 6, none⟩).1 (by decide +kernel)
    · refine .sep 16 _ _ ?_ (.inl rfl) ?_
      · exact (nextCond_iff defaultDelims _ 16 1 .els ⟨0, 5, none⟩).1 (by decide +kernel)
      · refine .fi 21 _ ?_ rfl
        exact (nextCond_iff defaultDelims _ 21 1 .fi ⟨3, 6, none⟩).1 (by decide +kernel)

end L2J
