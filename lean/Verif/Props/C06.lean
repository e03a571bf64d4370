import Verif.Lemmas.Args
/-! C06: `extract_delimited_args` follows the requested signature. -/
namespace L2J
open Spec

/-- C06, main statement: for a signature over `{` and `[`, the results are exactly those of the
documented left-to-right reading (`ArgSeq`), and the returned position is the end `q` of the last
argument, possibly advanced over whitespace only. -/
theorem C06_delimited_args (content pattern : Str) (hpat : ∀ d, d ∈ pattern → d = '{' ∨ d = '[') :
    ∃ q, ArgSeq content pattern 0 (extractDelimitedArgs content pattern).1 q ∧
      q ≤ (extractDelimitedArgs content pattern).2 ∧
      (extractDelimitedArgs content pattern).2 ≤ content.length ∧
      (∀ j, q ≤ j → j < (extractDelimitedArgs content pattern).2 →
        ∃ x, content[j]? = some x ∧ isSpace x = true) := by
  obtain ⟨q, h1, h2, h3, h4, _⟩ := delimArgsLoop_spec content pattern 0 0 hpat rfl (Nat.zero_le _)
    (Nat.le_refl _) (fun j h1 h2 => by omega)
  exact ⟨q, h1, h2, h3, h4⟩

/-- C06: the documented reading is deterministic, so the results are determined by `ArgSeq`. -/
theorem C06_deterministic {t pat : Str} {p : Nat} {rs : List (Option Str)} {q : Nat}
    (h : ArgSeq t pat p rs q) : ∀ {rs' q'}, ArgSeq t pat p rs' q' → rs = rs' ∧ q = q' := by
  have nb : ∀ {o c : Char} {p s e : Nat}, SpaceTo t p s → IsBlock t o c s e → ¬ NoBlockFrom t o c p :=
    fun h1 h2 h3 => h3 ⟨_, _, h1, h2⟩
  have op : ∀ {o c : Char} {s e : Nat}, IsBlock t o c s e → t[s]? = some o :=
    fun h => (liveAt_get h.opener).1
  induction h with
  | done p => intro rs' q' h'; cases h'; exact ⟨rfl, rfl⟩
  | stop d pat p s h1 h2 h3 =>
    intro rs' q' h'
    cases h' with
    | stop => exact ⟨rfl, rfl⟩
    | missing => exact ⟨rfl, rfl⟩
    | req _ _ s' e _ _ g1 g2 => rw [spaceTo_unique g1 h1] at g2; exact absurd (op g2) h2
    | opt _ _ s' e _ _ g1 g2 => rw [spaceTo_unique g1 h1] at g2; exact absurd (op g2) h3
    | absent _ _ s' _ _ g1 g2 =>
      rw [spaceTo_unique g1 h1] at g2
      rcases g2 with g2 | g2
      · exact absurd g2 h2
      · exact absurd g2 h3
  | missing pat p hn =>
    intro rs' q' h'
    cases h' with
    | stop => exact ⟨rfl, rfl⟩
    | missing => exact ⟨rfl, rfl⟩
    | req _ _ s' e _ _ g1 g2 => exact absurd hn (nb g1 g2)
  | req pat p s e rs q h1 h2 h3 ih =>
    intro rs' q' h'
    cases h' with
    | stop _ _ _ s' g1 g2 g3 => rw [spaceTo_unique g1 h1] at g2; exact absurd (op h2) g2
    | missing _ _ hn => exact absurd hn (nb h1 h2)
    | req _ _ s' e' _ _ g1 g2 g3 =>
      have := spaceTo_unique g1 h1; subst this
      have := block_unique g2 h2; subst this
      obtain ⟨a, b⟩ := ih g3
      exact ⟨by rw [a], b⟩
  | opt pat p s e rs q h1 h2 h3 ih =>
    intro rs' q' h'
    cases h' with
    | stop _ _ _ s' g1 g2 g3 => rw [spaceTo_unique g1 h1] at g3; exact absurd (op h2) g3
    | opt _ _ s' e' _ _ g1 g2 g3 =>
      have := spaceTo_unique g1 h1; subst this
      have := block_unique g2 h2; subst this
      obtain ⟨a, b⟩ := ih g3
      exact ⟨by rw [a], b⟩
    | absent _ _ s' _ _ g1 g2 hn => exact absurd hn (nb h1 h2)
  | absent pat p s rs q h1 h2 hn h3 ih =>
    intro rs' q' h'
    cases h' with
    | stop _ _ _ s' g1 g2 g3 =>
      rw [spaceTo_unique g1 h1] at g2 g3
      rcases h2 with h2 | h2
      · exact absurd h2 g2
      · exact absurd h2 g3
    | opt _ _ s' e' _ _ g1 g2 g3 => exact absurd hn (nb g1 g2)
    | absent _ _ s' _ _ g1 g2 hn' g3 =>
      obtain ⟨a, b⟩ := ih g3
      exact ⟨by rw [a], b⟩

/-- C06: at most one result per delimiter; a required argument is never `None`; every
non-`None` result is balanced in its own delimiters. -/
theorem C06_shape (content pattern : Str) (hpat : ∀ d, d ∈ pattern → d = '{' ∨ d = '[') :
    (extractDelimitedArgs content pattern).1.length ≤ pattern.length ∧
    ∀ (i : Nat) (r : Option Str), (extractDelimitedArgs content pattern).1[i]? = some r →
      (pattern[i]? = some '{' → ∃ s, r = some s ∧ Balanced s '{' '}') ∧
      (pattern[i]? = some '[' → ∀ s, r = some s → Balanced s '[' ']') := by
  obtain ⟨q, h, hx⟩ := C06_delimited_args content pattern hpat
  clear hx
  generalize (extractDelimitedArgs content pattern).1 = rs at h
  generalize (0 : Nat) = p at h
  clear hpat
  induction h with
  | done => simp
  | stop => simp
  | missing => simp
  | req pat p s e rs q h1 h2 h3 ih =>
    refine ⟨by simp; exact ih.1, fun i r hr => ?_⟩
    cases i with
    | zero =>
      simp at hr
      exact ⟨fun _ => ⟨_, hr.symm, block_content_balanced (by decide) h2⟩, fun h => by simp at h⟩
    | succ i => simpa using ih.2 i r (by simpa using hr)
  | opt pat p s e rs q h1 h2 h3 ih =>
    refine ⟨by simp; exact ih.1, fun i r hr => ?_⟩
    cases i with
    | zero =>
      simp at hr
      refine ⟨fun h => by simp at h, fun _ s' hs' => ?_⟩
      rw [← hr] at hs'
      injection hs' with hs'
      rw [← hs']; exact block_content_balanced (by decide) h2
    | succ i => simpa using ih.2 i r (by simpa using hr)
  | absent pat p s rs q h1 h2 hn h3 ih =>
    refine ⟨by simp; exact ih.1, fun i r hr => ?_⟩
    cases i with
    | zero =>
      simp at hr
      refine ⟨fun h => by simp at h, fun _ s' hs' => ?_⟩
      rw [← hr] at hs'
      cases hs'
    | succ i => simpa using ih.2 i r (by simpa using hr)

/-- C06, documented position (partial): for a signature of optional arguments only, the position is
exactly the end of the last argument. Missing: signatures with required arguments, where the code
may also count whitespace (`C06_position_violated`). -/
theorem C06_position_partial (content pattern : Str) (hpat : ∀ d, d ∈ pattern → d = '[') :
    ArgSeq content pattern 0 (extractDelimitedArgs content pattern).1
      (extractDelimitedArgs content pattern).2 := by
  obtain ⟨q, h1, _, _, _, h5⟩ := delimArgsLoop_spec content pattern 0 0 (fun d hd => .inr (hpat d hd)) rfl
    (Nat.zero_le _) (Nat.le_refl _) (fun j h1 h2 => by omega)
  have := h5 (fun h => by have := hpat _ h; simp at this)
  unfold extractDelimitedArgs
  rw [this]; exact h1

/-- C06, the documented position ("the position after the last successfully processed delimiter")
is violated: for `{a}  [b]` with signature `{{` the code returns 5, the end of the last argument
being 3. -/
theorem C06_position_violated :
    ¬ ∀ content pattern, (∀ d, d ∈ pattern → d = '{' ∨ d = '[') →
      ArgSeq content pattern 0 (extractDelimitedArgs content pattern).1
        (extractDelimitedArgs content pattern).2 := by
  intro h
  have h1 := h "{a}  [b]".toList "{{".toList (by decide)
  have e1 : extractDelimitedArgs "{a}  [b]".toList "{{".toList = ([some ['a']], 5) := by decide
  rw [e1] at h1
  have hex := (extract_iff "{a}  [b]".toList '{' '}' ['a'] 3).1 (by decide)
  obtain ⟨s, hs, hb, _⟩ := hex
  have hnone : extractNestedContent ("{a}  [b]".toList.drop 3) '{' '}' = none := by decide
  have hn := (extract_drop_none_iff "{a}  [b]".toList '{' '}' 3 (by decide) (by decide)).1 hnone
  have hsp : SpaceTo "{a}  [b]".toList 0 s := by
    have := (leadingSpace_drop_iff "{a}  [b]".toList 0 s).1 (by simpa using hs)
    simpa using this
  have h2 := ArgSeq.req ("{".toList) 0 s 3 [] 3 hsp hb (.missing [] 3 hn)
  have h3 := (C06_deterministic h1 h2).2
  simp at h3

/-- Non-vacuity (tests, docstring example adapted: the content must start at the delimiter). -/
example : extractDelimitedArgs "{a}\n[b]{c}".toList "{[{".toList
    = ([some "a".toList, some "b".toList, some "c".toList], 10) := by decide
example : extractDelimitedArgs "{a}{c}".toList "{[{".toList
    = ([some "a".toList, none, some "c".toList], 6) := by decide

end L2J
