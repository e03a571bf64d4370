import Verif.Lemmas.EnvBlock
/-! C09: `extract_nested_content_pattern` and `find_matching_env_block`. -/
namespace L2J
open Spec

/-- C09: the result is the first begin match together with the end match at which the nesting depth
first returns to zero (the events being walked left to right without overlap), and the content
strictly between them. `NonEmptyRe`: the patterns never match the empty string. -/
theorem C09_pattern_iff (text : Str) (b e : Re) (hb : NonEmptyRe b) (he : NonEmptyRe e) (s t : Nat) (content : Str) :
    extractNestedPattern text b e = some (s, t, content) ↔
      ∃ cs ce, b.searchPos text 0 = some (s, cs) ∧ (finders b e text).Closes cs 1 ce t ∧
        content = slice text cs ce := by
  unfold extractNestedPattern
  cases h : b.searchPos text 0 with
  | none => simp
  | some r =>
    obtain ⟨bs, be⟩ := r
    have hbd := searchPos_bounds b hb text 0 bs be (by omega) h
    have key := nestLoop_iff b e hb he text (text.length + 1) be 1 (by omega) (by omega) (by omega)
    simp only []
    cases hl : nestLoop b e text (text.length + 1) be 1 with
    | none =>
      simp only [reduceCtorEq, false_iff]
      rintro ⟨cs, ce, h1, h2, _⟩
      injection h1 with h1; injection h1 with h1 h1'
      subst h1'
      rw [← key, hl] at h2
      cases h2
    | some q =>
      obtain ⟨x, y⟩ := q
      simp only [Option.some.injEq, Prod.mk.injEq]
      constructor
      · rintro ⟨rfl, rfl, rfl⟩
        exact ⟨be, x, ⟨rfl, rfl⟩, (key x y).1 hl, rfl⟩
      · rintro ⟨cs, ce, ⟨rfl, rfl⟩, h2, rfl⟩
        rw [← key, hl] at h2
        injection h2 with h2; injection h2 with h3 h4
        simp [h3, h4]

/-- C09: `(-1, -1, "")` is returned exactly when there is no begin match or nothing closes it. -/
theorem C09_pattern_none_iff (text : Str) (b e : Re) (hb : NonEmptyRe b) (he : NonEmptyRe e) :
    extractNestedPattern text b e = none ↔
      ∀ s cs, b.searchPos text 0 = some (s, cs) → ¬ ∃ ce t, (finders b e text).Closes cs 1 ce t := by
  rw [Option.eq_none_iff_forall_ne_some]
  constructor
  · rintro h s cs h1 ⟨ce, t, h2⟩
    exact h (s, t, slice text cs ce) ((C09_pattern_iff text b e hb he _ _ _).2 ⟨cs, ce, h1, h2, rfl⟩)
  · rintro h ⟨s, t, content⟩ h1
    obtain ⟨cs, ce, h2, h3, _⟩ := (C09_pattern_iff text b e hb he _ _ _).1 h1
    exact h s cs h2 ⟨ce, t, h3⟩

/-- C09: the searches used above are leftmost matches. -/
theorem C09_search_leftmost (r : Re) (text : Str) (p a b : Nat) (hp : p ≤ text.length)
    (h : r.searchPos text p = some (a, b)) :
    p ≤ a ∧ (∃ m, r.matchAt (text.take a).reverse (text.drop a) = some m ∧ b = a + m.len) ∧
      ∀ j, p ≤ j → j < a → r.matchAt (text.take j).reverse (text.drop j) = none := by
  unfold Re.searchPos at h
  rw [Option.map_eq_some_iff] at h
  obtain ⟨m, hm, hab⟩ := h
  have tk : ∀ k, ((text.drop p).take k).reverse ++ (text.take p).reverse = (text.take (p + k)).reverse := by
    intro k
    rw [← List.reverse_append, ← List.take_add]
  have dr : ∀ k, (text.drop p).drop k = text.drop (p + k) := fun k => by rw [List.drop_drop]
  rcases r.searchFrom_spec (text.drop p) (text.take p).reverse with ⟨h1, _⟩ | ⟨k, m', h1, h2, h3, h4⟩
  · rw [h1] at hm; cases hm
  · rw [h2] at hm
    injection hm with hm
    subst hm
    obtain ⟨e1, e2⟩ := r.matchAt_zip _ _ _ h3
    simp only [Match.start, Match.stop, Prod.mk.injEq, e1] at hab
    rw [tk] at hab h3
    rw [dr] at h3
    have hl : ((text.take (p + k)).reverse).length = p + k := by simp at h1 ⊢; omega
    rw [hl] at hab
    obtain ⟨rfl, rfl⟩ := hab
    refine ⟨by omega, ⟨_, h3, rfl⟩, fun j hj1 hj2 => ?_⟩
    have := h4 (j - p) (by omega)
    rw [tk, dr] at this
    rwa [show p + (j - p) = j by omega] at this

/-- C09: `find_matching_env_block`: in `pre \begin{name} body \end{name} post`, where `pre` has no
`\begin{name}` and `body` is a well-nested body (possibly containing other `name` environments), the
outer environment is found and its trimmed body returned. -/
theorem C09_env_block (name pre b body e post : Str) (hn : '\\' ∉ name)
    (hpre : NoDelim "\\begin".toList name pre) (hb : IsDelim "\\begin".toList name b)
    (hbody : EnvBody name body) (he : IsDelim "\\end".toList name e) :
    findMatchingEnvBlock (pre ++ b ++ body ++ e ++ post) name 0 =
      some (pre.length, (pre ++ b ++ body ++ e).length, strip body) := by
  have hcl : (finders (beginRe name) (endRe name) (pre ++ b ++ body ++ e ++ post)).Closes
      (pre ++ b ++ body).length 1 (pre ++ b ++ body).length (pre ++ b ++ body ++ e).length := by
    refine .last _ _ _ ⟨?_, ?_⟩
    · have := searchPos_here (endRe name) (pre ++ b ++ body) (e ++ post) _
        (delimRe_match "\\end".toList name _ e post he)
      show (endRe name).searchPos _ _ = _
      rw [show pre ++ b ++ body ++ e ++ post = (pre ++ b ++ body) ++ (e ++ post) by simp, this]
      simp [Nat.add_assoc]
    · intro a' b' h
      refine searchPos_gt (beginRe name) (beginRe_nonEmpty name) (pre ++ b ++ body) (e ++ post) ?_ ?_ (b := b')
      · exact begin_ne_end name name e _ _ he
      · rw [show (pre ++ b ++ body) ++ (e ++ post) = pre ++ b ++ body ++ e ++ post by simp]
        exact h
  have hcl2 := envBody_closes name hn hbody (pre ++ b) (e ++ post) (pre ++ b ++ body ++ e ++ post) 1
    (pre ++ b ++ body).length (pre ++ b ++ body ++ e).length
    (by simp) (delim_head "end".toList name e _ he) (by omega) hcl
  have hopen : (beginRe name).searchPos (pre ++ b ++ body ++ e ++ post) 0 =
      some (pre.length, (pre ++ b).length) := by
    have h1 := searchPos_here (beginRe name) pre (b ++ (body ++ e ++ post)) _
      (delimRe_match "\\begin".toList name _ b _ hb)
    have h2 := searchPos_skip (beginRe name) [] pre (b ++ (body ++ e ++ post)) fun u v e' hv =>
      plain_skip "begin".toList name begin_nb hn pre _ hpre (delim_head "begin".toList name b _ hb) _ u v e' hv
    rw [show pre ++ b ++ body ++ e ++ post = [] ++ pre ++ (b ++ (body ++ e ++ post)) by simp]
    rw [List.length_nil] at h2
    rw [h2]
    simpa using h1
  have hx := (C09_pattern_iff (pre ++ b ++ body ++ e ++ post) (beginRe name) (endRe name) (beginRe_nonEmpty name)
    (endRe_nonEmpty name) pre.length (pre ++ b ++ body ++ e).length body).2
    ⟨_, _, hopen, hcl2, by
      rw [show pre ++ b ++ body ++ e ++ post = (pre ++ b ++ body) ++ (e ++ post) by simp]
      unfold slice
      rw [List.take_left, List.drop_left]⟩
  unfold findMatchingEnvBlock
  rw [List.drop_zero, hx]
  rfl

/-- Starting later shifts the reported positions. -/
theorem C09_env_block_start (name pre0 pre b body e post : Str) (hn : '\\' ∉ name)
    (hpre : NoDelim "\\begin".toList name pre) (hb : IsDelim "\\begin".toList name b)
    (hbody : EnvBody name body) (he : IsDelim "\\end".toList name e) :
    findMatchingEnvBlock (pre0 ++ (pre ++ b ++ body ++ e ++ post)) name pre0.length =
      some (pre0.length + pre.length, pre0.length + (pre ++ b ++ body ++ e).length, strip body) := by
  have := C09_env_block name pre b body e post hn hpre hb hbody he
  unfold findMatchingEnvBlock at this ⊢
  rw [List.drop_zero] at this
  rw [List.drop_left]
  cases h : extractNestedPattern (pre ++ b ++ body ++ e ++ post) (beginRe name) (endRe name) with
  | none => rw [h] at this; cases this
  | some r =>
    obtain ⟨x, y, c⟩ := r
    rw [h] at this
    simp only [Option.some.injEq, Prod.mk.injEq, Nat.add_zero] at this
    obtain ⟨rfl, rfl, hc⟩ := this
    simp [hc, Nat.add_comm]

/-- Hypotheses are satisfiable: a nested `itemize`. -/
example : findMatchingEnvBlock "x\\begin{i}a\\begin {i}b\\end{i}c\\end{i}d".toList "i".toList 0 =
    some (1, 37, "a\\begin {i}b\\end{i}c".toList) := by decide
example : IsDelim "\\begin".toList "i".toList "\\begin {i}".toList := ⟨[' '], by decide, rfl⟩

theorem noDelim_of_no_backslash (kw' name t : Str) (h : '\\' ∉ t) : NoDelim ('\\' :: kw') name t := by
  rintro u d v rfl ⟨ws, _, rfl⟩
  simp at h

example : EnvBody "i".toList ("a".toList ++ "\\begin {i}".toList ++ "b".toList ++ "\\end{i}".toList ++ "c".toList) :=
  .env _ _ _ _ _ (noDelim_of_no_backslash _ _ _ (by decide)) (noDelim_of_no_backslash _ _ _ (by decide))
    ⟨[' '], by decide, rfl⟩
    (.plain _ (noDelim_of_no_backslash _ _ _ (by decide)) (noDelim_of_no_backslash _ _ _ (by decide)))
    ⟨[], by decide, rfl⟩
    (.plain _ (noDelim_of_no_backslash _ _ _ (by decide)) (noDelim_of_no_backslash _ _ _ (by decide)))

end L2J
