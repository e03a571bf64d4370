import Verif.Props.C47
import Verif.Props.C45
/-! C48: the content command handler ends and moves on. -/
namespace L2J.Content
open L2J.Cmds Spec

theorem firstPattern_some {content : Str} {k : Kind} {m : Match} : ∀ {ps : List (Kind × Names × Re)},
    firstPattern content ps = some (k, m) → ∃ p ∈ ps, p.1 = k ∧ (patternRe p).matchAt [] content = some m
  | [], h => by cases h
  | p :: ps, h => by
    simp only [firstPattern] at h
    split at h
    · rename_i m' hm
      cases h
      exact ⟨p, by simp, rfl, hm⟩
    · obtain ⟨q, hq, h1, h2⟩ := firstPattern_some h
      exact ⟨q, by simp [hq], h1, h2⟩

/-- A match of a pattern is not empty and within the text. -/
theorem pattern_bounds {p : Kind × Names × Re} {content : Str} {m : Match} (h : (patternRe p).matchAt [] content = some m) :
    0 < m.stop ∧ m.stop ≤ content.length := by
  rw [Re.matchAt_eq] at h
  cases hr : (patternRe p).run ⟨[], content, []⟩ with
  | nil => rw [hr] at h; cases h
  | cons st l =>
    rw [hr] at h
    simp only [List.head?_cons, Option.map_some, Option.some.injEq] at h
    subst h
    have hst : st ∈ (patternRe p).run ⟨[], content, []⟩ := by rw [hr]; simp
    unfold patternRe at hst
    rw [seq_run, List.mem_flatMap] at hst
    obtain ⟨s1, h1, h2⟩ := hst
    rw [Re.run_lit] at h1
    split at h1
    · rename_i hp
      simp only [List.mem_singleton] at h1
      subst h1
      have := Re.run_le _ _ _ h2
      rw [List.isPrefixOf_iff_prefix] at hp
      have := hp.length_le
      simp [Match.stop] at *
      omega
    · cases h1

theorem match_bounds {content : Str} {k : Kind} {m : Match} (h : firstPattern content patterns = some (k, m)) :
    0 < m.stop ∧ m.stop ≤ content.length := by
  obtain ⟨p, _, _, hm⟩ := firstPattern_some h
  exact pattern_bounds hm

/-- What raises: `\hyperref` without its optional argument. -/
theorem createToken_none (aliases : Dict Str) (k : Kind) (m : Match) (text : Str) :
    createToken aliases k m text = none ↔ k = .hyperref ∧ m.group 1 = none := by
  cases k
  case hyperref =>
    unfold createToken
    simp only
    cases m.group 1 <;> simp
  case citealias =>
    rw [createToken_alias]; simp
  all_goals simp [createToken]

/-- The branches that read an argument. -/
theorem handleMatch_arg (process : Str → Str) (aliases : Dict Str) (content : Str) (k : Kind) (m : Match) (h1 : k ≠ .footnotemark)
    (h2 : k ≠ .appendix) : handleMatch process aliases content k m =
      match extractNestedContent (content.drop (m.stop - 1)) '{' '}' with
      | none => .ok aliases .none m.stop
      | some (inner, e) =>
        match createToken aliases k m (process inner) with
        | none => .raised
        | some (aliases', out) => .ok aliases' out (m.stop + e - 1) := by
  cases k <;> first | rfl | exact absurd rfl h1 | exact absurd rfl h2

/-- **C48, progress**: whenever the handler is asked (some pattern matches), whatever the text, it either raises or returns a position
behind the beginning and not behind the end of the text. -/
theorem C48_progress (process : Str → Str) (aliases : Dict Str) (content : Str) (h : canHandle content = true) :
    handle process aliases content = .raised ∨
      ∃ aliases' out pos, handle process aliases content = .ok aliases' out pos ∧ 0 < pos ∧ pos ≤ content.length := by
  unfold canHandle at h
  cases hf : firstPattern content patterns with
  | none => rw [hf] at h; cases h
  | some km =>
    obtain ⟨k, m⟩ := km
    obtain ⟨b1, b2⟩ := match_bounds hf
    unfold handle
    rw [hf]
    simp only
    by_cases h1 : k = .footnotemark
    · subst h1; right; exact ⟨_, _, _, rfl, b1, b2⟩
    by_cases h2 : k = .appendix
    · subst h2; right; exact ⟨_, _, _, rfl, b1, b2⟩
    rw [handleMatch_arg _ _ _ _ _ h1 h2]
    cases he : extractNestedContent (content.drop (m.stop - 1)) '{' '}' with
    | none => right; exact ⟨_, _, _, rfl, b1, b2⟩
    | some ie =>
      obtain ⟨inner, e⟩ := ie
      have p1 := Loop.extract_pos _ _ _ _ _ he
      have p2 := (C01_content_balanced _ '{' '}' (by decide) _ _ he).2.1
      rw [List.length_drop] at p2
      cases hc : createToken aliases k m (process inner) with
      | none => left; simp only [hc]
      | some ao =>
        right
        obtain ⟨al, out⟩ := ao
        exact ⟨al, out, m.stop + e - 1, by simp only [hc], by omega, by omega⟩

/-- **C48, no exception**: the handler raises only at a closed `\hyperref{…}` without its optional argument. -/
theorem C48_raises_iff (process : Str → Str) (aliases : Dict Str) (content : Str) :
    handle process aliases content = .raised ↔
      ∃ m, firstPattern content patterns = some (.hyperref, m) ∧ m.group 1 = none ∧
        (extractNestedContent (content.drop (m.stop - 1)) '{' '}').isSome = true := by
  unfold handle
  cases hf : firstPattern content patterns with
  | none => simp
  | some km =>
    obtain ⟨k, m⟩ := km
    simp only [Option.some.injEq, Prod.mk.injEq]
    by_cases h1 : k = .footnotemark
    · subst h1; simp [handleMatch]
    by_cases h2 : k = .appendix
    · subst h2; simp [handleMatch]
    rw [handleMatch_arg _ _ _ _ _ h1 h2]
    constructor
    · intro h
      cases he : extractNestedContent (content.drop (m.stop - 1)) '{' '}' with
      | none => rw [he] at h; cases h
      | some ie =>
        rw [he] at h
        obtain ⟨inner, e⟩ := ie
        simp only at h
        cases hc : createToken aliases k m (process inner) with
        | none =>
          obtain ⟨rfl, hg⟩ := (createToken_none _ _ _ _).1 hc
          exact ⟨m, ⟨rfl, rfl⟩, hg, by rw [he]; rfl⟩
        | some ao => rw [hc] at h; cases h
    · rintro ⟨m', ⟨rfl, rfl⟩, hg, he⟩
      cases hx : extractNestedContent (content.drop (m.stop - 1)) '{' '}' with
      | none => rw [hx] at he; cases he
      | some ie =>
        obtain ⟨inner, e⟩ := ie
        simp only
        rw [(createToken_none _ _ _ _).2 ⟨rfl, hg⟩]

theorem hyper_tail_none (rev ws r : Str) (hws : ∀ x ∈ ws, isSpace x = true) :
    ∃ rev', ((Re.seq (.star reSpace) (.seq (optArg 1) openBrace)).run ⟨rev, ws ++ '{' :: r, []⟩).head? = some ⟨rev', r, []⟩ := by
  obtain ⟨l, hl⟩ := spaces_first rev ws ('{' :: r) [] hws (by intro c hc; simp at hc; subst hc; decide)
  exact ⟨_, head_seq hl (head_seq (optArg_skip 1 _ _ _ (by simp)) (openBrace_head _ [] _ _ (by simp)))⟩

/-- **C48 is false**: every `\hyperref{…}` without an optional argument (the old four-argument form begins so) raises an
AttributeError; the whole document is lost then (C30: `parse_file` returns an empty list on any exception). -/
theorem C48_violated_hyperref (aliases : Dict Str) (ws body rest : Str) (hws : ∀ x ∈ ws, isSpace x = true) (hb : Wrappable '{' '}' body) :
    handle id aliases ('\\' :: ("hyperref".toList ++ (ws ++ '{' :: (body ++ '}' :: rest)))) = .raised := by
  obtain ⟨rev, ht⟩ := hyper_tail_none ("hyperref".toList.reverse ++ ['\\']) ws (body ++ '}' :: rest) hws
  have h := handle_arg 11 (p := (.hyperref, .words ["hyperref".toList], .seq (.star reSpace) (.seq (optArg 1) openBrace)))
    rfl (by decide) (by decide) (w := "hyperref".toList) (by decide)
    (brace_stops ws _ hws) (by decide +kernel) (ciEqs_self (by decide)) ht hb id aliases
  rw [h, (createToken_none _ _ _ _).2 ⟨rfl, rfl⟩]

/-- Starred citation commands (`\citet*` gives the full author list in natbib) are not recognised. -/
theorem C47_violated_starred (u : Str) (hu : u ∈ citeCommands) (r : Str) : canHandle ('\\' :: (u ++ '*' :: r)) = false := by
  have hlow : ∀ u ∈ citeCommands, Lower u := by decide
  have hw : Word u ('*' :: r) := word_of (hlow u hu) (by intro c hc; simp at hc; subst hc; decide)
  have table : ∀ u ∈ citeCommands, ∀ q ∈ patterns, q.1 = .citation ∨ refusesB q u = true := by decide +kernel
  have tail : ∀ p ∈ patterns, p.1 = .citation → p.2.2 = .seq (.star reSpace) (.seq (optArg 1) (.seq (optArg 2) openBrace)) := by
    unfold patterns
    simp only [List.forall_mem_cons]
    refine ⟨?_, ?_, ?_, ?_, ?_, ?_, ?_, ?_, ?_, ?_, ?_, ?_, ?_, ?_, ?_, ?_, ?_, ?_, ?_, ?_, ?_, ?_, ?_, ?_, ?_, ?_, ?_, ?_, ?_,
      fun p hp => absurd hp (List.not_mem_nil)⟩ <;>
      first | exact fun h => absurd h (by decide) | exact fun _ => trivial
  have hrun : ∀ rev g, (Re.seq (.star reSpace) (.seq (optArg 1) (.seq (optArg 2) openBrace))).run ⟨rev, '*' :: r, g⟩ = [] := by
    intro rev g
    rw [seq_run, spaces_run]
    have hs : charRuns isSpace g rev ('*' :: r) = [⟨rev, '*' :: r, g⟩] := by simp [charRuns, show isSpace '*' = false by decide]
    rw [hs]
    simp only [List.flatMap_cons, List.flatMap_nil, List.append_nil]
    rw [seq_run, optArg_skip 1 _ _ _ (by simp)]
    simp only [List.flatMap_cons, List.flatMap_nil, List.append_nil]
    rw [seq_run, optArg_skip 2 _ _ _ (by simp)]
    simp only [List.flatMap_cons, List.flatMap_nil, List.append_nil]
    exact openBrace_miss _ _ _ _ (by decide) (by decide)
  have all : ∀ p ∈ patterns, (patternRe p).matchAt [] ('\\' :: (u ++ '*' :: r)) = none := by
    intro p hp
    rcases table u hu p hp with hk | hk
    · have hne : p.1 ≠ .footnotemark := by rw [hk]; decide
      have hpw := pattern_word p (patterns_low p hp) (patterns_noLetter p hp hne) hw
      by_cases ha : p.2.1.Accepts u
      · rw [hpw.1 ha, tail p hp hk, hrun]; rfl
      · exact hpw.2 ha
    · exact refuses_none hp hw (refusesB_sound (patterns_low p hp) (hlow u hu) hk)
  have := firstPattern_refuse patterns [] all
  rw [List.append_nil] at this
  unfold canHandle
  rw [this]
  rfl

example : handle id [] "\\citep[see][p.~3]{ a ,b, c} x".toList =
    .ok [] (.tok (plain "citation" (.keys ["a".toList, "b".toList, "c".toList]) (some "see, p.~3".toList))) 27 := by
  decide +kernel

example : (Notes.two "see".toList "p.~3".toList []).Ok ∧ Keys [" a ".toList, "b".toList, " c".toList] ∧
    joinWith [','] [" a ".toList, "b".toList, " c".toList] = " a ,b, c".toList := by
  refine ⟨⟨by decide, by decide, by decide⟩, ⟨by decide, by decide⟩, by decide⟩

example : handle id [("k".toList, "Paper I".toList)] "\\citetalias{k, m}".toList =
    .ok [("k".toList, "Paper I".toList)] (.toks [plain "citation" (.keys ["k".toList]) (some "Paper I".toList),
      plain "citation" (.keys ["m".toList]) none]) 17 := by
  decide +kernel

example : handle id [] "\\Cref{fig:a,tab:b}".toList =
    .ok [] (.tok (plain "ref" (.keys ["fig:a".toList, "tab:b".toList]) none)) 18 := by decide +kernel

example : handle id [] "\\hyperref{http://a}{b}{c}{text}".toList = .raised := by decide +kernel

end L2J.Content
