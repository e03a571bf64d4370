import Verif.Lemmas.SubstArgs
import Verif.Lemmas.Level
/-! C08: `substitute_args`. -/
namespace L2J
open Spec

theorem Spec.Reads.param_ne {t : Str} {ts : List Tok} (h : Reads t ts) {k : Nat} {ds : Str}
    (hm : Tok.param k ds ∈ ts) : ds ≠ [] := by
  induction h with
  | nil => simp at hm
  | esc rest ts _ ih => simp at hm; exact ih hm
  | param k' ds' rest ts hk hd _ _ _ ih =>
    simp at hm
    rcases hm with ⟨_, rfl⟩ | hm
    · exact hd
    · exact ih hm
  | lit c rest ts _ _ _ ih => simp at hm; exact ih hm

/-- No parameter token of level `k` has index 0 (`#0` is not a TeX parameter). -/
def NoZero (ts : List Tok) (k : Nat) : Prop := ∀ ds, Tok.param k ds ∈ ts → 1 ≤ digitsVal ds

theorem substAll_false (alpha : Char → Bool) (args : List (Option Str)) (k : Nat) : ∀ (ts : List Tok) (prev : Option Char),
    NoZero ts k → substAll alpha args false k prev ts = ts.flatMap (substTok args k)
  | [], _, _ => rfl
  | t :: ts, prev, h => by
    have ih := fun prev => substAll_false alpha args k ts prev (fun ds hd => h ds (by simp [hd]))
    simp only [substAll, ih, List.flatMap_cons]
    congr 1
    cases t with
    | lit c => rfl
    | escHash => rfl
    | param k' ds =>
      simp only [Bool.false_and, Bool.false_eq_true, if_false, substTok]
      by_cases hk : k' = k
      · subst hk
        have h1 := h ds (by simp)
        by_cases hn : digitsVal ds ≤ args.length
        · rw [if_pos ⟨rfl, hn⟩, if_pos ⟨rfl, h1, hn⟩]
          unfold pyArg
          rw [if_neg (by omega)]
          cases args[digitsVal ds - 1]? with
          | none => rfl
          | some a => cases a <;> rfl
        · rw [if_neg (fun h => hn h.2), if_neg (fun h => hn h.2.2)]
      · rw [if_neg (fun h => hk h.1), if_neg (fun h => hk h.1)]

theorem substAll_true (alpha : Char → Bool) (args : List (Option Str)) (k : Nat) : ∀ (ts : List Tok) (prev : Option Char),
    NoZero ts k → (∀ k' ds, Tok.param k' ds ∈ ts → ds ≠ []) →
    substAll alpha args true k prev ts = substMath alpha args k prev ts
  | [], _, _, _ => rfl
  | .lit c :: ts, prev, h, hne => by
    have ih := fun prev => substAll_true alpha args k ts prev (fun ds hd => h ds (by simp [hd]))
      (fun k' ds hd => hne k' ds (by simp [hd]))
    simp only [substAll, ih, substMath]
    simp [Tok.render]
  | .escHash :: ts, prev, h, hne => by
    have ih := fun prev => substAll_true alpha args k ts prev (fun ds hd => h ds (by simp [hd]))
      (fun k' ds hd => hne k' ds (by simp [hd]))
    simp only [substAll, ih, substMath]
    simp [Tok.render]
  | .param k' ds :: ts, prev, h, hne => by
    have ih := fun prev => substAll_true alpha args k ts prev (fun ds hd => h ds (by simp [hd]))
      (fun k' ds hd => hne k' ds (by simp [hd]))
    have hds := hne k' ds (by simp)
    have hls : ((Tok.param k' ds).render.getLast?).isSome = true := by simp [Tok.render, hds]
    simp only [substAll, ih, substMath, hls, if_true, substTok]
    congr 1
    by_cases hk : k' = k
    · subst hk
      have h1 := h ds (by simp)
      by_cases hn : digitsVal ds ≤ args.length
      · simp only [h1, hn, and_self, if_true, true_and]
        have e0 : pyArg args (digitsVal ds) = args[digitsVal ds - 1]? := by
          unfold pyArg; rw [if_neg (by omega)]
        rw [e0]
        have e2 : ∀ o : Option Char, (o.map alpha).getD false = alphaOpt alpha o := by
          intro o; cases o <;> rfl
        simp only [e2, Bool.true_and, Bool.and_eq_true, Bool.not_eq_true', List.isEmpty_eq_false_iff,
          Bool.or_eq_true]
        cases args[digitsVal ds - 1]? with
        | none => rfl
        | some a => cases a <;> rfl
      · simp [hn]
    · simp [hk]

/-- C08: the reading of a definition exists, and rendering it back gives the definition. -/
theorem C08_reading (definition : Str) : ∃ ts, Reads definition ts ∧ ts.flatMap Tok.render = definition := by
  obtain ⟨ts, h⟩ := exists_reads definition
  exact ⟨ts, h, h.render⟩

/-- C08: the reading is unique. -/
theorem C08_reading_unique {t : Str} {ts : List Tok} (h : Reads t ts) : ∀ {ts'}, Reads t ts' → ts = ts' := by
  have hp : ∀ {k ds rest}, 0 < k → ds ≠ [] → (∀ d ∈ ds, isDigit d = true) →
      ParamHere (List.replicate k '#' ++ ds ++ rest) := by
    intro k ds rest hk hds hd
    cases ds with
    | nil => exact absurd rfl hds
    | cons d ds => exact ⟨k, d, ds ++ rest, hk, hd d (by simp), by simp⟩
  induction h with
  | nil =>
    intro ts' h'
    generalize hz : ([] : Str) = z at h'
    cases h' with
    | nil => rfl
    | esc => cases hz
    | param k ds rest ts hk hds =>
      have := congrArg List.length hz
      simp at this; omega
    | lit => cases hz
  | esc rest ts _ ih =>
    intro ts' h'
    generalize hz : ('\\' :: '#' :: rest) = z at h'
    cases h' with
    | nil => cases hz
    | esc _ _ h3 =>
      injection hz with _ hz; injection hz with _ hz
      subst hz; rw [ih h3]
    | param k ds rest ts hk hds =>
      obtain ⟨n, rfl⟩ : ∃ n, k = n + 1 := ⟨k - 1, by omega⟩
      simp [List.replicate_succ] at hz
    | lit c _ _ h1 h2 h3 =>
      injection hz with a b
      exact absurd ⟨a.symm, by rw [← b]; rfl⟩ h1
  | param k ds rest ts hk hds hd hr hrest ih =>
    intro ts' h'
    generalize hz : List.replicate k '#' ++ ds ++ rest = z at h'
    cases h' with
    | nil =>
      have := congrArg List.length hz
      simp at this; omega
    | esc =>
      obtain ⟨n, rfl⟩ : ∃ n, k = n + 1 := ⟨k - 1, by omega⟩
      simp [List.replicate_succ] at hz
    | param k' ds' rest' ts' hk' hds' hd' hr' h3 =>
      obtain ⟨a1, a2⟩ := hs_ds_param k ds rest hk hds hd hr
      obtain ⟨b1, b2⟩ := hs_ds_param k' ds' rest' hk' hds' hd' hr'
      rw [hz] at a1 a2
      rw [a1] at b1
      have hkk : k = k' := by have := congrArg List.length b1; simpa using this
      have hdd : ds = ds' := a2.symm.trans b2
      subst hkk; subst hdd
      have := List.append_cancel_left hz
      subst this
      rw [ih h3]
    | lit c _ _ h1 h2 h3 =>
      rw [← hz] at h2
      exact absurd (hp hk hds hd) h2
  | lit c rest ts h1 h2 hrest ih =>
    intro ts' h'
    generalize hz : c :: rest = z at h'
    cases h' with
    | nil => cases hz
    | esc =>
      injection hz with a b
      exact absurd ⟨a, by rw [b]; rfl⟩ h1
    | param k ds rest ts hk hds hd =>
      rw [hz] at h2
      exact absurd (hp hk hds hd) h2
    | lit c' rest' ts' _ _ h3 =>
      injection hz with a b
      subst a; subst b
      rw [ih h3]

/-- C08 (partial), main statement, text mode. Full property: as stated but for every definition.
With `ts` the reading of the definition and `k` its minimal hash count, the result is the
token-by-token replacement `substTok` (arguments are inserted as they are, never rescanned).
Missing: definitions with a level-`k` token of index 0, for which the code inserts the *last*
argument (`C08_zero_violated`), and escaping by parity: `\\#1` is read as `\` `\#` `1`
(`C08_double_backslash_violated`). -/
theorem C08_substitute_partial (alpha : Char → Bool) (definition : Str) (args : List (Option Str))
    (ts : List Tok) (k : Nat) (hargs : args ≠ []) (hr : Reads definition ts) (hk : MinHashes ts k)
    (hz : NoZero ts k) :
    substituteArgs alpha definition args false = ts.flatMap (substTok args k) := by
  have hl := findIter_reads hr [] (by simp)
  have hmin := minHashes_iff.1 hk
  obtain ⟨ds, hds⟩ := hk.1
  have hpos := hr.param_pos hds
  unfold substituteArgs
  have : args.isEmpty = false := by cases args with
    | nil => exact absurd rfl hargs
    | cons => rfl
  simp only [this, Bool.false_eq_true, if_false, hl, hmin, Nat.not_lt.2 hpos]
  unfold Re.sub
  rw [sub_reads alpha args false k hr []]
  exact substAll_false alpha args k ts _ hz

/-- C08 (partial), math mode: as in text mode, and a non-empty replacement next to an alphabetic
character of the definition is wrapped in braces. Same exclusions. -/
theorem C08_substitute_math_partial (alpha : Char → Bool) (definition : Str) (args : List (Option Str))
    (ts : List Tok) (k : Nat) (hargs : args ≠ []) (hr : Reads definition ts) (hk : MinHashes ts k)
    (hz : NoZero ts k) :
    substituteArgs alpha definition args true = substMath alpha args k none ts := by
  have hl := findIter_reads hr [] (by simp)
  have hmin := minHashes_iff.1 hk
  obtain ⟨ds, hds⟩ := hk.1
  have hpos := hr.param_pos hds
  unfold substituteArgs
  have : args.isEmpty = false := by cases args with
    | nil => exact absurd rfl hargs
    | cons => rfl
  simp only [this, Bool.false_eq_true, if_false, hl, hmin, Nat.not_lt.2 hpos]
  unfold Re.sub
  rw [sub_reads alpha args true k hr []]
  exact substAll_true alpha args k ts _ hz (fun k' ds hd => hr.param_ne hd)

/-- C08: without arguments, or without parameter tokens, nothing changes. -/
theorem C08_identity (alpha : Char → Bool) (definition : Str) (args : List (Option Str)) (mathMode : Bool)
    (ts : List Tok) (hr : Reads definition ts) (h : args = [] ∨ ∀ k ds, Tok.param k ds ∉ ts) :
    substituteArgs alpha definition args mathMode = definition := by
  rcases h with rfl | h
  · rfl
  · have hl := findIter_reads hr [] (by simp)
    have : levels ts = [] := by
      cases hlev : levels ts with
      | nil => rfl
      | cons k l =>
        obtain ⟨ds, hds⟩ := mem_levels.1 (show k ∈ levels ts by rw [hlev]; simp)
        exact absurd hds (h k ds)
    unfold substituteArgs
    simp only [hl, this]
    cases args <;> rfl

/-- C08: `check_string_has_hash_number` and `substitute_args` agree on what a parameter is. -/
theorem C08_check_has_param (text : Str) (ts : List Tok) (hr : Reads text ts) :
    checkStringHasHashNumber text = true ↔ ∃ k ds, Tok.param k ds ∈ ts := by
  have key : ∀ {t : Str} {ts : List Tok}, Reads t ts → ∀ rev,
      ¬ (rev.head? = some '\\' ∧ t.head? = some '#') →
      ((noEscHashNumber.searchFrom rev t).isSome = true ↔ ∃ k ds, Tok.param k ds ∈ ts) := by
    intro t ts h
    induction h with
    | nil => intro rev _; simp [Re.searchFrom, noEsc_matchAt]
    | esc rest ts hr ih =>
      intro rev hrev
      have h1 : noEscHashNumber.matchAt rev ('\\' :: '#' :: rest) = none := by
        rw [noEsc_matchAt]; simp
      have h2 : noEscHashNumber.matchAt ('\\' :: rev) ('#' :: rest) = none := by
        rw [noEsc_matchAt]; simp
      simp only [Re.searchFrom, h1, h2]
      rw [ih _ (by simp)]
      simp
    | param k' ds rest ts hk hds hd hr hrd ih =>
      intro rev hrev
      obtain ⟨e1, e2⟩ := hs_ds_param k' ds rest hk hds hd hr
      have hm := noEsc_matchAt rev (List.replicate k' '#' ++ ds ++ rest)
      rw [e1, e2] at hm
      obtain ⟨n, rfl⟩ : ∃ n, k' = n + 1 := ⟨k' - 1, by omega⟩
      have hne : ¬ (rev.head? = some '\\' ∨ List.replicate (n + 1) '#' = [] ∨ ds = []) := by
        rintro (h | h | h)
        · exact hrev ⟨h, by simp [List.replicate_succ]⟩
        · simp at h
        · exact hds h
      rw [if_neg hne] at hm
      have e : List.replicate (n + 1) '#' ++ ds ++ rest = '#' :: (List.replicate n '#' ++ ds ++ rest) := by
        simp [List.replicate_succ]
      rw [e] at hm ⊢
      simp only [Re.searchFrom, hm]
      simp only [Option.isSome_some, List.mem_cons, true_iff]
      exact ⟨_, _, .inl rfl⟩
    | lit c rest ts h1 h2 _ ih =>
      intro rev hrev
      have hm := noEsc_matchAt rev (c :: rest)
      have h2' : hs (c :: rest) = [] ∨ dsOf (c :: rest) = [] := by
        rw [paramHere_iff] at h2
        by_cases h : hs (c :: rest) = []
        · exact .inl h
        · exact .inr (Decidable.byContradiction fun h' => h2 ⟨h, h'⟩)
      rw [if_pos (.inr h2')] at hm
      simp only [Re.searchFrom, hm]
      rw [ih _ (by simpa using h1)]
      simp
  exact key hr [] (by simp)

/-- C08 is violated for index 0: `#0` is replaced by the last argument. -/
theorem C08_zero_violated : ¬ ∀ (alpha : Char → Bool) (definition : Str) (args : List (Option Str))
    (ts : List Tok) (k : Nat), args ≠ [] → Reads definition ts → MinHashes ts k →
    substituteArgs alpha definition args false = ts.flatMap (substTok args k) := by
  intro h
  have hr : Reads "#0".toList [.param 1 ['0']] :=
    Reads.param 1 ['0'] [] [] (by decide) (by decide) (by decide) (by simp) .nil
  have := h (fun _ => false) "#0".toList [some "x".toList, some "y".toList] _ 1 (by decide) hr
    ⟨⟨['0'], by simp⟩, by simp⟩
  revert this; decide

/-- C08 is violated for escaping by parity: in `\\#1` the hash is preceded by two backslashes, so it
is not escaped (`is_escaped` says so), yet it is not substituted. -/
theorem C08_double_backslash_violated :
    liveAt "\\\\#1".toList '#' 2 = true ∧
    ∀ (alpha : Char → Bool) (m : Bool) (a : Str), substituteArgs alpha "\\\\#1".toList [some a] m = "\\\\#1".toList := by
  refine ⟨by decide, fun alpha m a => ?_⟩
  have hr : Reads "\\\\#1".toList [.lit '\\', .escHash, .lit '1'] := by
    refine .lit '\\' _ _ (by decide) ?_ (.esc ['1'] _ (.lit '1' [] _ (by decide) ?_ .nil))
    · rw [paramHere_iff]; decide
    · rw [paramHere_iff]; decide
  exact C08_identity alpha _ _ m _ hr (.inr (by simp))

/-- Non-vacuity (tests): nested levels, escapes, out-of-range index, no rescanning. -/
example : substituteArgs Char.isAlpha "a #1 \\#1 ##1 #2 #3".toList [some "x#2".toList, none] false
    = "a x#2 \\#1 ##1  #3".toList := by decide
example : substituteArgs Char.isAlpha "\\frac#1#2 x".toList [some "a".toList, some "b".toList] true
    = "\\frac{a}b x".toList := by decide
/-- A definition meeting all hypotheses of `C08_substitute_partial`. -/
example : ∃ ts, Reads "#1 ##2".toList ts ∧ MinHashes ts 1 ∧ NoZero ts 1 := by
  refine ⟨[.param 1 ['1'], .lit ' ', .param 2 ['2']],
    Reads.param 1 ['1'] " ##2".toList _ (by decide) (by decide) (by decide) (by decide)
      (.lit ' ' "##2".toList _ (by decide) ?_
        (Reads.param 2 ['2'] [] [] (by decide) (by decide) (by decide) (by simp) .nil)),
    ⟨⟨['1'], by simp⟩, ?_⟩, by simp [NoZero]; decide⟩
  · rw [paramHere_iff]; decide
  · intro k ds h; simp at h; omega

end L2J
