import Verif.Props.C63d
/-! C63: `\ifx`, and what goes wrong. -/
namespace L2J.Cond
open Spec Defn Cmds Fmt

theorem texToken_eats {a rest : Str} {g} (ha : IfName a) (hr : ∀ c ∈ rest.head?, isNameChar c = false) : Eats texToken ('\\' :: a) rest g g :=
  Eats.left (Eats.seq (x := ['\\']) (Eats.optSome (Eats.lit _ _ _)) (Eats.plus_chr _ ha.1 ha.2 hr))

theorem sp_blank {ws : Str} (h : ∀ c ∈ ws, c = ' ') : Blank ws := by
  intro c hc; rw [h c hc]; decide

theorem ifx_eats {w1 a w2 b rest : Str} {g} (h1 : ∀ c ∈ w1, c = ' ') (h2 : ∀ c ∈ w2, c = ' ') (ha : IfName a) (hb : IfName b) (hr : ∀ c ∈ rest.head?, isNameChar c = false) :
    Eats ifxRe ("\\ifx".toList ++ (w1 ++ ('\\' :: a ++ (w2 ++ '\\' :: b)))) rest g g := by
  refine Eats.seq (Eats.lit _ _ _) (ws_eats (sp_blank h1) (by simp; decide) (Eats.seq (texToken_eats ha ?_) (ws_eats (sp_blank h2) (by simp; decide) (texToken_eats hb hr))))
  rw [List.append_assoc]
  exact head_blank (sp_blank h2) space_name (by simp; decide)

theorem replace_head (w s : Str) (h : ¬ Contains s ('\\' :: w)) : replace (('\\' :: w) ++ s) ('\\' :: w) [] = s := by
  unfold replace
  rw [replaceAux_hit _ _ _ (by simp), List.nil_append]
  have key : ∀ s : Str, ¬ Contains s ('\\' :: w) → replaceAux ('\\' :: w) [] 0 s = s := by
    intro s
    induction s with
    | nil => intro _; rfl
    | cons c s ih =>
      intro h
      rw [replaceAux_miss, ih]
      · rintro ⟨a, b, e⟩; exact h ⟨c :: a, b, by simp [e]⟩
      · rintro ⟨t, ht⟩; exact h ⟨[], t, by simp [ht]⟩
  exact key s h

/-- A command word occurs in `\a\b` only at the start of one of the two. -/
theorem two_contains {w a b : Str} (hw0 : w ≠ []) (hw : '\\' ∉ w) (ha : '\\' ∉ a) (hb : '\\' ∉ b) (h : Contains ('\\' :: a ++ '\\' :: b) ('\\' :: w)) : w <+: a ∨ w <+: b := by
  obtain ⟨u, v, e⟩ := h
  rw [List.append_assoc] at e
  cases u with
  | nil =>
    simp at e
    left
    have h1 : w <+: a ++ '\\' :: b := ⟨v, e.symm⟩
    rcases List.prefix_or_prefix_of_prefix h1 (List.prefix_append a ('\\' :: b)) with h | ⟨t, rfl⟩
    · exact h
    · cases t with
      | nil => simp
      | cons c t =>
        rw [List.prefix_append_right_inj] at h1
        obtain ⟨z, hz⟩ := h1
        simp at hz
        exact absurd (by rw [hz.1]; simp) hw
  | cons x u =>
    simp at e
    right
    -- the second backslash
    have key : ∀ (a u : Str), '\\' ∉ a → a ++ '\\' :: b = u ++ '\\' :: (w ++ v) → a = u ∨ ∃ u', b = u' ++ '\\' :: (w ++ v) := by
      intro a
      induction a with
      | nil =>
        intro u _ e
        cases u with
        | nil => exact .inl rfl
        | cons y u => simp at e; exact .inr ⟨u, e.2⟩
      | cons y a ih =>
        intro u hn e
        cases u with
        | nil => simp at e; exact absurd (by rw [e.1]; simp) hn
        | cons z u =>
          simp at e
          rcases ih u (by simp at hn; exact hn.2) e.2 with h | h
          · left; rw [e.1, h]
          · exact .inr h
    rcases key a u ha e.2 with rfl | ⟨u', rfl⟩
    · have := e.2
      simp at this
      exact ⟨v, this.symm⟩
    · exact absurd (by simp) hb

/-- C63: `\ifx\a\b X\else Y\fi`. -/
theorem C63_ifx (ns : List Str) (hns : ∀ m ∈ ns, IfName m) (hx0 : "x".toList ∉ ns) (w1 a w2 b x y rest : Str) (h1 : ∀ c ∈ w1, c = ' ') (h2 : ∀ c ∈ w2, c = ' ')
    (ha : IfName a) (hb : IfName b) (hab : ∀ w ∈ ["ifx".toList, "csname".toList], ¬ w <+: a ∧ ¬ w <+: b)
    (hx0' : ∀ c ∈ x.head?, isNameChar c = false) (hx : CondText ns true x) (hy : CondText ns true y) (hy0 : ∀ c ∈ y.head?, isWord c = false) (hr : ∀ c ∈ rest.head?, isWord c = false) :
    handle ns ("\\ifx".toList ++ (w1 ++ ('\\' :: a ++ (w2 ++ '\\' :: b))) ++ (x ++ ("\\else".toList ++ (y ++ ("\\fi".toList ++ rest))))) =
      .token "conditional-ifx".toList ('\\' :: a ++ '\\' :: b) (strip x) (strip y)
        ("\\ifx".toList ++ (w1 ++ ('\\' :: a ++ (w2 ++ '\\' :: b))) ++ x ++ "\\else".toList ++ y ++ "\\fi".toList).length := by
  have hX : ∀ c ∈ (x ++ ("\\else".toList ++ (y ++ ("\\fi".toList ++ rest)))).head?, isNameChar c = false := by
    cases x with
    | nil => simp; decide
    | cons c x => simpa using hx0'
  have hbr := branch_two hns hx hy hy0 hr
  generalize hT : x ++ ("\\else".toList ++ (y ++ ("\\fi".toList ++ rest))) = T at *
  have he := (ifx_eats (g := []) h1 h2 ha hb hX).matchAt []
  generalize hO : "\\ifx".toList ++ (w1 ++ ('\\' :: a ++ (w2 ++ '\\' :: b))) = O at *
  have hf : firstIf (O ++ T) (allIfs ns) = some ("ifx".toList, ⟨[], O ++ T, O.length, []⟩) := by
    have h0 : w1 ++ ('\\' :: a ++ (w2 ++ '\\' :: b)) ++ T = w1 ++ ('\\' :: (a ++ (w2 ++ '\\' :: b) ++ T)) := by simp
    unfold allIfs
    rw [firstIf_skip _ _ (by
      intro z hz
      obtain ⟨m, hm, rfl⟩ := List.mem_map.1 hz
      refine Dead.seq (Dead.lit fun hp => ?_)
      rw [← hO, show ("\\ifx".toList : Str) = "\\if".toList ++ "x".toList by decide, List.append_assoc, List.append_assoc, List.prefix_append_right_inj, h0] at hp
      have h3 := word_prefix (hns m hm).2 (head_blank (sp_blank h1) space_name (by simp; decide)) hp
      have : m = "x".toList := by
        obtain ⟨t, ht⟩ := h3
        have hne := (hns m hm).1
        cases m with
        | nil => exact absurd rfl hne
        | cons c m =>
          simp at ht
          simp [ht]
      exact hx0 (this ▸ hm))]
    rw [show defaults = defaults.take 1 ++ defaults.drop 1 from rfl, firstIf_skip _ _ (by
      intro z hz
      simp only [defaults, List.take, List.mem_cons, List.not_mem_nil, or_false] at hz
      subst hz
      rw [← hO, List.append_assoc]
      exact Dead.seq (Dead.lit (word_other (by decide))))]
    show firstIf (O ++ T) (("ifx".toList, ifxRe, ifxLiteral) :: _) = _
    rw [firstIf]
    simp only [he]
  have hbs : ∀ n, IfName n → '\\' ∉ n := fun n hn hc => (name_char_facts (hn.2 _ hc)).2.2.1 rfl
  have hsp : ∀ n, IfName n → ∀ c ∈ n, (c != ' ') = true := by
    intro n hn c hc
    have : c ≠ ' ' := by rintro rfl; exact absurd (hn.2 _ hc) (by decide)
    simpa using this
  have hfil : O.filter (· != ' ') = "\\ifx".toList ++ ('\\' :: a ++ '\\' :: b) := by
    have f1 : ∀ w : Str, (∀ c ∈ w, c = ' ') → w.filter (· != ' ') = [] := by
      intro w hw; rw [List.filter_eq_nil_iff]; intro c hc; rw [hw c hc]; decide
    rw [← hO]
    simp only [List.filter_append, f1 w1 h1, f1 w2 h2, List.nil_append, List.filter_cons]
    rw [List.filter_eq_self.2 (hsp a ha), List.filter_eq_self.2 (hsp b hb)]
    simp
  have hcs : findSub "\\csname".toList O = none := by
    cases hh : findSub "\\csname".toList O with
    | none => rfl
    | some i =>
      exfalso
      have hc := (findSub_contains "\\csname".toList (by simp) _).1 (show (findSub "\\csname".toList O).isSome = true by rw [hh]; rfl)
      obtain ⟨u, v, e⟩ := hc
      have e2 := congrArg (List.filter (· != ' ')) e
      rw [hfil] at e2
      simp only [List.filter_append] at e2
      rw [show "\\csname".toList.filter (· != ' ') = '\\' :: "csname".toList by decide] at e2
      have hc2 : Contains ('\\' :: "ifx".toList ++ '\\' :: (a ++ '\\' :: b)) ('\\' :: "csname".toList) := ⟨_, _, by rw [← e2]; simp⟩
      have hc3 : Contains ('\\' :: a ++ '\\' :: b) ('\\' :: "csname".toList) := by
        obtain ⟨u, v, e⟩ := hc2
        match u, e with
        | [], e => simp at e
        | [_], e => simp at e
        | [_, _], e => simp at e
        | [_, _, _], e => simp at e
        | _ :: _ :: _ :: _ :: u, e => exact ⟨u, v, by simp at e; simpa using e.2.2.2.2⟩
      rcases two_contains (by decide) (by decide) (hbs a ha) (hbs b hb) hc3 with h | h
      · exact (hab _ (by simp)).1 h
      · exact (hab _ (by simp)).2 h
  have hcond : condition "ifx".toList (O ++ T) ⟨[], O ++ T, O.length, []⟩ = ('\\' :: a ++ '\\' :: b, O.length) := by
    unfold condition
    have ht : (⟨[], O ++ T, O.length, []⟩ : Match).text = O := by unfold Match.text; simp
    simp only [ht, hfil, hcs]
    rw [if_neg, if_neg (by decide)]
    · rw [show ("\\ifx".toList : Str) = '\\' :: "ifx".toList by decide, replace_head]
      · simp [Match.stop]
      · intro hc
        rcases two_contains (by decide) (by decide) (hbs a ha) (hbs b hb) hc with h | h
        · exact (hab _ (by simp)).1 h
        · exact (hab _ (by simp)).2 h
    · rintro (e | e)
      · have e' := congrArg (fun s => s[3]?) e
        simp at e'
      · have e' := congrArg (fun s => s[1]?) e
        simp at e'
  unfold handle
  rw [hf]
  simp only
  unfold runIf
  simp only
  rw [if_neg (by decide), if_neg (by decide), if_neg (by decide), hcond]
  simp only
  have hnf : ('\\' :: a ++ '\\' :: b).filter (fun c => c != '{' && c != '}') ≠ "false".toList := by
    intro e
    have e' := congrArg List.head? e
    simp at e'
  have hfalse := C23_iffalse (delims ns) (O ++ T) O.length (strip x) (strip y) [] _ (by rw [List.drop_left]; exact hbr)
  rw [hfalse.2 _ hnf]
  simp only [Res.token.injEq, true_and]
  constructor
  · decide
  · simp [List.length_append]; omega

theorem hit_none {r : Re} {a : Str} (h : ∀ u v, a = u ++ v → v ≠ [] → Dead r v) (h0 : Dead r []) : r.hit a = none := by
  unfold Re.hit
  have := hit_skip (r := r) (a := a) (R := []) (by simpa using h)
  rw [List.append_nil] at this
  rw [this, show r.searchFrom a.reverse [] = r.matchAt a.reverse [] from rfl, h0.matchAt]
  rfl

/-- C63: a conditional that nothing closes is not taken; its text stays. -/
theorem C63_unclosed (ns : List Str) (hns : ∀ m ∈ ns, IfName m) (n x : Str) (h : Opens ns n x) (hown : n ∈ ns → n ∉ ownIfs) (hx0 : x ≠ []) (hx : NoCond true x) :
    handle ns ("\\if".toList ++ n ++ x) = .notHandled := by
  have hq : ∀ u v, x = u ++ v → v ≠ [] → Dead (compiled ns) v ∧ Dead fiRe v ∧ (true = true → Dead elseRe v ∧ Dead elsifRe v) := by
    intro u v e hv
    have := quiet_all (ns := ns) (R := []) hx e hv (by simp)
    simpa using this
  have hnp : ∀ w : Str, w ≠ [] → ¬ w <+: [] := by intro w hw hp; exact hw (List.prefix_nil.1 hp)
  have hloop : extractElseElseifFi (delims ns) x = .valueError := by
    unfold extractElseElseifFi
    rw [condLoop, if_pos ⟨List.length_pos_iff.2 hx0, by omega⟩, List.drop_zero]
    have : validMatches (delims ns) 1 x = [] := by
      unfold validMatches delims
      simp only
      rw [hit_none (fun u v e hv => (hq u v e hv).1) (compiled_dead fun w hw => hnp w ((show ∀ w ∈ ifWords, w ≠ [] by decide) w hw)),
        hit_none (fun u v e hv => (hq u v e hv).2.1) (fi_dead (hnp _ (by decide))),
        hit_none (fun u v e hv => ((hq u v e hv).2.2 rfl).1) (else_dead (hnp _ (by decide))),
        hit_none (fun u v e hv => ((hq u v e hv).2.2 rfl).2) (elsif_dead (hnp _ (by decide)) (hnp _ (by decide)))]
      rfl
    rw [this]
    rfl
  obtain ⟨g, hf⟩ := first_opens hns h
  unfold handle
  rw [hf]
  simp only
  have hname : (if n ∈ ns then n else "if".toList) ∉ ownIfs := by
    split
    · rename_i hm; exact hown hm
    · decide
  have hc := condition_name h ("\\if".toList ++ n ++ x) g
  generalize (if n ∈ ns then n else "if".toList) = name at *
  unfold runIf
  simp only
  rw [if_neg (fun e => hname (by rw [e]; decide)), if_neg (by
    rintro (e | e | e) <;> exact hname (by rw [e]; decide)), if_neg (fun e => hname (by rw [e]; decide)), hc]
  simp only
  unfold handleCond
  rw [List.drop_left, hloop]

/-- The hypotheses are met. -/
theorem C63_instance_text : CondText ["draft".toList] true " a \\ifdraft b\\else c\\fi\\ifmmode d\\fi. ".toList := by
  have hq : ∀ b t, (∀ w ∈ condBegins ++ branchBegins, (findSub w t).isSome = false) → NoCond b t := by
    intro b t h
    refine ⟨fun w hw hc => ?_, fun _ w hw hc => ?_⟩
    · have := h w (List.mem_append_left _ hw)
      rw [(findSub_contains w ((show ∀ w ∈ condBegins, w ≠ [] by decide) w hw) t).2 hc] at this; cases this
    · have := h w (List.mem_append_right _ hw)
      rw [(findSub_contains w ((show ∀ w ∈ branchBegins, w ≠ [] by decide) w hw) t).2 hc] at this; cases this
  refine CondText.cond true " a ".toList "draft".toList " b\\else c".toList "\\ifmmode d\\fi. ".toList (hq _ _ (by decide +kernel)) ?_ ?_ (by decide) ?_
  · exact .declared ⟨by decide, by decide⟩ ⟨by decide, by decide⟩ (by decide)
  · refine .plain _ _ ⟨?_, fun h => by cases h⟩
    intro w hw hc
    have := (show ∀ w ∈ condBegins, w ≠ [] ∧ (findSub w " b\\else c".toList).isSome = false by decide +kernel) w hw
    rw [(findSub_contains w this.1 _).2 hc] at this; cases this.2
  · refine CondText.cond true [] "mmode".toList " d".toList ". ".toList (hq _ _ (by decide +kernel)) ?_ (.plain _ _ (hq _ _ (by decide +kernel))) (by decide) (.plain _ _ (hq _ _ (by decide +kernel)))
    exact .undeclared ⟨⟨by decide, by decide⟩, by decide, by decide, by decide⟩ ⟨' ', by decide, by decide⟩

/-! Violations. -/

/-- C63 fails: what stands right behind a name that is not declared becomes part of the condition, and is lost. -/
theorem C63_violated_text_in_condition : handle [] "\\ifpdf{A}\\else B\\fi C".toList = .token "conditional-if".toList "pdf{A}".toList [] "B".toList 19 := by decide +kernel

/-- C63 fails: a formula with `\iff` makes the conditional unclosed. -/
theorem C63_violated_iff : handle ["draft".toList] "\\ifdraft $a\\iff b$\\else B\\fi C".toList = .notHandled := by decide +kernel

/-- C63 fails: a command that begins with `\or` ends the branch, and what follows it is lost. -/
theorem C63_violated_or : handle ["draft".toList] "\\ifdraft X \\origin Y\\else B\\fi C".toList = .token "conditional-draft".toList "draft".toList "X".toList "B".toList 30 := by decide +kernel

/-- C63 fails: the cases of `\ifcase` are lost. -/
theorem C63_violated_ifcase : handle [] "\\ifcase\\x A\\or B\\or C\\else D\\fi E".toList = .token "conditional-ifcase".toList "\\xA".toList [] "D".toList 31 := by decide +kernel

/-- C63 fails: a declared name stands for every longer name. -/
theorem C63_violated_prefix : handle ["a".toList] "\\ifabc A\\else B\\fi C".toList = .token "conditional-a".toList "a".toList "bc A".toList "B".toList 18 := by decide +kernel

/-- C63 fails: `\IfFileExists` needs a `\fi`. -/
theorem C63_violated_iffileexists : handle [] "\\IfFileExists{a}{b}{c} d".toList = .notHandled := by decide +kernel

/-- C63 fails: a name of one letter takes the `\fi` that closes it. -/
theorem C63_violated_short_name : handle [] "\\ifa\\fi C \\fi".toList = .token "conditional-if".toList "a\\fi".toList "C".toList [] 13 := by decide +kernel

/-- C63 fails: `\ifundefined` cannot be told from `\ifdefined`. -/
theorem C63_violated_undefined : handle [] "\\ifundefined\\x A\\else B\\fi C".toList = .token "conditional-ifdefined".toList "\\x".toList "A".toList "B".toList 26 ∧
    handle [] "\\ifdefined\\x A\\else B\\fi C".toList = .token "conditional-ifdefined".toList "\\x".toList "A".toList "B".toList 24 := by
  refine ⟨?_, ?_⟩ <;> decide +kernel

/-- C63 fails: `\ifthenelse` with two groups stops the program. -/
theorem C63_violated_two_groups : handle [] "\\ifthenelse{a}{b} d".toList = .raised := by decide +kernel

/-- C63 fails: an `\if` at the end of the text needs no `\fi`. -/
theorem C63_violated_at_end : handle [] "\\iftrue".toList = .token "conditional-if".toList "true".toList [] [] 7 := by decide +kernel

end L2J.Cond
