import Verif.Props.C52
/-! C53: cleaning up a formula ends. -/
namespace L2J.Eqn
open L2J Spec

/-- On the way through the text, the text of a saved box is put in by `\usebox`. -/
inductive _root_.L2J.Spec.Inserts {V} (fmt : Str → Str × Nat) (env : Boxes.Env V) : Boxes.State V → Str → Prop
  | here (st t s v n) : '\\' ∉ t → (fmt ('\\' :: s)).2 = 0 → "\\usebox".toList <+: '\\' :: s → Boxes.handle env st ('\\' :: s) = (st, some (.text v), n) →
      Inserts fmt env st (t ++ '\\' :: s)
  | keep (st t s) : '\\' ∉ t → Unclaimed fmt env st ('\\' :: s) → Inserts fmt env st s → Inserts fmt env st (t ++ '\\' :: s)
  | take (st t s st1 s1) : '\\' ∉ t → Replaced fmt env st ('\\' :: s) st1 s1 → Inserts fmt env st1 s1 → Inserts fmt env st (t ++ '\\' :: s)

/-- A handler whose answers are shorter than what they replace. -/
def _root_.L2J.Spec.Shortens (f : Str → Str × Nat) : Prop := ∀ s, 0 < (f s).2 → ((f s).1 ++ s.drop (f s).2).length < s.length

theorem stripDollars_len (s : Str) : (stripDollars s).length ≤ s.length := by
  have h : ∀ (t : Str), (t.dropWhile (· == '$')).length ≤ t.length := fun t => (List.dropWhile_suffix _).length_le
  unfold stripDollars
  rw [List.length_reverse]
  refine Nat.le_trans (h _) ?_
  rw [List.length_reverse]
  exact h _

theorem strip_len (s : Str) : (strip s).length ≤ s.length := by
  obtain ⟨p, q, _, _, e⟩ := strip_decomp s
  have := congrArg List.length e
  simp only [List.length_append] at this
  omega

/-- What the boxes do: they make the text shorter, unless a saved text is put in. -/
theorem box_shorter {V} {env : Boxes.Env V} (ho : Shortens fun s => (match (env.other s).1 with | some (.text v) => v | _ => [], (env.other s).2))
    {st st' : Boxes.State V} {s v : Str} {n : Nat} (h : Boxes.handle env st s = (st', some (.text v), n)) (hn : 0 < n) :
    (v ++ s.drop n).length < s.length ∨ (st' = st ∧ "\\usebox".toList <+: s) := by
  unfold Boxes.handle at h
  cases hs : Boxes.matchSet s with
  | some m =>
    exfalso
    rw [hs] at h
    unfold Boxes.handleSetbox at h
    simp only at h
    repeat' split at h
    all_goals cases h
  | none =>
    rw [hs] at h
    cases hv : Boxes.matchSaved s with
    | none =>
      rw [hv] at h
      injection h with h1 h2
      injection h2 with h2 h3
      have := ho s
      simp only [h2, h3] at this
      exact .inl (this hn)
    | some m =>
      right
      rw [hv] at h
      unfold Boxes.handleSaved at h
      simp only at h
      split at h
      · cases h
      · rename_i hnew
        split at h
        · split at h <;> cases h
        · rename_i hsb
          have hst : st' = st := by
            split at h
            · injection h with h1 _; exact h1.symm
            · cases h
          refine ⟨hst, ?_⟩
          unfold Boxes.matchSaved at hv
          split at hv
          · rename_i r
            split at hv
            · cases hv
            · rename_i k hk
              simp only at hv
              split at hv
              · cases hv
              · cases hv
                simp only at hnew hsb
                have hm := List.mem_of_find?_eq_some hk
                have hp := List.find?_some hk
                simp only [Boxes.keywords, List.mem_cons, List.not_mem_nil, or_false] at hm
                rcases hm with rfl | rfl | rfl | rfl | rfl
                · unfold startsWith at hp
                  rw [List.isPrefixOf_iff_prefix] at hp
                  obtain ⟨t, rfl⟩ := hp
                  exact ⟨t, rfl⟩
                · exact absurd (.inl rfl) hsb
                · exact absurd (.inr rfl) hsb
                · exact absurd (by decide) hnew
                · exact absurd (by decide) hnew
          · cases hv

/-- C53: cleaning up a formula ends, unless the text of a saved box is put in on the way. -/
theorem C53_ends_partial {V} (fmt : Str → Str × Nat) (env : Boxes.Env V) (hf : Shortens fmt)
    (ho : Shortens fun s => (match (env.other s).1 with | some (.text v) => v | _ => [], (env.other s).2)) (st : Boxes.State V) (s : Str) :
    (∃ N st' out, ∀ fuel, N ≤ fuel → stripLoop fmt env fuel st [] s = some (st', out)) ∨ Inserts fmt env st s := by
  have key : ∀ (n : Nat) (st : Boxes.State V) (s : Str), s.length ≤ n → (∃ st' out, Cleans fmt env st s st' out) ∨ Inserts fmt env st s := by
    intro n
    induction n with
    | zero =>
      intro st s hs
      have : s = [] := List.length_eq_zero_iff.1 (by omega)
      subst this
      exact .inl ⟨st, [], .done _ _ (by simp)⟩
    | succ n ih =>
      intro st s hs
      cases hb : findSub ['\\'] s with
      | none => exact .inl ⟨st, s, .done _ _ (fun hm => by
          have := (findSub_contains ['\\'] (by simp) s).2 (by
            obtain ⟨a, b, e⟩ := List.append_of_mem hm
            exact ⟨a, b, by rw [e]; simp⟩)
          rw [hb] at this; cases this)⟩
      | some i =>
        obtain ⟨t, q, rfl, ht, rfl⟩ := bs_split hb
        rw [List.length_append, List.length_cons] at hs
        have step : ∀ st1 s1, Replaced fmt env st ('\\' :: q) st1 s1 → s1.length < ('\\' :: q).length →
            (∃ st' out, Cleans fmt env st (t ++ '\\' :: q) st' out) ∨ Inserts fmt env st (t ++ '\\' :: q) := by
          intro st1 s1 hr hl
          rw [List.length_cons] at hl
          rcases ih st1 s1 (by omega) with ⟨st', out, h⟩ | h
          · exact .inl ⟨st', t ++ out, .take _ _ _ _ _ _ _ ht hr h⟩
          · exact .inr (.take _ _ _ _ _ ht hr h)
        by_cases h1 : 0 < (fmt ('\\' :: q)).2
        · exact step st _ (.fmt _ _ rfl h1) (hf _ h1)
        · have h1 : (fmt ('\\' :: q)).2 = 0 := by omega
          generalize hh : Boxes.handle env st ('\\' :: q) = res
          obtain ⟨st1, val, k⟩ := res
          by_cases h2 : 0 < k
          · have hdrop : (('\\' :: q).drop k).length < ('\\' :: q).length := by
              rw [List.length_drop, List.length_cons]; omega
            rcases hval : val with _ | (v | x)
            · subst hval
              exact step st1 _ (.box _ _ _ h1 hh h2 (by simp)) hdrop
            · subst hval
              rcases box_shorter ho hh h2 with h3 | ⟨rfl, h3⟩
              · refine step st1 _ (.text _ _ _ h1 hh h2) ?_
                have := stripDollars_len (strip v)
                have := strip_len v
                rw [List.length_append] at h3 ⊢
                omega
              · exact .inr (.here _ _ _ _ _ ht h1 h3 hh)
            · subst hval
              exact step st1 _ (.box _ _ _ h1 hh h2 (by simp)) hdrop
          · have h2 : (Boxes.handle env st ('\\' :: q)).2.2 = 0 := by rw [hh]; simp only; omega
            rcases ih st q (by omega) with ⟨st', out, h⟩ | h
            · exact .inl ⟨st', _, .keep _ _ _ _ _ ht ⟨h1, h2⟩ h⟩
            · exact .inr (.keep _ _ _ ht ⟨h1, h2⟩ h)
  rcases key s.length st s (Nat.le_refl _) with ⟨st', out, h⟩ | h
  · obtain ⟨N, hN⟩ := strip_cleans h
    exact .inl ⟨N, st', strip out, fun fuel hfu => by simpa using hN fuel hfu []⟩
  · exact .inr h

theorem save_all {V} (env : Boxes.Env V) (st : Boxes.State V) (n c r : Str) (h : BoxNameOk n) (hc : Wrappable '{' '}' c) :
    Boxes.handle env st ("\\sbox".toList ++ ('\\' :: n ++ ('{' :: (c ++ '}' :: r)))) =
      ({ st with saved := Dict.set st.saved n (Boxes.store env c) }, none, 5 + ('\\' :: n).length + (c.length + 2)) ∧
    ("\\sbox".toList ++ ('\\' :: n ++ ('{' :: (c ++ '}' :: r)))).drop (5 + ('\\' :: n).length + (c.length + 2)) = r := by
  have hm := Boxes.matchSaved_hit "sbox".toList .bare n ('{' :: (c ++ '}' :: r)) h (by simp; decide) (fun r => rfl)
  have hs : Boxes.matchSet ("\\sbox".toList ++ ('\\' :: n ++ ('{' :: (c ++ '}' :: r)))) = none := by
    unfold Boxes.matchSet; rw [if_neg]; exact Bool.false_ne_true
  simp only [Written.render] at hm
  have e : '\\' :: ("sbox".toList ++ ('\\' :: n ++ ('{' :: (c ++ '}' :: r)))) = "\\sbox".toList ++ ('\\' :: n ++ ('{' :: (c ++ '}' :: r))) := rfl
  rw [e] at hm
  have l : 1 + "sbox".toList.length + ('\\' :: n).length = ("\\sbox".toList ++ '\\' :: n).length := by
    rw [List.length_append]; rfl
  have hd : ("\\sbox".toList ++ ('\\' :: n ++ ('{' :: (c ++ '}' :: r)))).drop (1 + "sbox".toList.length + ('\\' :: n).length) = '{' :: (c ++ '}' :: r) := by
    rw [l, ← List.append_assoc, List.drop_left]
  constructor
  · unfold Boxes.handle
    rw [hs, hm]
    simp only
    unfold Boxes.handleSaved
    rw [if_neg (show ¬ startsWith "sbox".toList "new".toList = true by decide), if_pos (.inl rfl)]
    simp only [hd, Boxes.delimited_one c r hc]
    have hvn := Boxes.varName_render .bare n h
    simp only [Written.render] at hvn
    rw [hvn]
    rfl
  · have := congrArg (List.drop (c.length + 2)) hd
    rw [List.drop_drop] at this
    rw [show 5 + ('\\' :: n).length + (c.length + 2) = 1 + "sbox".toList.length + ('\\' :: n).length + (c.length + 2) from rfl, this,
      show '{' :: (c ++ '}' :: r) = ('{' :: (c ++ ['}'])) ++ r by simp, show c.length + 2 = ('{' :: (c ++ ['}'])).length by simp, List.drop_left]

/-- C53 does not hold for a box that is used in its own text: the loop of the parser never ends. -/
theorem C53_violated_box {V} (fmt : Str → Str × Nat) (env : Boxes.Env V) (hp : env.process = none) (n : Str) (hn : BoxNameOk n)
    (hf : ∀ s, (fmt ("\\sbox".toList ++ s)).2 = 0) (hf2 : ∀ s, (fmt ("\\usebox".toList ++ s)).2 = 0) (st : Boxes.State V) (fuel : Nat) :
    stripLoop fmt env fuel st [] ("\\sbox".toList ++ ('\\' :: n ++ ('{' :: (("\\usebox".toList ++ '\\' :: n) ++ '}' :: ("\\usebox".toList ++ '\\' :: n))))) = none := by
  have loop : ∀ (fuel : Nat) (st : Boxes.State V), Dict.get? st.saved n = some (some (.text ("\\usebox".toList ++ '\\' :: n))) →
      stripLoop fmt env fuel st [] ("\\usebox".toList ++ '\\' :: n) = none := by
    intro fuel
    induction fuel with
    | zero => intro st _; rfl
    | succ fuel ih =>
      intro st hst
      have hu := Boxes.handle_use env st .bare n [] hn (by simp)
      rw [hst] at hu
      rw [List.append_nil, show (some (some (Boxes.Value.text (V := V) ("\\usebox".toList ++ '\\' :: n)))).join = some (.text ("\\usebox".toList ++ '\\' :: n)) from rfl] at hu
      simp only [Written.render] at hu
      unfold stripLoop
      rw [show findSub ['\\'] ("\\usebox".toList ++ '\\' :: n) = some 0 from rfl]
      simp only [List.drop_zero, List.take_zero, List.append_nil]
      rw [hf2, if_neg (by omega), hu, if_pos (by simp only; omega)]
      simp only
      have hd : ("\\usebox".toList ++ '\\' :: n).drop (7 + ('\\' :: n).length) = [] := by
        rw [List.drop_eq_nil_iff, List.length_append, show "\\usebox".toList.length = 7 from rfl]; omega
      have ns : ∀ c ∈ "\\usebox".toList ++ '\\' :: n, isSpace c = false ∧ c ≠ '$' := by
        intro c hc
        rw [List.mem_append, List.mem_cons] at hc
        rcases hc with hc | rfl | hc
        · revert c; decide
        · decide
        · have := Boxes.nameOk_char hn c hc
          have h1 := Boxes.nameChar_facts c this
          refine ⟨h1.1, ?_⟩
          rintro rfl
          revert this; decide
      have hb : boxText (some (Boxes.Value.text (V := V) ("\\usebox".toList ++ '\\' :: n))) = "\\usebox".toList ++ '\\' :: n := by
        unfold boxText stripDollars
        simp only
        rw [Boxes.strip_no _ (fun c hc => (ns c hc).1)]
        generalize "\\usebox".toList ++ '\\' :: n = x at ns
        have hdw : ∀ y : Str, (∀ c ∈ y, c ∈ x) → y.dropWhile (· == '$') = y := by
          intro y hy
          cases y with
          | nil => rfl
          | cons c y => rw [List.dropWhile_cons, if_neg (by simp [(ns c (hy c (by simp))).2])]
        rw [hdw x (fun c h => h), hdw x.reverse (fun c h => by simpa using h), List.reverse_reverse]
      rw [hd, hb, List.append_nil]
      exact ih st hst
  cases fuel with
  | zero => rfl
  | succ fuel =>
    have hw : Wrappable '{' '}' ("\\usebox".toList ++ '\\' :: n) := by
      refine Boxes.wrappable_nobrace _ (fun c hc => ?_) ?_
      · rw [List.mem_append, List.mem_cons] at hc
        rcases hc with hc | rfl | hc
        · revert c; decide
        · decide
        · have := Boxes.nameChar_facts c (Boxes.nameOk_char hn c hc); exact ⟨this.2.1, this.2.2.1⟩
      · obtain ⟨x, y, rfl⟩ := (List.eq_nil_or_concat n).resolve_left hn.1
        have := Boxes.nameChar_facts y (Boxes.nameOk_char hn y (by simp))
        rw [show "\\usebox".toList ++ '\\' :: x.concat y = ("\\usebox".toList ++ '\\' :: x) ++ [y] by simp, List.getLast?_append]
        simpa using this.2.2.2.1
    have hs := save_all env st n ("\\usebox".toList ++ '\\' :: n) ("\\usebox".toList ++ '\\' :: n) hn hw
    generalize hS : "\\sbox".toList ++ ('\\' :: n ++ ('{' :: (("\\usebox".toList ++ '\\' :: n) ++ '}' :: ("\\usebox".toList ++ '\\' :: n)))) = S at hs ⊢
    have h0 : findSub ['\\'] S = some 0 := by rw [← hS]; rfl
    have h1 : (fmt S).2 = 0 := by rw [← hS]; exact hf _
    unfold stripLoop
    rw [h0]
    simp only [List.drop_zero, List.take_zero, List.append_nil]
    rw [h1, if_neg (by omega), hs.1, if_pos (by simp only; omega)]
    simp only [boxText, List.nil_append]
    rw [hs.2]
    refine loop fuel _ ?_
    simp only
    rw [Dict.get?_set]
    simp [Boxes.store, hp]

/-! Pairs `\name … \endname`. -/

theorem lit_match (l rev rest : Str) : (Re.lit l).matchAt rev rest = if l.isPrefixOf rest then some ⟨rev, rest, l.length, []⟩ else none := by
  rw [Re.matchAt_eq, Re.run_lit]
  split
  · rename_i h
    rw [List.isPrefixOf_iff_prefix] at h
    obtain ⟨t, rfl⟩ := h
    simp
  · rfl

theorem lit_searchFrom (l : Str) : ∀ (rest rev : Str), (Re.lit l).searchFrom rev rest =
    (findSub l rest).map fun i => ⟨(rest.take i).reverse ++ rev, rest.drop i, l.length, []⟩
  | [], rev => by
    unfold Re.searchFrom findSub
    rw [lit_match]
    cases l <;> simp [List.isPrefixOf]
  | c :: rest, rev => by
    unfold Re.searchFrom findSub
    rw [lit_match]
    by_cases h : l.isPrefixOf (c :: rest) = true
    · rw [if_pos h, if_pos h]; rfl
    · rw [if_neg h, if_neg h]
      simp only
      rw [lit_searchFrom l rest (c :: rev)]
      cases findSub l rest <;> simp

theorem lit_searchPos (l text : Str) (p : Nat) (hp : p ≤ text.length) :
    (Re.lit l).searchPos text p = (findSub l (text.drop p)).map fun i => (p + i, p + i + l.length) := by
  unfold Re.searchPos
  rw [lit_searchFrom]
  cases hf : findSub l (text.drop p) with
  | none => rfl
  | some i =>
    have hi : i ≤ (text.drop p).length := by
      have : ∀ (s : Str) (i : Nat), findSub l s = some i → i ≤ s.length := by
        intro s
        induction s with
        | nil => intro i h; unfold findSub at h; split at h <;> cases h; simp
        | cons c s ih =>
          intro i h
          unfold findSub at h
          split at h
          · cases h; simp
          · cases hs : findSub l s with
            | none => rw [hs] at h; cases h
            | some j => rw [hs] at h; cases h; have := ih j hs; simp; omega
      exact this _ _ hf
    rw [List.length_drop] at hi
    simp [Match.start, Match.stop, List.length_take, List.length_drop]
    omega

theorem searchPair_skip : ∀ (a q : Str), '\\' ∉ a → searchPair (a ++ q) = searchPair q
  | [], _, _ => rfl
  | c :: a, q, h => by
    simp only [List.mem_cons, not_or] at h
    rw [List.cons_append]
    conv => lhs; unfold searchPair
    have : matchPair (c :: (a ++ q)) = none := by
      unfold matchPair
      split
      · rename_i e; injection e with e _; exact absurd e.symm h.1
      · rfl
    rw [this]
    exact searchPair_skip a q h.2

theorem findSub_skip (x : Str) : ∀ (u q : Str), '\\' ∉ u → findSub ('\\' :: x) (u ++ q) = (findSub ('\\' :: x) q).map (· + u.length)
  | [], q, _ => by cases h : findSub ('\\' :: x) q <;> simp [h]
  | c :: u, q, h => by
    simp only [List.mem_cons, not_or] at h
    rw [List.cons_append]
    conv => lhs; unfold findSub
    rw [if_neg (by simp [List.isPrefixOf, h.1]), findSub_skip x u q h.2]
    cases findSub ('\\' :: x) q with
    | none => rfl
    | some i => simp; omega

theorem findSub_nobs (x u : Str) (h : '\\' ∉ u) : findSub ('\\' :: x) u = none := by
  have := findSub_skip x u [] h
  rw [List.append_nil] at this
  rw [this]; rfl

theorem pairPrefix_none {run after : Str} : ∀ n : Nat, (∀ k < n, findSub ("\\end".toList ++ run.take (k + 1)) (run.drop (k + 1) ++ after) = none) →
    pairPrefix run after n = none
  | 0, _ => rfl
  | n + 1, h => by
    unfold pairPrefix
    simp only
    rw [h n (by omega), if_neg (by simp)]
    exact pairPrefix_none n (fun k hk => h k (by omega))

theorem pairChar_brace : pairChar '{' = false := by decide

/-- The result of a conversion has no pair. -/
theorem search_converted (a n inner c : Str) (ha : '\\' ∉ a) (hn : '\\' ∉ n) (hi : '\\' ∉ inner) (hc : '\\' ∉ c) :
    searchPair (a ++ beginEnd n inner ++ c) = none := by
  have e : a ++ beginEnd n inner ++ c = a ++ ('\\' :: ("begin".toList ++ '{' :: ((n ++ '}' :: inner) ++ '\\' :: ("end".toList ++ '{' :: (n ++ '}' :: c))))) := by
    unfold beginEnd
    rw [show "\\begin{".toList = '\\' :: ("begin".toList ++ ['{']) from rfl, show "\\end{".toList = '\\' :: ("end".toList ++ ['{']) from rfl, show "}".toList = ['}'] from rfl]
    simp only [List.append_assoc, List.cons_append, List.nil_append]
  rw [e, searchPair_skip a _ ha]
  have h1 : '\\' ∉ n ++ '}' :: inner := by simp [hn, hi]
  have h2 : '\\' ∉ n ++ '}' :: c := by simp [hn, hc]
  generalize n ++ '}' :: inner = x at h1 ⊢
  generalize n ++ '}' :: c = y at h2 ⊢
  have t1 : ∀ (w z : Str), (∀ c ∈ w, pairChar c = true) → (w ++ '{' :: z).takeWhile pairChar = w ∧ (w ++ '{' :: z).dropWhile pairChar = '{' :: z := by
    intro w z hw
    rw [List.takeWhile_append_of_pos hw, List.dropWhile_append_of_pos hw]
    simp [pairChar_brace]
  have m1 : matchPair ('\\' :: ("begin".toList ++ '{' :: (x ++ '\\' :: ("end".toList ++ '{' :: y)))) = none := by
    unfold matchPair
    simp only
    obtain ⟨e1, e2⟩ := t1 "begin".toList (x ++ '\\' :: ("end".toList ++ '{' :: y)) (by decide)
    rw [e1, e2]
    refine pairPrefix_none _ (fun k hk => ?_)
    have hd : '\\' ∉ "begin".toList.drop (k + 1) ++ '{' :: x := by
      rw [List.mem_append, List.mem_cons]
      rintro (h | h | h)
      · have := List.mem_of_mem_drop h; revert this; decide
      · revert h; decide
      · exact h1 h
    rw [show "begin".toList.drop (k + 1) ++ '{' :: (x ++ '\\' :: ("end".toList ++ '{' :: y)) =
      ("begin".toList.drop (k + 1) ++ '{' :: x) ++ '\\' :: ("end".toList ++ '{' :: y) by simp]
    rw [show "\\end".toList ++ "begin".toList.take (k + 1) = '\\' :: ("end".toList ++ "begin".toList.take (k + 1)) from rfl, findSub_skip _ _ _ hd]
    have hx : "begin".toList.take (k + 1) = 'b' :: "egin".toList.take k := rfl
    unfold findSub
    rw [hx, if_neg (by simp [List.isPrefixOf]), findSub_nobs _ _ (by
      rw [List.mem_append, List.mem_cons]
      rintro (h | h | h)
      · revert h; decide
      · revert h; decide
      · exact h2 h)]
    rfl
  have m2 : matchPair ('\\' :: ("end".toList ++ '{' :: y)) = none := by
    unfold matchPair
    simp only
    obtain ⟨e1, e2⟩ := t1 "end".toList y (by decide)
    rw [e1, e2]
    refine pairPrefix_none _ (fun k hk => ?_)
    refine findSub_nobs _ _ ?_
    rw [List.mem_append, List.mem_cons]
    rintro (h | h | h)
    · have := List.mem_of_mem_drop h; revert this; decide
    · revert h; decide
    · exact h2 h
  unfold searchPair
  rw [m1]
  simp only
  rw [show "begin".toList ++ '{' :: (x ++ '\\' :: ("end".toList ++ '{' :: y)) = ("begin".toList ++ '{' :: x) ++ '\\' :: ("end".toList ++ '{' :: y) by simp,
    searchPair_skip _ _ (by
      rw [List.mem_append, List.mem_cons]
      rintro (h | h | h)
      · revert h; decide
      · revert h; decide
      · exact h1 h)]
  unfold searchPair
  rw [m2]
  simp only
  have := searchPair_skip ("end".toList ++ '{' :: y) [] (by
      rw [List.mem_append, List.mem_cons]
      rintro (h | h | h)
      · revert h; decide
      · revert h; decide
      · exact h2 h)
  rw [List.append_nil] at this
  rw [this]; rfl

/-- C53, conversion: a pair `\name … \endname` without other commands becomes `\begin{name} … \end{name}`. -/
theorem C53_pair_partial (a n inner c : Str) (hn : n ≠ []) (hl : ∀ x ∈ n, Cmds.isLetter x = true) (hpre : ¬ n <+: "end".toList ++ n)
    (ha : '\\' ∉ a) (hi : '\\' ∉ inner) (hi0 : ∀ x ∈ inner.head?, isWord x = false ∧ x ≠ '@') (hc : '\\' ∉ c) (fuel : Nat) :
    convertPairs (fuel + 2) (a ++ ('\\' :: n ++ inner ++ ("\\end".toList ++ n) ++ c)) =
      some (a ++ ("\\begin{".toList ++ n ++ "}".toList ++ inner ++ "\\end{".toList ++ n ++ "}".toList) ++ c) := by
  have hnb : '\\' ∉ n := fun h => by have := hl _ h; revert this; decide
  have e0 : a ++ ('\\' :: n ++ inner ++ ("\\end".toList ++ n) ++ c) = a ++ '\\' :: (n ++ (inner ++ '\\' :: ("end".toList ++ n ++ c))) := by simp
  rw [e0]
  have hlast : boundary n.getLast? (inner ++ '\\' :: ("end".toList ++ n ++ c)).head? = true := by
    obtain ⟨x, y, rfl⟩ := (List.eq_nil_or_concat n).resolve_left hn
    unfold boundary
    have hy := letter_word (hl y (by simp))
    cases inner with
    | nil => simp [hy]; decide
    | cons z inner => simp at hi0; simp [hy, hi0.1]
  have hs : searchPair (a ++ '\\' :: (n ++ (inner ++ '\\' :: ("end".toList ++ n ++ c)))) = some n := by
    rw [searchPair_skip a _ ha]
    have hp : ∀ x ∈ n, pairChar x = true := fun x hx => by unfold pairChar; rw [letter_word (hl x hx)]; rfl
    have hh : ∀ z ∈ (inner ++ '\\' :: ("end".toList ++ n ++ c)).head?, pairChar z = false := by
      intro z hz
      cases inner with
      | nil => simp at hz; subst hz; decide
      | cons y inner => simp at hz; subst hz; have := hi0 y (by simp); simp [pairChar, this.1, this.2]
    have t1 : (n ++ (inner ++ '\\' :: ("end".toList ++ n ++ c))).takeWhile pairChar = n := by
      rw [List.takeWhile_append_of_pos hp]
      cases hr : inner ++ '\\' :: ("end".toList ++ n ++ c) with
      | nil => simp
      | cons z r => rw [hr] at hh; simp [hh z (by simp)]
    have t2 : (n ++ (inner ++ '\\' :: ("end".toList ++ n ++ c))).dropWhile pairChar = inner ++ '\\' :: ("end".toList ++ n ++ c) := by
      rw [List.dropWhile_append_of_pos hp]
      cases hr : inner ++ '\\' :: ("end".toList ++ n ++ c) with
      | nil => simp
      | cons z r => rw [hr] at hh; simp [hh z (by simp)]
    have hm : matchPair ('\\' :: (n ++ (inner ++ '\\' :: ("end".toList ++ n ++ c)))) = some n := by
      unfold matchPair
      simp only
      rw [t1, t2]
      obtain ⟨m, hm⟩ : ∃ m, n.length = m + 1 := ⟨n.length - 1, by have := List.length_pos_iff.2 hn; omega⟩
      rw [hm]
      unfold pairPrefix
      rw [← hm, List.take_length, List.drop_length, List.nil_append]
      simp only [hlast, Bool.true_and]
      rw [if_pos]
      rw [findSub_contains _ (by simp)]
      exact ⟨inner, c, by simp⟩
    unfold searchPair
    rw [hm]
  have hf1 : findSub ('\\' :: n) (a ++ '\\' :: (n ++ (inner ++ '\\' :: ("end".toList ++ n ++ c)))) = some a.length := by
    rw [findSub_skip n a _ ha]
    unfold findSub
    rw [if_pos (by rw [List.isPrefixOf_iff_prefix]; exact ⟨_, rfl⟩)]
    simp
  have hf2 : findSub ("\\end".toList ++ n) (inner ++ '\\' :: ("end".toList ++ n ++ c)) = some inner.length := by
    rw [show "\\end".toList ++ n = '\\' :: ("end".toList ++ n) from rfl, findSub_skip _ inner _ hi]
    unfold findSub
    rw [if_pos (by rw [List.isPrefixOf_iff_prefix]; exact ⟨c, rfl⟩)]
    simp
  have hf3 : findSub ('\\' :: n) (inner ++ '\\' :: ("end".toList ++ n ++ c)) = none := by
    rw [findSub_skip n inner _ hi]
    unfold findSub
    rw [if_neg, findSub_nobs]
    · rfl
    · simp [hnb, hc]
    · rw [List.isPrefixOf_iff_prefix]
      rintro ⟨t, ht⟩
      have ht : n ++ t = ("end".toList ++ n) ++ c := (List.cons.inj ht).2
      have hlen : n.length ≤ ("end".toList ++ n).length := by rw [List.length_append]; omega
      exact hpre (List.prefix_of_prefix_length_le ⟨t, ht⟩ ⟨c, rfl⟩ hlen)
  generalize hS : a ++ '\\' :: (n ++ (inner ++ '\\' :: ("end".toList ++ n ++ c))) = S at *
  have lS : S.length = a.length + 1 + n.length + inner.length + (4 + n.length) + c.length := by
    rw [← hS]; simp; omega
  have d1 : S.drop (a.length + (n.length + 1)) = inner ++ '\\' :: ("end".toList ++ n ++ c) := by
    rw [← hS, show a ++ '\\' :: (n ++ (inner ++ '\\' :: ("end".toList ++ n ++ c))) = (a ++ '\\' :: n) ++ (inner ++ '\\' :: ("end".toList ++ n ++ c)) by simp,
      show a.length + (n.length + 1) = (a ++ '\\' :: n).length by simp, List.drop_left]
  have hx : extractNestedPattern S (.lit ('\\' :: n)) (.lit ("\\end".toList ++ n)) =
      some (a.length, a.length + (n.length + 1) + inner.length + (4 + n.length), inner) := by
    unfold extractNestedPattern
    rw [lit_searchPos _ _ _ (by omega), List.drop_zero, hf1]
    simp only [Option.map_some, Nat.zero_add, List.length_cons]
    unfold nestLoop
    rw [if_pos (by omega), lit_searchPos _ _ _ (by omega), lit_searchPos _ _ _ (by omega), d1, hf2, hf3]
    simp only [Option.map_some, Option.map_none, Nat.sub_self, if_true]
    simp only [List.length_append, show "\\end".toList.length = 4 from rfl]
    unfold slice
    rw [List.drop_take, d1]
    simp
  unfold convertPairs
  rw [hs]
  simp only [hx]
  have h1 : convertPairs (fuel + 1) inner = some inner := convert_none (noPair_plain hi) fuel
  rw [h1]
  simp only [Option.bind_some]
  have d2 : S.take a.length = a := by rw [← hS, List.take_left]
  have d3 : S.drop (a.length + (n.length + 1) + inner.length + (4 + n.length)) = c := by
    have := congrArg (List.drop (inner.length + (4 + n.length))) d1
    rw [List.drop_drop] at this
    rw [show a.length + (n.length + 1) + inner.length + (4 + n.length) = a.length + (n.length + 1) + (inner.length + (4 + n.length)) by omega, this,
      show inner ++ '\\' :: ("end".toList ++ n ++ c) = (inner ++ '\\' :: ("end".toList ++ n)) ++ c by simp,
      show inner.length + (4 + n.length) = (inner ++ '\\' :: ("end".toList ++ n)).length by simp; omega, List.drop_left]
  rw [d2, d3]
  conv => lhs; unfold convertPairs
  rw [search_converted a n inner c ha hnb hi hc]
  rfl

/-! A pair that is never found. -/

/-- The text after `k` rounds. -/
def growing (k : Nat) : Str := "\\array \\arraycolsep \\endarray ".toList ++ ((List.replicate k (beginEnd "array".toList [])).flatten ++ ".".toList)

theorem tail_none (x : Str) (hx : x = "array".toList ∨ x = "endarray".toList) : ∀ k : Nat,
    findSub ('\\' :: x) ((List.replicate k (beginEnd "array".toList [])).flatten ++ ".".toList) = none
  | 0 => by rcases hx with rfl | rfl <;> rfl
  | k + 1 => by
    have ih := tail_none x hx k
    rw [List.replicate_succ, List.flatten_cons, List.append_assoc]
    generalize (List.replicate k (beginEnd "array".toList [])).flatten ++ ".".toList = r at ih ⊢
    rw [show beginEnd "array".toList [] ++ r = [] ++ '\\' :: ("begin{array}".toList ++ '\\' :: ("end{array}".toList ++ r)) from rfl]
    have s1 : ∀ (u q : Str), '\\' ∉ u → ¬ x <+: u ++ q → findSub ('\\' :: x) q = none → findSub ('\\' :: x) ('\\' :: (u ++ q)) = none := by
      intro u q hu hp hq
      unfold findSub
      rw [if_neg (by rw [List.isPrefixOf_iff_prefix, List.cons_prefix_cons]; exact fun h => hp h.2), findSub_skip x u q hu, hq]
      rfl
    refine s1 _ _ (by decide) (by rintro ⟨t, ht⟩; rcases hx with rfl | rfl <;> simp at ht) (s1 _ _ (by decide) (by rintro ⟨t, ht⟩; rcases hx with rfl | rfl <;> simp at ht) ih)

/-- C53 does not hold for a command whose name begins with the name of the environment: it counts as a second beginning, the end of the
pair is not found, and `\begin{array}\end{array}` is put before the last character for ever. -/
theorem C53_violated_pair (fuel k : Nat) : convertPairs fuel (growing k) = none := by
  induction fuel generalizing k with
  | zero => rfl
  | succ fuel ih =>
    have t1 := tail_none "array".toList (.inl rfl) k
    have t2 := tail_none "endarray".toList (.inr rfl) k
    have hnext : (growing k).take ((growing k).length - 1) ++ beginEnd "array".toList [] ++ (growing k).drop ((growing k).length - 1) = growing (k + 1) := by
      unfold growing
      rw [List.replicate_succ', List.flatten_append, List.flatten_singleton]
      generalize (List.replicate k (beginEnd "array".toList [])).flatten = f
      generalize "\\array \\arraycolsep \\endarray ".toList = P
      rw [show P ++ (f ++ ".".toList) = (P ++ f) ++ ".".toList from (List.append_assoc ..).symm]
      rw [show ((P ++ f) ++ ".".toList).length - 1 = (P ++ f).length by rw [List.length_append, show ".".toList.length = 1 from rfl]; omega, List.take_left, List.drop_left]
      simp only [List.append_assoc]
    unfold convertPairs
    have hs : searchPair (growing k) = some "array".toList := by
      unfold growing
      generalize (List.replicate k (beginEnd "array".toList [])).flatten ++ ".".toList = r
      rfl
    have hx : extractNestedPattern (growing k) (.lit ('\\' :: "array".toList)) (.lit ("\\end".toList ++ "array".toList)) = none := by
      unfold growing
      generalize (List.replicate k (beginEnd "array".toList [])).flatten ++ ".".toList = r at t1 t2
      generalize hS : "\\array \\arraycolsep \\endarray ".toList ++ r = S
      have lS : S.length = 30 + r.length := by rw [← hS]; simp; omega
      have d0 : S.drop 0 = "\\array \\arraycolsep \\endarray ".toList ++ r := by rw [← hS]; rfl
      have d1 : S.drop 6 = " \\arraycolsep \\endarray ".toList ++ r := by rw [← hS]; rfl
      have d2 : S.drop 13 = "colsep \\endarray ".toList ++ r := by rw [← hS]; rfl
      have d3 : S.drop 29 = " ".toList ++ r := by rw [← hS]; rfl
      have f0 : findSub ('\\' :: "array".toList) (S.drop 0) = some 0 := by rw [d0]; rfl
      have f1 : findSub ('\\' :: "array".toList) (S.drop 6) = some 1 := by rw [d1]; rfl
      have f2 : findSub ("\\end".toList ++ "array".toList) (S.drop 6) = some 14 := by rw [d1]; rfl
      have f3 : findSub ('\\' :: "array".toList) (S.drop 13) = none := by
        rw [d2, show "colsep \\endarray ".toList ++ r = "colsep ".toList ++ '\\' :: ("endarray ".toList ++ r) from rfl, findSub_skip _ _ _ (by decide)]
        unfold findSub
        rw [if_neg (by simp [List.isPrefixOf]), findSub_skip _ _ _ (by decide), t1]; rfl
      have f4 : findSub ("\\end".toList ++ "array".toList) (S.drop 13) = some 7 := by rw [d2]; rfl
      have f5 : findSub ("\\end".toList ++ "array".toList) (S.drop 29) = none := by
        rw [d3, show "\\end".toList ++ "array".toList = '\\' :: "endarray".toList from rfl, findSub_skip _ _ _ (by decide), t2]; rfl
      unfold extractNestedPattern
      rw [lit_searchPos _ _ _ (by omega), f0]
      simp only [Option.map_some, show 0 + 0 + ('\\' :: "array".toList).length = 6 from rfl]
      rw [show S.length + 1 = S.length - 2 + 1 + 1 + 1 by omega]
      unfold nestLoop
      rw [if_pos (by omega), lit_searchPos _ _ _ (by omega), lit_searchPos _ _ _ (by omega), f1, f2]
      simp only [Option.map_some, show 6 + 1 + ('\\' :: "array".toList).length = 13 from rfl]
      rw [if_neg (by omega)]
      unfold nestLoop
      rw [if_pos (by omega), lit_searchPos _ _ _ (by omega), lit_searchPos _ _ _ (by omega), f3, f4]
      simp only [Option.map_some, Option.map_none, show 13 + 7 + ("\\end".toList ++ "array".toList).length = 29 from rfl]
      rw [if_neg (by omega)]
      unfold nestLoop
      rw [if_pos (by omega), lit_searchPos _ _ _ (by omega), f5]
      rfl
    rw [hs]
    simp only [hx]
    have hi : convertPairs fuel [] = none ∨ convertPairs fuel [] = some [] := by
      cases fuel with
      | zero => exact .inl rfl
      | succ m => exact .inr rfl
    rcases hi with hi | hi
    · rw [hi]; rfl
    · rw [hi, Option.bind_some, hnext]; exact ih (k + 1)

/-- So `$\array \arraycolsep \endarray .$` keeps the handler busy for ever. -/
theorem C53_violated_handle {V} (order : List Str) (ho : SomeOrder order) (process : Str → Str) (fmt : Str → Str × Nat) (env : Boxes.Env V) (st : State V) (fuel : Nat) :
    handle order process fmt env fuel st "$\\array \\arraycolsep \\endarray .$".toList = .running := by
  have hf := first_formula order ho (.inline (growing 0)) (by show '$' ∉ growing 0; decide) (by intro h; injection h with h; revert h; decide) []
  have e : Formula.render (.inline (growing 0)) ++ [] = "$\\array \\arraycolsep \\endarray .$".toList := by decide
  rw [e] at hf
  unfold handle
  rw [hf]
  simp only
  rw [if_neg (by decide), body_text (.inline (growing 0)) (growing 0) _ _ ⟨by decide, (C03_balance_iff _ _ _).1 (by decide)⟩]
  simp only
  rw [show handleLabels (growing 0) = (growing 0, []) by decide]
  simp only
  rw [C53_violated_pair fuel 0]

/-! Examples. -/

example : Shortens quietFmt := by intro s h; cases h

example : Shortens (fun s => (match (quietBox.other s).1 with | some (.text v) => v | _ => [], (quietBox.other s).2)) := by intro s h; cases h

/-- A formatting handler that takes `\quad`. -/
example : Shortens (fun s => if startsWith s "\\quad".toList then (" ".toList, 5) else ([], 0)) := by
  intro s h
  by_cases hs : startsWith s "\\quad".toList = true
  · unfold startsWith at hs
    have hp := hs
    rw [List.isPrefixOf_iff_prefix] at hp
    obtain ⟨t, rfl⟩ := hp
    simp [startsWith]
  · simp only [if_neg hs] at h; cases h

example : (stripLoop (V := Unit) (fun s => if startsWith s "\\quad".toList then (" ".toList, 5) else ([], 0)) quietBox 20 Boxes.empty [] "a\\quad\\alpha\\quad".toList).map (·.2) =
    some "a \\alpha".toList := by decide +kernel

example : convertPairs 2 "x \\cases a & b \\endcases.".toList = some "x \\begin{cases} a & b \\end{cases}.".toList := by decide +kernel

example : ¬ "cases".toList <+: "end".toList ++ "cases".toList := by decide
