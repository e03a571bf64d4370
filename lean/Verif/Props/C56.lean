import Verif.Spec.Items
import Verif.Props.C55
/-! C56: the items of a list. -/
namespace L2J.EnvT
open Spec

theorem matchPair_inv (s n : Str) (h : Eqn.matchPair s = some n) : PairAt s := by
  unfold Eqn.matchPair at h
  split at h
  · rename_i t
    generalize ha : t.takeWhile Eqn.pairChar = run at h
    generalize hb : t.dropWhile Eqn.pairChar = after at h
    have ht : t = run ++ after := by rw [← ha, ← hb, List.takeWhile_append_dropWhile]
    have hrun : ∀ x ∈ run, isWord x = true ∨ x = '@' := by
      intro x hx
      rw [← ha] at hx
      have := List.all_eq_true.1 List.all_takeWhile x hx
      simpa [Eqn.pairChar] using this
    have key : ∀ k, k ≤ run.length → Eqn.pairPrefix run after k = some n → PairAt ('\\' :: t) := by
      intro k
      induction k with
      | zero => intro _ h; cases h
      | succ k ih =>
        intro hk h
        unfold Eqn.pairPrefix at h
        simp only at h
        split at h
        · rename_i hc
          rw [Bool.and_eq_true, findSub_contains _ (by simp)] at hc
          obtain ⟨h1, x, y, hxy⟩ := hc
          rw [List.append_assoc, List.append_assoc] at hxy
          refine ⟨run.take (k + 1), x, y, ?_, ?_, fun z hz => hrun z (List.mem_of_mem_take hz), ?_⟩
          · rw [← hxy, ← List.append_assoc, List.take_append_drop, ht]
          · intro h0
            have := congrArg List.length h0
            rw [List.length_take, Nat.min_eq_left hk] at this
            cases this
          · rw [← hxy]
            simpa [Eqn.boundary] using h1
        · exact ih (by omega) h
    exact key _ (Nat.le_refl _) h
  · cases h

theorem noPairs_match {s : Str} (h : NoPairs s) (u v : Str) (e : s = u ++ v) : Eqn.matchPair v = none := by
  cases hm : Eqn.matchPair v with
  | none => rfl
  | some n => exact absurd (matchPair_inv v n hm) (h u v e)

/-- A command that starts in `v` does not reach beyond it if the next thing starts with a backslash. -/
theorem kw_local (w v R : Str) (hw : '\\' ∉ w) (hv : v ≠ []) (hR : R = [] ∨ R.head? = some '\\') (h : '\\' :: w <+: v ++ R) : '\\' :: w <+: v := by
  obtain ⟨t, ht⟩ := h
  rcases List.append_eq_append_iff.1 ht with ⟨a, h1, h2⟩ | ⟨a, h1, h2⟩
  · exact ⟨a, h1.symm⟩
  · cases a with
    | nil => exact ⟨[], by simpa using h1⟩
    | cons x a =>
      exfalso
      have hx : x = '\\' := by
        rcases hR with hR | hR
        · rw [hR] at h2; simp at h2
        · rw [h2] at hR; simpa using hR
      subst hx
      cases v with
      | nil => exact hv rfl
      | cons y v => simp at h1; exact hw (by rw [h1.2]; simp)

theorem isItem_iff (s : Str) : isItem s = true ↔ StartsCommand noWord "\\item".toList s := by
  unfold isItem StartsCommand startsWith
  rw [Bool.and_eq_true, List.isPrefixOf_iff_prefix]
  constructor
  · rintro ⟨⟨v, rfl⟩, h⟩
    refine ⟨v, rfl, ?_⟩
    rw [show ("\\item".toList ++ v).drop 5 = v from rfl] at h
    cases hv : v.head? with
    | none => rfl
    | some x => rw [hv] at h; simpa [noWord] using h
  · rintro ⟨v, rfl, h⟩
    refine ⟨⟨v, rfl⟩, ?_⟩
    rw [show ("\\item".toList ++ v).drop 5 = v from rfl]
    cases hv : v.head? with
    | none => rfl
    | some x => rw [hv] at h; simpa [noWord] using h

theorem groupMatch_none (s : Str) (h1 : ¬ "\\begin".toList <+: s) (h2 : ¬ "\\bgroup".toList <+: s) : groupMatch s = none := by
  unfold groupMatch
  rw [sharp_word, sharp_word]
  have e1 : ("\\begingroup".toList).isPrefixOf s = false := startsWith_false (p := "\\begingroup".toList) (fun h => h1 (List.IsPrefix.trans ⟨"group".toList, rfl⟩ h))
  have e2 : ("\\bgroup".toList).isPrefixOf s = false := startsWith_false h2
  rw [e1, e2]
  rfl

theorem envMatch_none (s : Str) (h1 : ¬ "\\begin".toList <+: s) (h2 : Eqn.matchPair s = none) : envMatch s = none := by
  unfold envMatch Envs.matchBegin
  rw [startsWith_false h1]
  simp [h2]

/-- Nothing starts in plain text. -/
theorem text_quiet (t R : Str) (ht : ItemText t) (hR : R = [] ∨ R.head? = some '\\') (hp : NoPairs (t ++ R)) (u v : Str) (e : t = u ++ v) (hv : v ≠ []) :
    envMatch (v ++ R) = none ∧ groupMatch (v ++ R) = none ∧ isItem (v ++ R) = false := by
  obtain ⟨h1, h2, h3⟩ := ht u v e
  have k1 : ¬ "\\begin".toList <+: v ++ R := fun h => h1 (kw_local "begin".toList v R (by decide) hv hR h)
  have k2 : ¬ "\\bgroup".toList <+: v ++ R := fun h => h2 (kw_local "bgroup".toList v R (by decide) hv hR h)
  refine ⟨envMatch_none _ k1 (noPairs_match hp u _ (by rw [e]; simp)), groupMatch_none _ k1 k2, ?_⟩
  cases hi : isItem (v ++ R) with
  | false => rfl
  | true =>
    obtain ⟨x, hx, hn⟩ := (isItem_iff _).1 hi
    obtain ⟨y, hy⟩ := kw_local "item".toList v R (by decide) hv hR ⟨x, hx.symm⟩
    have hy' : v = "\\item".toList ++ y := hy.symm
    exfalso
    refine h3 ⟨y, hy', ?_⟩
    rw [hy', List.append_assoc] at hx
    have := List.append_cancel_left hx
    cases y with
    | nil => rfl
    | cons z y => rw [← this] at hn; exact hn

theorem search_cons (c : Char) (s : Str) : search (c :: s) = if (envMatch (c :: s)).isSome || (groupMatch (c :: s)).isSome then some 0 else (search s).map (· + 1) := rfl

theorem searchItem_cons (c : Char) (s : Str) : searchItem (c :: s) = if isItem (c :: s) then some 0 else (searchItem s).map (· + 1) := rfl

theorem search_text : ∀ (t R : Str), ItemText t → (R = [] ∨ R.head? = some '\\') → NoPairs (t ++ R) →
    search (t ++ R) = (search R).map (· + t.length) ∧ searchItem (t ++ R) = (searchItem R).map (· + t.length)
  | [], R, _, _, _ => by simp
  | c :: t, R, ht, hR, hp => by
    obtain ⟨h1, h2, h3⟩ := text_quiet (c :: t) R ht hR hp [] (c :: t) rfl (by simp)
    rw [List.cons_append] at h1 h2 h3 ⊢
    have ih := search_text t R (fun u v e => ht (c :: u) v (by rw [e]; rfl)) hR (fun u v e => hp (c :: u) v (by rw [List.cons_append, e]; rfl))
    rw [search_cons, searchItem_cons, h1, h2, h3, ih.1, ih.2]
    simp only [Option.isSome_none, Bool.or_self, Bool.false_eq_true, if_false]
    constructor
    · cases search R <;> simp [Nat.add_assoc]
    · cases searchItem R <;> simp [Nat.add_assoc]

theorem block_head (b : Block) (hb : b.Ok) (rest : Str) : (b.render ++ rest).head? = some '\\' := by
  cases b with
  | env name b inner e =>
    obtain ⟨r, hr⟩ := begin_shape name b hb.2.2.2.2.1
    simp only [Block.render, hr]
    rfl
  | group k inner => cases k <;> rfl

theorem block_at (b : Block) (hb : b.Ok) (rest : Str) (hf : MayFollow noWord rest) (hp : NoPairs (b.render ++ rest)) :
    search (b.render ++ rest) = some 0 ∧ isItem (b.render ++ rest) = false ∧ tryHandle (b.render ++ rest) = .ok (some b.render.length) := by
  have hne : b.render ++ rest ≠ [] := fun h => by have := block_head b hb rest; rw [h] at this; cases this
  have hs : (envMatch (b.render ++ rest)).isSome = true ∨ (groupMatch (b.render ++ rest)).isSome = true → search (b.render ++ rest) = some 0 := by
    intro h
    cases hc : b.render ++ rest with
    | nil => exact absurd hc hne
    | cons x l =>
      rw [hc] at h
      unfold search
      rw [if_pos (by simpa using h)]
  cases b with
  | env name b inner e =>
    obtain ⟨h1, h2, h3, h4, h5, h6⟩ := hb
    have ht := tryMatch_env name inner b e rest ⟨h1, h2, h3⟩ h4 h5 h6
    obtain ⟨r, hr⟩ := begin_shape name b h5
    refine ⟨hs (.inl ?_), ?_, ?_⟩
    · cases he : envMatch ((Block.env name b inner e).render ++ rest) with
      | some _ => rfl
      | none =>
        unfold tryMatchEnv at ht
        rw [show b ++ inner ++ e ++ rest = (Block.env name b inner e).render ++ rest from rfl, he] at ht
        cases ht
    · simp only [Block.render, hr, List.append_assoc]
      rfl
    · unfold tryHandle
      rw [show (Block.env name b inner e).render ++ rest = b ++ inner ++ e ++ rest from rfl, ht]
      rfl
  | group k inner =>
    obtain ⟨h1, h2⟩ := hb
    have hg := tryMatchGroup_hit k inner rest h1 h2 hf
    have et : (Block.group k inner).render ++ rest = (groupCommands k).1 ++ (inner ++ (groupCommands k).2 ++ rest) := by
      simp only [Block.render, List.append_assoc]
    have hm : tryMatchEnv ((groupCommands k).1 ++ (inner ++ (groupCommands k).2 ++ rest)) = none := by
      have hn : Eqn.matchPair ((groupCommands k).1 ++ (inner ++ (groupCommands k).2 ++ rest)) = none := noPairs_match hp [] _ et
      unfold tryMatchEnv envMatch
      rw [group_noBegin, hn]
    refine ⟨hs (.inr ?_), ?_, ?_⟩
    · rw [et]
      cases hgm : groupMatch ((groupCommands k).1 ++ (inner ++ (groupCommands k).2 ++ rest)) with
      | some _ => rfl
      | none => unfold tryMatchGroup at hg; rw [hgm] at hg; cases hg
    · rw [et]; cases k <;> rfl
    · unfold tryHandle
      rw [et, hm, hg]
      rfl

theorem noPairs_suffix {s u v : Str} (h : NoPairs s) (e : s = u ++ v) : NoPairs v :=
  fun a b hab => h (u ++ a) b (by rw [e, hab, List.append_assoc])

theorem isItem_head {s : Str} (h : isItem s = true) : s.head? = some '\\' := by
  obtain ⟨v, rfl, _⟩ := (isItem_iff s).1 h
  rfl

theorem isItem_quiet {s : Str} (h : isItem s = true) (hp : NoPairs s) : envMatch s = none ∧ groupMatch s = none := by
  have hm := noPairs_match hp [] s rfl
  obtain ⟨v, rfl, _⟩ := (isItem_iff s).1 h
  have h1 : ¬ "\\begin".toList <+: "\\item".toList ++ v := by
    rintro ⟨t, ht⟩
    have := congrArg (fun l : Str => l[1]?) ht
    simp at this
  have h2 : ¬ "\\bgroup".toList <+: "\\item".toList ++ v := by
    rintro ⟨t, ht⟩
    have := congrArg (fun l : Str => l[1]?) ht
    simp at this
  exact ⟨envMatch_none _ h1 hm, groupMatch_none _ h1 h2⟩

theorem searchItem_some : ∀ (x next : Str), isItem next = true → ∃ n, searchItem (x ++ next) = some n
  | [], next, h => by
    cases next with
    | nil => cases h
    | cons c s => exact ⟨0, by rw [List.nil_append, searchItem_cons, if_pos h]⟩
  | c :: x, next, h => by
    obtain ⟨n, hn⟩ := searchItem_some x next h
    rw [List.cons_append, searchItem_cons, hn]
    split
    · exact ⟨_, rfl⟩
    · exact ⟨_, rfl⟩

theorem search_pos {s : Str} (h1 : envMatch s = none) (h2 : groupMatch s = none) (n : Nat) (h : search s = some n) : 0 < n := by
  cases s with
  | nil => cases h
  | cons c s =>
    rw [search_cons, h1, h2] at h
    cases hs : search s with
    | none => rw [hs] at h; simp at h
    | some k => rw [hs] at h; simp at h; omega

theorem mayFollow_next {x next : Str} (h : MayFollow noWord x) (hn : next = [] ∨ isItem next = true) : MayFollow noWord (x ++ next) := by
  cases x with
  | cons c x => exact h
  | nil =>
    rcases hn with rfl | hn
    · exact h
    · unfold MayFollow
      rw [List.nil_append, isItem_head hn]
      intro x hx
      cases hx
      rfl

/-- The search for the next item passes over the blocks. -/
theorem skip_spec (content next tail : Str) (hn : next = [] ∨ isItem next = true) (hp : NoPairs content) : ∀ (parts : List (Str × Block)) (fuel start : Nat) (last : Option Nat),
    content.drop start = partsRender parts ++ (tail ++ next) → PartsOk parts tail → content.length - start < fuel → start ≤ content.length →
    (next ≠ [] → skipEnvs content fuel start last = .ok (some (content.length - next.length))) ∧
    (next = [] → skipEnvs content fuel start last = .ok (some content.length) ∨
      (skipEnvs content fuel start last = .ok none ∧ last = none ∧ searchItem (content.drop start) = none)) := by
  intro parts
  induction parts with
  | nil =>
    intro fuel start last hd hok hf hs
    have hR : next = [] ∨ next.head? = some '\\' := hn.imp id isItem_head
    have hp' : NoPairs (tail ++ next) := noPairs_suffix hp (u := content.take start) (by rw [show tail ++ next = content.drop start from hd.symm, List.take_append_drop])
    have hlen : content.length - start = tail.length + next.length := by
      have := congrArg List.length hd
      simpa [partsRender] using this
    obtain ⟨e1, e2⟩ := search_text tail next hok hR hp'
    have hd' : content.drop start = tail ++ next := hd
    cases fuel with
    | zero => omega
    | succ fuel =>
      unfold skipEnvs
      rw [hd', e1, e2]
      constructor
      · intro hne
        have hi : isItem next = true := hn.resolve_left hne
        have hz : searchItem next = some 0 := by
          cases next with
          | nil => cases hi
          | cons c s => rw [searchItem_cons, if_pos hi]
        rw [hz]
        obtain ⟨q1, q2⟩ := isItem_quiet hi (noPairs_suffix hp' rfl)
        cases hs' : search next with
        | none => simp only [Option.map]; congr 2; omega
        | some k =>
          have := search_pos q1 q2 k hs'
          simp only [Option.map]
          rw [if_pos (by omega)]
          congr 2; omega
      · rintro rfl
        cases last with
        | none => exact .inr ⟨rfl, rfl, rfl⟩
        | some l => exact .inl rfl
  | cons p l ih =>
    intro fuel start last hd hok hf hs
    obtain ⟨t, b⟩ := p
    obtain ⟨ht, hb, hm, hl⟩ := hok
    have hd' : content.drop start = t ++ (b.render ++ (partsRender l ++ tail ++ next)) := by
      rw [hd]; simp [partsRender]
    have hp' : NoPairs (content.drop start) := noPairs_suffix hp (u := content.take start) (by rw [List.take_append_drop])
    rw [hd'] at hp'
    have hpb : NoPairs (b.render ++ (partsRender l ++ tail ++ next)) := noPairs_suffix hp' rfl
    obtain ⟨b1, b2, b3⟩ := block_at b hb _ (mayFollow_next hm hn) hpb
    obtain ⟨e1, e2⟩ := search_text t _ ht (.inr (block_head b hb _)) hp'
    have hbl : 0 < b.render.length := by
      cases hbr : b.render with
      | cons c s => simp
      | nil => rw [hbr] at b3; exfalso; have := block_head b hb []; rw [hbr] at this; cases this
    have hlen : content.length - start = t.length + (b.render.length + (partsRender l ++ tail ++ next).length) := by
      have := congrArg List.length hd'
      simpa using this
    have hd2 : content.drop (start + t.length) = b.render ++ (partsRender l ++ tail ++ next) := by
      rw [← List.drop_drop, hd', List.drop_left']; rfl
    have hd3 : content.drop (start + t.length + b.render.length) = partsRender l ++ (tail ++ next) := by
      rw [← List.drop_drop, hd2, List.drop_left', List.append_assoc]; rfl
    cases fuel with
    | zero => omega
    | succ fuel =>
      obtain ⟨i1, i2⟩ := ih fuel (start + t.length + b.render.length) (some (start + t.length + b.render.length)) hd3 hl (by omega) (by omega)
      cases hsi : searchItem (b.render ++ (partsRender l ++ tail ++ next)) with
      | none =>
        have hnext : next = [] := by
          rcases hn with h | h
          · exact h
          · obtain ⟨n, hn'⟩ := searchItem_some (b.render ++ (partsRender l ++ tail)) next h
            rw [show b.render ++ (partsRender l ++ tail) ++ next = b.render ++ (partsRender l ++ tail ++ next) by simp, hsi] at hn'
            cases hn'
        refine ⟨fun h => absurd hnext h, fun _ => ?_⟩
        unfold skipEnvs
        rw [hd', e2, hsi]
        cases last with
        | none => exact .inr ⟨rfl, rfl, rfl⟩
        | some l => exact .inl rfl
      | some k =>
        have step : skipEnvs content (fuel + 1) start last = skipEnvs content fuel (start + t.length + b.render.length) (some (start + t.length + b.render.length)) := by
          conv => lhs; unfold skipEnvs
          rw [hd', e1, e2, hsi, b1]
          simp only [Option.map, Nat.zero_add]
          rw [if_neg (by omega), hd2, b3]
        rw [step]
        refine ⟨i1, fun h => ?_⟩
        rcases i2 h with h | ⟨_, h, _⟩
        · exact .inl h
        · cases h

/-- The text of an item reaches to the end, or to a line end there. -/
theorem itemText_end : ∀ r : Str, searchItem r = none → ∃ n, itemText r = n ∧ n ≤ r.length ∧ (r.drop n = [] ∨ r.drop n = ['\n'])
  | [], _ => ⟨0, rfl, Nat.le_refl _, .inl rfl⟩
  | c :: s, h => by
    rw [searchItem_cons] at h
    cases hi : isItem (c :: s) with
    | true => rw [hi] at h; cases h
    | false =>
      rw [hi] at h
      have hs : searchItem s = none := by
        cases hs : searchItem s with
        | none => rfl
        | some k => rw [hs] at h; cases h
      obtain ⟨n, h1, h2, h3⟩ := itemText_end s hs
      unfold itemText
      rw [hi]
      by_cases he : c :: s = ['\n']
      · rw [if_pos (by simp [he])]
        exact ⟨0, rfl, Nat.zero_le _, .inr he⟩
      · rw [if_neg (by simpa using he), h1]
        exact ⟨n + 1, rfl, by simpa using h2, h3⟩

theorem partsOk_quiet (parts : List (Str × Block)) (tail next : Str) (hn : next = [] ∨ isItem next = true) (hok : PartsOk parts tail)
    (hp : NoPairs (partsRender parts ++ tail ++ next)) (hne : partsRender parts ++ tail ≠ []) : isItem (partsRender parts ++ tail ++ next) = false := by
  cases parts with
  | nil => exact (text_quiet tail next hok (hn.imp id isItem_head) hp [] tail rfl (by simpa [partsRender] using hne)).2.2
  | cons p l =>
    obtain ⟨t, b⟩ := p
    obtain ⟨ht, hb, hm, hl⟩ := hok
    have e : partsRender ((t, b) :: l) ++ tail ++ next = t ++ (b.render ++ (partsRender l ++ tail ++ next)) := by simp [partsRender]
    rw [e] at hp ⊢
    cases t with
    | nil => exact (block_at b hb _ (mayFollow_next hm hn) hp).2.1
    | cons c t => exact (text_quiet (c :: t) _ ht (.inr (block_head b hb _)) hp [] (c :: t) rfl (by simp)).2.2

theorem dropWhile_stop {a b : Str} (ha : ∀ x ∈ a, isSpace x = true) (hb : ∀ c ∈ b.head?, isSpace c = false) : (a ++ b).dropWhile isSpace = b := by
  rw [List.dropWhile_append_of_pos ha]
  cases b with
  | nil => rfl
  | cons c b => rw [List.dropWhile_cons_of_neg]; simp [hb c rfl]

theorem itemTitle_some (t rest : Str) (h : ']' ∉ t) : itemTitle ('[' :: (t ++ [']'] ++ rest)) = (some t, rest) := by
  have e : (t ++ [']'] ++ rest).takeWhile (· ≠ ']') = t := by
    rw [List.append_assoc, List.takeWhile_append_of_pos (fun x hx => by simp; exact fun hh => h (hh ▸ hx))]
    simp
  unfold itemTitle
  simp only [e]
  rw [show (t ++ [']'] ++ rest).drop t.length = ']' :: rest by simp, show (t ++ [']'] ++ rest).drop (t.length + 1) = rest by rw [← List.drop_drop]; simp]
  rfl

theorem itemTitle_none (s : Str) (h : s.head? ≠ some '[') : itemTitle s = (none, s) := by
  unfold itemTitle
  split
  · exact absurd rfl h
  · rfl

/-- Reading the start of an item. -/
theorem item_start (i : ListItem) (next : Str) (h : i.Ok) (hn : next = [] ∨ isItem next = true) :
    isItem (i.render ++ next) = true ∧
    ∃ r0, itemTitle (((i.render ++ next).drop 5).dropWhile isSpace) = (i.title, r0) ∧ r0.dropWhile isSpace = i.body ++ next := by
  obtain ⟨h1, h2, h3, h4, h5, h6, h7⟩ := h
  have er : i.render ++ next = "\\item".toList ++ (i.ws1 ++ (i.opt ++ (i.ws2 ++ i.body)) ++ next) := by
    simp only [ListItem.render, List.append_assoc]
  have hbh : ∀ c ∈ (i.body ++ next).head?, isSpace c = false ∧ c ≠ '[' := by
    intro c hc
    cases hb : i.body with
    | cons x l => rw [hb] at hc h5; exact h5 c hc
    | nil =>
      rw [hb] at hc
      rcases hn with rfl | hn
      · cases hc
      · rw [List.nil_append, isItem_head hn] at hc; cases hc; decide
  constructor
  · rw [isItem_iff, er]
    refine ⟨_, rfl, ?_⟩
    have hm := mayFollow_next h6 hn
    unfold MayFollow at hm
    cases hh : (i.ws1 ++ (i.opt ++ (i.ws2 ++ i.body)) ++ next).head? with
    | none => rfl
    | some x => exact hm x hh
  · rw [er, show ("\\item".toList ++ (i.ws1 ++ (i.opt ++ (i.ws2 ++ i.body)) ++ next)).drop 5 = i.ws1 ++ (i.opt ++ (i.ws2 ++ i.body)) ++ next from rfl]
    cases ht : i.title with
    | some t =>
      have eo : i.opt = '[' :: (t ++ [']']) := by unfold ListItem.opt; rw [ht]
      refine ⟨i.ws2 ++ (i.body ++ next), ?_, dropWhile_stop h2 (fun c hc => (hbh c hc).1)⟩
      rw [eo, List.append_assoc, dropWhile_stop h1 (fun c hc => by cases hc; decide)]
      rw [show '[' :: (t ++ [']']) ++ (i.ws2 ++ i.body) ++ next = '[' :: (t ++ [']'] ++ (i.ws2 ++ (i.body ++ next))) by simp]
      exact itemTitle_some t _ (h3 t ht)
    | none =>
      have eo : i.opt = [] := by unfold ListItem.opt; rw [ht]
      refine ⟨i.body ++ next, ?_, ?_⟩
      · rw [eo, show i.ws1 ++ ([] ++ (i.ws2 ++ i.body)) ++ next = (i.ws1 ++ i.ws2) ++ (i.body ++ next) by simp,
          dropWhile_stop (fun x hx => (List.mem_append.1 hx).elim (h1 x) (h2 x)) (fun c hc => (hbh c hc).1)]
        exact itemTitle_none _ (fun hc => (hbh '[' hc).2 rfl)
      · exact dropWhile_stop (a := []) (by simp) (fun c hc => (hbh c hc).1)

theorem item_token (b : Str) (h : ∀ c ∈ b.head?, isSpace c = false ∧ c ≠ '[') : (baseToken [] [] "item".toList (strip b)).content = strip b := by
  have hx : extractNestedContent (strip b) '[' ']' = none := by
    refine extract_other _ _ _ ?_ (by decide)
    obtain ⟨p, q, hp, hq, he⟩ := strip_decomp b
    cases hs : strip b with
    | nil => simp
    | cons x l =>
      have hpn : p = [] := by
        cases p with
        | nil => rfl
        | cons y p =>
          rw [he] at h
          have := (h y rfl).1
          rw [hp y (by simp)] at this
          cases this
      rw [hpn, hs] at he
      rw [he] at h
      have := h x rfl
      rw [List.dropWhile_cons_of_neg (by simp [this.1])]
      simp [this.2]
  unfold baseToken
  rw [hx]
  rfl

/-- C56: an item gives one token, with its title and its whole body: the blocks in it are passed over, whatever they contain (other
items, for instance). Reading goes on at the next item. -/
theorem C56_item (i : ListItem) (next : Str) (h : i.Ok) (hn : next = [] ∨ isItem next = true) (hp : NoPairs (i.render ++ next)) :
    ∃ k, handleItem (i.render ++ next) = .ok i.token k ∧
      ((i.render ++ next).drop k = next ∨ (next = [] ∧ (i.render ++ next).drop k = ['\n'])) := by
  obtain ⟨s1, r0, s2, s3⟩ := item_start i next h hn
  obtain ⟨h1, h2, h3, h4, h5, h6, h7⟩ := h
  have er : i.render ++ next = "\\item".toList ++ (i.ws1 ++ (i.opt ++ i.ws2)) ++ (i.body ++ next) := by
    simp only [ListItem.render, List.append_assoc]
  generalize hpre : "\\item".toList ++ (i.ws1 ++ (i.opt ++ i.ws2)) = pre at er
  have hstart : (i.render ++ next).length - (i.body ++ next).length = pre.length := by rw [er]; simp
  have hdrop : (i.render ++ next).drop pre.length = i.body ++ next := by rw [er, List.drop_left']; rfl
  have hpb : NoPairs (i.body ++ next) := noPairs_suffix hp er
  unfold handleItem
  rw [if_pos s1]
  simp only [s2, s3, hstart]
  by_cases hb : i.body = []
  · refine ⟨pre.length, ?_, .inl ?_⟩
    · have hz : itemText (i.body ++ next) = 0 := by
        rw [hb, List.nil_append]
        cases next with
        | nil => rfl
        | cons c s =>
          unfold itemText
          rw [if_pos]
          simp [hn.resolve_left (by simp)]
      rw [if_pos hz]
      unfold ListItem.token
      rw [if_pos hb]
    · rw [hdrop, hb, List.nil_append]
  · have hq : isItem (i.body ++ next) = false := partsOk_quiet i.parts i.tail next hn h4 hpb hb
    have hnz : itemText (i.body ++ next) ≠ 0 := by
      cases hbb : i.body with
      | nil => exact absurd hbb hb
      | cons x l =>
        rw [hbb] at hq h5
        rw [List.cons_append] at hq ⊢
        unfold itemText
        rw [hq, if_neg]
        · omega
        · have := (h5 x rfl).1
          simp only [Bool.false_or, decide_eq_true_eq]
          intro hh
          injection hh with hx
          rw [hx] at this
          cases this
    rw [if_neg hnz]
    obtain ⟨k1, k2⟩ := skip_spec (i.render ++ next) next i.tail hn hp i.parts ((i.render ++ next).length + 1) pre.length none
      (by rw [hdrop]; simp [ListItem.body]) h4 (by omega) (by rw [er]; simp)
    have htok : ∀ b, strip b = strip i.body → (⟨shownTitle i.title,
        (baseToken [] [] "item".toList (strip b)).content⟩ : Item) = ⟨(i.title.filter (· ≠ [])).map strip, strip i.body⟩ := by
      intro b hbb
      rw [hbb, item_token i.body h5]
      cases i.title with
      | none => rfl
      | some t => cases t <;> rfl
    have htok' : i.token = some ⟨(i.title.filter (· ≠ [])).map strip, strip i.body⟩ := by
      unfold ListItem.token
      rw [if_neg hb]
    rw [htok']
    have hslice : ∀ k, slice (i.render ++ next) pre.length (pre.length + k) = (i.body ++ next).take k := by
      intro k
      unfold slice
      rw [List.drop_take, hdrop]
      congr 1
      omega
    by_cases hne : next = []
    · rcases k2 hne with k | ⟨k, _, hsi⟩
      · rw [k]
        refine ⟨(i.render ++ next).length, ?_, .inl (by rw [hne]; simp)⟩
        have hl : (i.render ++ next).length = pre.length + (i.body ++ next).length := by rw [er, List.length_append]
        simp only [Option.getD_some]
        rw [hl, hslice, List.take_length, hne, List.append_nil, htok _ rfl]
      · rw [k]
        rw [hdrop] at hsi
        obtain ⟨n, t1, t2, t3⟩ := itemText_end _ hsi
        refine ⟨pre.length + n, ?_, ?_⟩
        · simp only [Option.getD_none, t1]
          rw [hslice, htok]
          rw [hne, List.append_nil] at t3 ⊢
          rcases t3 with t3 | t3
          · rw [List.take_of_length_le (List.drop_eq_nil_iff.1 t3)]
          · conv => rhs; rw [← List.take_append_drop n i.body, t3]
            rw [Content.strip_right (by simp; decide)]
        · rw [← List.drop_drop, hdrop]
          rcases t3 with t3 | t3
          · exact .inl (by rw [t3, hne])
          · exact .inr ⟨hne, t3⟩
    · rw [k1 hne]
      have hl : (i.render ++ next).length - next.length = pre.length + i.body.length := by rw [er]; simp; omega
      refine ⟨pre.length + i.body.length, ?_, .inl ?_⟩
      · simp only [Option.getD_some]
        rw [hl, hslice, List.take_left', htok _ rfl]
        rfl
      · rw [← List.drop_drop, hdrop, List.drop_left']
        rfl

/-- Items read one after the other: the tokens and what is left. -/
inductive _root_.L2J.Spec.ReadsItems : Str → List Item → Str → Prop
  | done (s : Str) : ReadsItems s [] s
  | step {s : Str} {tok : Option Item} {k : Nat} {l : List Item} {r : Str} : handleItem s = .ok tok k → 0 < k → ReadsItems (s.drop k) l r → ReadsItems s (tok.toList ++ l) r

def _root_.L2J.Spec.itemsRender : List ListItem → Str
  | [] => []
  | i :: l => i.render ++ itemsRender l

theorem itemsRender_head (l : List ListItem) (h : ∀ i ∈ l, i.Ok) : itemsRender l = [] ∨ isItem (itemsRender l) = true := by
  induction l with
  | nil => exact .inl rfl
  | cons i l ih => exact .inr (item_start i _ (h i (by simp)) (ih fun j hj => h j (by simp [hj]))).1

/-- C56: a list of items gives one token for each item with a body, in order, and nothing is left but a line end. -/
theorem C56_list (l : List ListItem) (h : ∀ i ∈ l, i.Ok) (hp : NoPairs (itemsRender l)) :
    ∃ r, ReadsItems (itemsRender l) (l.filterMap ListItem.token) r ∧ (r = [] ∨ r = ['\n']) := by
  induction l with
  | nil => exact ⟨[], .done [], .inl rfl⟩
  | cons i l ih =>
    have hl : ∀ j ∈ l, j.Ok := fun j hj => h j (by simp [hj])
    obtain ⟨r, hr, hr'⟩ := ih hl (noPairs_suffix hp rfl)
    obtain ⟨k, hk, hd⟩ := C56_item i (itemsRender l) (h i (by simp)) (itemsRender_head l hl) hp
    have e : (i :: l).filterMap ListItem.token = i.token.toList ++ l.filterMap ListItem.token := by
      cases ht : i.token with
      | none => rw [List.filterMap_cons_none ht]; rfl
      | some t => rw [List.filterMap_cons_some ht]; rfl
    have hpos : 0 < k := by
      cases k with
      | succ k => omega
      | zero =>
        exfalso
        have h5 : 5 ≤ (i.render).length := by simp [ListItem.render]
        rcases hd with hd | ⟨hd, hd'⟩
        · have := congrArg List.length hd
          simp at this
          simp [this] at h5
        · have := congrArg List.length hd'
          simp at this
          omega
    rw [e]
    rcases hd with hd | ⟨hn, hd⟩
    · exact ⟨r, .step hk hpos (by rw [show itemsRender (i :: l) = i.render ++ itemsRender l from rfl, hd]; exact hr), hr'⟩
    · refine ⟨['\n'], .step hk hpos ?_, .inr rfl⟩
      have hnil : l.filterMap ListItem.token = [] := by
        cases l with
        | nil => rfl
        | cons j l => have := congrArg List.length hn; simp [itemsRender, ListItem.render] at this
      rw [show itemsRender (i :: l) = i.render ++ itemsRender l from rfl, hd, hnil]
      exact .done _

/-- A check that is sufficient for `NoPairs`: `\\end` is never followed by a name. -/
def _root_.L2J.Spec.endsFree : Str → Bool
  | [] => true
  | c :: s => (!startsWith (c :: s) "\\end".toList || !(((c :: s).drop 4).head?.map fun x => isWord x || x == '@').getD false) && endsFree s

theorem endsFree_sound : ∀ s : Str, endsFree s = true → ∀ u v, s = u ++ ("\\end".toList ++ v) → ∀ x ∈ v.head?, ¬ (isWord x = true ∨ x = '@')
  | [], _, u, v, e, _, _ => by cases u <;> cases e
  | c :: s, h, u, v, e, x, hx => by
    unfold endsFree at h
    rw [Bool.and_eq_true] at h
    cases u with
    | cons y u => rw [List.cons_append] at e; injection e with _ e; exact endsFree_sound s h.2 u v e x hx
    | nil =>
      rw [List.nil_append] at e
      have h1 := h.1
      rw [e] at h1
      have : startsWith ("\\end".toList ++ v) "\\end".toList = true := by
        unfold startsWith
        rw [List.isPrefixOf_iff_prefix]
        exact ⟨v, rfl⟩
      rw [this, show ("\\end".toList ++ v).drop 4 = v from rfl, hx] at h1
      simpa using h1

theorem noPairs_of {s : Str} (h : endsFree s = true) : NoPairs s := by
  rintro u w e ⟨n, v, t, rfl, hn, hw, _⟩
  cases n with
  | nil => exact hn rfl
  | cons x n =>
    refine endsFree_sound s h (u ++ '\\' :: (x :: n ++ v)) (x :: n ++ t) ?_ x rfl (hw x (by simp))
    rw [e]
    simp

/-! A list in a list. -/

theorem noDelim_of_absent (kw name t : Str) (hk : kw ≠ []) (h : findSub kw t = none) : NoDelim kw name t := by
  rintro u d v rfl ⟨ws, _, rfl⟩
  have : (findSub kw (u ++ (kw ++ ws ++ '{' :: (name ++ ['}'])) ++ v)).isSome = true := by
    rw [findSub_contains _ hk]
    exact ⟨u, ws ++ '{' :: (name ++ ['}']) ++ v, by simp⟩
  rw [h] at this
  cases this

def item1 : ListItem :=
  ⟨[' '], none, [], [("a ".toList, .env "itemize".toList "\\begin{itemize}".toList "\\item b\n".toList "\\end{itemize}".toList)], " c\n".toList⟩

def item2 : ListItem := ⟨[], some "2.".toList, [' '], [], "\\itemsep d\n".toList⟩

def item3 : ListItem := ⟨[], none, ['\n'], [], []⟩

/-- A check that is sufficient for `ItemText`. -/
def _root_.L2J.Spec.itemTextB : Str → Bool
  | [] => true
  | c :: s => !startsWith (c :: s) "\\begin".toList && !startsWith (c :: s) "\\bgroup".toList && !isItem (c :: s) && itemTextB s

theorem itemTextB_sound : ∀ t : Str, itemTextB t = true → ItemText t
  | [], _, u, v, e => by
    have hv : v = [] := (List.append_eq_nil_iff.1 e.symm).2
    subst hv
    refine ⟨?_, ?_, ?_⟩
    · rintro ⟨x, hx⟩; cases hx
    · rintro ⟨x, hx⟩; cases hx
    · rintro ⟨x, hx, _⟩; cases hx
  | c :: s, h, u, v, e => by
    unfold itemTextB at h
    simp only [Bool.and_eq_true, Bool.not_eq_true'] at h
    cases u with
    | cons y u => rw [List.cons_append] at e; injection e with _ e; exact itemTextB_sound s h.2 u v e
    | nil =>
      rw [List.nil_append] at e
      subst e
      obtain ⟨⟨⟨h1, h2⟩, h3⟩, _⟩ := h
      refine ⟨fun hh => ?_, fun hh => ?_, fun hh => ?_⟩
      · rw [startsWith, List.isPrefixOf_iff_prefix.2 hh] at h1; cases h1
      · rw [startsWith, List.isPrefixOf_iff_prefix.2 hh] at h2; cases h2
      · rw [(isItem_iff _).2 hh] at h3; cases h3

theorem item1_ok : item1.Ok := by
  refine ⟨by decide, by decide, (fun t ht => by cases ht), ⟨itemTextB_sound _ (by decide +kernel), ⟨by decide, by decide, by decide +kernel, ?_, ⟨[], by simp, by decide +kernel⟩, ⟨[], by simp, by decide +kernel⟩⟩, ?_, itemTextB_sound _ (by decide +kernel)⟩, ?_, ?_, fun h => by cases h⟩
  · exact .plain _ (noDelim_of_absent _ _ _ (by decide) (by decide +kernel)) (noDelim_of_absent _ _ _ (by decide) (by decide +kernel))
  · intro x hx; cases hx; rfl
  · intro x hx; cases hx; decide
  · intro x hx; cases hx; rfl

theorem item2_ok : item2.Ok := by
  refine ⟨by decide, by decide, (fun t ht => by cases ht; decide), itemTextB_sound _ (by decide +kernel), ?_, ?_, fun h => by cases h⟩
  · intro x hx; cases hx; decide
  · intro x hx; cases hx; rfl

theorem item3_ok : item3.Ok := by
  refine ⟨by decide, by decide, (fun t ht => by cases ht), itemTextB_sound _ (by decide +kernel), ?_, ?_, fun _ => rfl⟩
  · intro x hx; cases hx
  · intro x hx; cases hx; rfl

example : itemsRender [item1, item2, item3] = "\\item a \\begin{itemize}\\item b\n\\end{itemize} c\n\\item[2.] \\itemsep d\n\\item\n".toList := by decide +kernel

/-- All hypotheses of `C56_list` are met. -/
example : ∃ r, ReadsItems (itemsRender [item1, item2, item3])
    [⟨none, "a \\begin{itemize}\\item b\n\\end{itemize} c".toList⟩, ⟨some "2.".toList, "\\itemsep d".toList⟩] r ∧ (r = [] ∨ r = ['\n']) := by
  have h := C56_list [item1, item2, item3]
    (by intro i hi; simp only [List.mem_cons, List.not_mem_nil, or_false] at hi; rcases hi with rfl | rfl | rfl; exact item1_ok; exact item2_ok; exact item3_ok)
    (noPairs_of (by decide +kernel))
  rw [show [item1, item2, item3].filterMap ListItem.token = [⟨none, "a \\begin{itemize}\\item b\n\\end{itemize} c".toList⟩, ⟨some "2.".toList, "\\itemsep d".toList⟩] by decide +kernel] at h
  exact h

/-! What does not hold. -/

/-- C56 fails for an item that has a title only: the title is lost. -/
theorem C56_violated_title : handleItem "\\item[Title]\n\\item b".toList = .ok none 13 := by decide +kernel

/-- It fails for a body that starts with a bracket: the bracket group is lost. -/
theorem C56_violated_bracket : handleItem "\\item[a] [b] c".toList = .ok (some ⟨some "a".toList, " c".toList⟩) 14 := by decide +kernel

/-- It fails for a title with a bracket in braces: the title is cut. -/
theorem C56_violated_cut : handleItem "\\item[{a]b}] c".toList = .ok (some ⟨some "{a".toList, "b}] c".toList⟩) 14 := by decide +kernel

/-- It fails for `\\item` written verbatim: the item ends there. -/
theorem C56_violated_verbatim : handleItem "\\item use \\verb|\\item| here".toList = .ok (some ⟨none, "use \\verb|".toList⟩) 16 := by decide +kernel

end L2J.EnvT
