import Verif.Spec.Legacy
import Verif.Props.C56
import Verif.Props.C57
/-! C58: switches for fonts, sizes and colours. -/
namespace L2J.Legacy
open Spec

/-- The name table the code uses for a kind. -/
def names : Legacy.Kind → Dict Str
  | .font => fontMap
  | .size => sizeMap
  | .color => []

theorem table_names : ∀ k ∈ [Legacy.Kind.font, .size, .color], (∀ e ∈ switchTable k, ∃ m, (e.1.toList, m) ∈ names k) ∧ (∀ e ∈ names k, ∃ st, (String.ofList e.1, st) ∈ switchTable k) := by
  have : ∀ k ∈ [Legacy.Kind.font, .size, .color], (∀ e ∈ switchTable k, ((names k).any fun x => x.1 == e.1.toList) = true) ∧
      (∀ e ∈ names k, ((switchTable k).any fun x => x.1 == String.ofList e.1) = true) := by decide +kernel
  intro k hk
  obtain ⟨h1, h2⟩ := this k hk
  constructor
  · intro e he
    obtain ⟨x, hx, hx2⟩ := List.any_eq_true.1 (h1 e he)
    exact ⟨x.2, by rw [← (beq_iff_eq.1 hx2)]; exact hx⟩
  · intro e he
    obtain ⟨x, hx, hx2⟩ := List.any_eq_true.1 (h2 e he)
    exact ⟨x.2, by rw [← (beq_iff_eq.1 hx2)]; exact hx⟩

theorem kind_mem (k : Legacy.Kind) : k ∈ [Legacy.Kind.font, .size, .color] := by cases k <;> simp

theorem noLetter_iff (s : Str) : noLetter s = true ↔ NoLetterAt s := by
  unfold noLetter NoLetterAt
  cases h : s.head? with
  | none => simp
  | some c => simp

theorem isSome_name (d : Dict Str) (s : Str) : (nameMatch d ('\\' :: s)).isSome = true ↔ ∃ e ∈ d, ∃ r, s = e.1 ++ r ∧ NoLetterAt r := by
  unfold nameMatch
  simp only
  cases h : d.find? (fun e => startsWith s e.1 && noLetter (s.drop e.1.length)) with
  | none =>
    simp only [Option.isSome_none, Bool.false_eq_true, false_iff]
    rintro ⟨e, he, r, rfl, hr⟩
    have := List.find?_eq_none.1 h e he
    rw [List.drop_left, (noLetter_iff r).2 hr, show startsWith (e.1 ++ r) e.1 = true from List.isPrefixOf_iff_prefix.2 ⟨r, rfl⟩] at this
    exact this rfl
  | some e =>
    simp only [Option.isSome_some, true_iff]
    have h1 := List.find?_some h
    simp only [Bool.and_eq_true] at h1
    obtain ⟨r, hr⟩ := List.isPrefixOf_iff_prefix.1 h1.1
    refine ⟨e, List.mem_of_find?_eq_some h, r, hr.symm, ?_⟩
    rw [← noLetter_iff]
    rw [← hr, List.drop_left] at h1
    exact h1.2

theorem drop_run (p : Char → Bool) (l : Str) : l.drop (l.takeWhile p).length = l.dropWhile p := by
  induction l with
  | nil => rfl
  | cons c l ih => by_cases h : p c = true <;> simp [h, ih]

theorem color_iff (s : Str) : (colorMatch s).isSome = true ↔ ColorSwitch s := by
  constructor
  · intro h
    unfold colorMatch at h
    split at h
    · rename_i hs
      obtain ⟨r, rfl⟩ := List.isPrefixOf_iff_prefix.1 hs
      rw [show ("\\color".toList ++ r).drop 6 = r from rfl] at h
      simp only at h
      have hr : r = r.takeWhile isSpace ++ r.dropWhile isSpace := List.takeWhile_append_dropWhile.symm
      have hw : ∀ c ∈ r.takeWhile isSpace, isSpace c = true := fun c hc => List.all_eq_true.1 List.all_takeWhile c hc
      have hd : r.drop (r.takeWhile isSpace).length = r.dropWhile isSpace := drop_run _ _
      rw [hd] at h
      generalize hA : r.takeWhile isSpace = ws at *
      generalize hB : r.dropWhile isSpace = q at *
      have key : ∀ x : Str, (x.dropWhile isSpace).head? = some '{' → ∃ w y, x = w ++ '{' :: y ∧ ∀ c ∈ w, isSpace c = true := by
        intro x hx
        cases hy : x.dropWhile isSpace with
        | nil => rw [hy] at hx; cases hx
        | cons c y =>
          rw [hy] at hx
          injection hx with hx
          subst hx
          exact ⟨x.takeWhile isSpace, y, by rw [← hy, List.takeWhile_append_dropWhile], fun c hc => List.all_eq_true.1 List.all_takeWhile c hc⟩
      split at h
      · rename_i hb
        unfold Style.wordOption at hb
        split at hb
        · rename_i q'
          simp only at hb
          split at hb
          · rename_i hm
            simp only at hb
            obtain ⟨m1, m2⟩ := hm
            have hq : ∃ z, q' = q'.takeWhile isWord ++ ']' :: z := by
              have e := List.takeWhile_append_dropWhile (p := isWord) (l := q')
              have hd2 : q'.drop (q'.takeWhile isWord).length = q'.dropWhile isWord := drop_run _ _
              rw [hd2] at m2
              cases hz : q'.dropWhile isWord with
              | nil => rw [hz] at m2; cases m2
              | cons c z =>
                rw [hz] at m2
                injection m2 with m2
                subst m2
                exact ⟨z, by rw [← hz, e]⟩
            obtain ⟨z, hz⟩ := hq
            have hdz0 : ∀ m : Str, q' = m ++ ']' :: z → ('[' :: q').drop (m.length + 2) = z := by rintro m rfl; simp
            have hdz : ('[' :: q').drop ((q'.takeWhile isWord).length + 2) = z := hdz0 _ hz
            rw [hdz] at hb
            obtain ⟨w, y, rfl, hw2⟩ := key z hb
            rw [hr, hz]
            exact .model ws _ w y hw hw2 m1 (fun c hc => List.all_eq_true.1 List.all_takeWhile c hc)
          · simp only [List.drop_zero] at hb
            obtain ⟨w, y, hy, hw2⟩ := key _ hb
            cases w with
            | nil => cases hy
            | cons a w => injection hy with hy _; subst hy; have := hw2 '[' (by simp); cases this
        · simp only [List.drop_zero] at hb
          obtain ⟨w, y, rfl, hw2⟩ := key _ hb
          rw [hr, ← List.append_assoc ws]
          exact .plain _ y (fun c hc => by
            rcases List.mem_append.1 hc with hc | hc
            · exact hw c hc
            · exact hw2 c hc)
      · cases h
    · split at h
      · rename_i hs
        obtain ⟨r, rfl⟩ := List.isPrefixOf_iff_prefix.1 hs.1
        refine .normal r fun c hc => ?_
        have := hs.2
        rw [show ("\\normalcolor".toList ++ r).drop 12 = r from rfl, hc] at this
        simpa using this
      · cases h
  · intro h
    cases h with
    | plain ws r h1 =>
      obtain ⟨d1, d2⟩ := Style.dropWhile_ws' ws '{' r h1 (by decide)
      unfold colorMatch
      rw [if_pos (show startsWith ("\\color".toList ++ (ws ++ '{' :: r)) "\\color".toList = true from List.isPrefixOf_iff_prefix.2 ⟨_, rfl⟩),
        show ("\\color".toList ++ (ws ++ '{' :: r)).drop 6 = ws ++ '{' :: r from rfl]
      simp only [d2, List.drop_left]
      simp [Style.wordOption, show isSpace '{' = false from rfl]
    | model ws m ws' r h1 h2 h3 h4 =>
      obtain ⟨d1, d2⟩ := Style.dropWhile_ws' ws '[' (m ++ ']' :: (ws' ++ '{' :: r)) h1 (by decide)
      obtain ⟨d3, d4⟩ := Style.dropWhile_ws' ws' '{' r h2 (by decide)
      unfold colorMatch
      rw [if_pos (show startsWith ("\\color".toList ++ (ws ++ '[' :: (m ++ ']' :: (ws' ++ '{' :: r)))) "\\color".toList = true from List.isPrefixOf_iff_prefix.2 ⟨_, rfl⟩),
        show ("\\color".toList ++ (ws ++ '[' :: (m ++ ']' :: (ws' ++ '{' :: r)))).drop 6 = ws ++ '[' :: (m ++ ']' :: (ws' ++ '{' :: r)) from rfl]
      simp only [d2, List.drop_left, Style.wordOption_hit m _ h3 h4]
      have e : ('[' :: (m ++ ']' :: (ws' ++ '{' :: r))).drop (m.length + 2) = ws' ++ '{' :: r := by
        rw [show '[' :: (m ++ ']' :: (ws' ++ '{' :: r)) = ('[' :: (m ++ [']'])) ++ (ws' ++ '{' :: r) by simp, show m.length + 2 = ('[' :: (m ++ [']'])).length by simp, List.drop_left]
      rw [e, d3]
      rfl
    | normal r h1 =>
      unfold colorMatch
      rw [Style.lit_miss _ _ _ (by decide +kernel), if_neg (by simp), if_pos]
      · rfl
      · refine ⟨List.isPrefixOf_iff_prefix.2 ⟨_, rfl⟩, ?_⟩
        rw [show ("\\normalcolor".toList ++ r).drop 12 = r from rfl]
        cases hc : r.head? with
        | none => simp
        | some c => simp [h1 c hc]

/-- The patterns match exactly the switches of their kind. -/
theorem switch_iff (k : Legacy.Kind) (s : Str) : (k.match s).isSome = true ↔ SwitchAt k s := by
  have hname : ∀ k', k' ≠ .color → (nameMatch (names k') s).isSome = true → SwitchAt k' s := by
    intro k' hk h
    cases s with
    | nil => cases h
    | cons c s =>
      by_cases hc : c = '\\'
      · subst hc
        obtain ⟨e, he, r, rfl, hr⟩ := (isSome_name _ _).1 h
        obtain ⟨st, hst⟩ := (table_names k' (kind_mem k')).2 e he
        have := SwitchAt.name r hst hr
        rw [String.toList_ofList] at this
        exact this
      · unfold nameMatch at h
        split at h
        · rename_i heq; injection heq with heq _; exact absurd heq hc
        · cases h
  have hback : ∀ k' s', SwitchAt k' s' → k' ≠ .color → (nameMatch (names k') s').isSome = true := by
    intro k' s' h hk
    cases h with
    | name r h1 h2 =>
      obtain ⟨m, hm⟩ := (table_names k' (kind_mem k')).1 _ h1
      exact (isSome_name _ _).2 ⟨_, hm, r, rfl, h2⟩
    | color h => exact absurd rfl hk
  cases k with
  | font => exact ⟨hname .font (by simp), fun h => hback _ _ h (by simp)⟩
  | size => exact ⟨hname .size (by simp), fun h => hback _ _ h (by simp)⟩
  | color =>
    show (colorMatch s).isSome = true ↔ _
    rw [color_iff]
    constructor
    · exact .color
    · intro h
      cases h with
      | name r h1 h2 => cases h1
      | color h => exact h

/-! The end of the text a switch is for. -/

theorem findStop_cons (k : Legacy.Kind) (prev : Option Char) (c : Char) (s : Str) : findStop k prev (c :: s) =
    if (k.match (c :: s)).isSome || (c = '{' && prev ≠ some '\\') then some 0 else (findStop k (some c) s).map (· + 1) := rfl

theorem findStop_text (k : Legacy.Kind) (t R : Str) (prev : Option Char) (h1 : ∀ u v, t = u ++ v → v ≠ [] → ¬ SwitchAt k (v ++ R))
    (h2 : ∀ u v, t = u ++ '{' :: v → (prev.toList ++ u).getLast? = some '\\') :
    findStop k prev (t ++ R) = (findStop k (t.getLast?.or prev) R).map (· + t.length) := by
  induction t generalizing prev with
  | nil => simp
  | cons c t ih =>
    have hm : (k.match (c :: (t ++ R))).isSome = false := by
      cases hh : (k.match (c :: (t ++ R))).isSome with
      | false => rfl
      | true => exact absurd ((switch_iff k _).1 hh) (h1 [] (c :: t) rfl (by simp))
    have hb : (decide (c = '{') && decide (prev ≠ some '\\')) = false := by
      by_cases hc : c = '{'
      · subst hc
        have := h2 [] t rfl
        cases prev with
        | none => cases this
        | some x => simp at this; simp [this]
      · simp [hc]
    rw [List.cons_append, findStop_cons, hm, hb, if_neg (by simp), ih]
    · have e : ((c :: t).getLast?).or prev = (t.getLast?).or (some c) := by
        cases t with
        | nil => rfl
        | cons d t => simp [List.getLast?_cons]
      rw [e]
      cases findStop k ((t.getLast?).or (some c)) R <;> simp [Nat.add_assoc]
    · intro u v e; exact h1 (c :: u) v (by simp [e])
    · intro u v e
      have := h2 (c :: u) v (by simp [e])
      cases u with
      | nil => simpa using this
      | cons d u => simpa [List.getLast?_cons, List.getLast?_append] using this

theorem findStop_quiet {k : Legacy.Kind} {t R : Str} (h : QuietPiece k t R) : findStop k none (t ++ R) = (findStop k t.getLast? R).map (· + t.length) := by
  have := findStop_text k t R none (fun u v e hv => (h.1 u v e hv).1) (fun u v e => by simpa using h.2.1 u v e)
  simpa using this

theorem findStop_switch {k : Legacy.Kind} {s : Str} (h : SwitchAt k s) (prev : Option Char) : findStop k prev s = some 0 := by
  have hm := (switch_iff k s).2 h
  cases s with
  | nil => exfalso; cases k <;> cases hm
  | cons c s => rw [findStop_cons, hm]; rfl

theorem findStop_some {k : Legacy.Kind} {next : Str} (h : SwitchAt k next) : ∀ (x : Str) (prev : Option Char), ∃ n, findStop k prev (x ++ next) = some n
  | [], prev => ⟨0, findStop_switch h prev⟩
  | c :: x, prev => by
    obtain ⟨n, hn⟩ := findStop_some h x (some c)
    rw [List.cons_append, findStop_cons, hn]
    split
    · exact ⟨_, rfl⟩
    · exact ⟨_, rfl⟩

theorem search_quiet : ∀ (t R : Str), (∀ u v, t = u ++ v → v ≠ [] → ¬ "\\begin".toList <+: v ++ R ∧ ¬ "\\bgroup".toList <+: v ++ R) → NoPairs (t ++ R) →
    EnvT.search (t ++ R) = (EnvT.search R).map (· + t.length)
  | [], R, _, _ => by simp
  | c :: t, R, ht, hp => by
    obtain ⟨h1, h2⟩ := ht [] (c :: t) rfl (by simp)
    have ih := search_quiet t R (fun u v e => ht (c :: u) v (by rw [e]; rfl)) (fun u v e => hp (c :: u) v (by rw [List.cons_append, e]; rfl))
    have g1 := EnvT.envMatch_none _ h1 (EnvT.noPairs_match hp [] _ rfl)
    have g2 := EnvT.groupMatch_none _ h1 h2
    rw [List.cons_append] at g1 g2 ⊢
    rw [EnvT.search_cons, g1, g2, ih]
    simp only [Option.isSome_none, Bool.or_self, Bool.false_eq_true, if_false]
    cases EnvT.search R <;> simp [Nat.add_assoc]

theorem switch_noEnv {k : Legacy.Kind} {s : Str} (h : SwitchAt k s) : ¬ "\\begin".toList <+: s ∧ ¬ "\\bgroup".toList <+: s := by
  have key : ∀ (a b X : Str), ¬ a <+: b ∧ ¬ b <+: a → ¬ b <+: a ++ X := by
    intro a b X h hb
    rcases List.prefix_or_prefix_of_prefix (List.prefix_append a X) hb with h' | h'
    · exact h.1 h'
    · exact h.2 h'
  have tbl : ∀ k ∈ [Legacy.Kind.font, .size, .color], ∀ e ∈ switchTable k, ∀ w ∈ ["\\begin".toList, "\\bgroup".toList],
      ¬ ('\\' :: e.1.toList) <+: w ∧ ¬ w <+: ('\\' :: e.1.toList) := by decide +kernel
  cases h with
  | @name _ n style r h1 h2 =>
    exact ⟨key ('\\' :: n.toList) _ r (tbl k (kind_mem k) _ h1 _ (by simp)), key ('\\' :: n.toList) _ r (tbl k (kind_mem k) _ h1 _ (by simp))⟩
  | color h =>
    cases h with
    | plain ws r _ => exact ⟨key _ _ _ (by decide +kernel), key _ _ _ (by decide +kernel)⟩
    | model ws m ws' r _ _ _ _ => exact ⟨key _ _ _ (by decide +kernel), key _ _ _ (by decide +kernel)⟩
    | normal r _ => exact ⟨key _ _ _ (by decide +kernel), key _ _ _ (by decide +kernel)⟩

theorem search_pos' {s : Str} (h1 : ¬ "\\begin".toList <+: s) (h2 : ¬ "\\bgroup".toList <+: s) (hp : NoPairs s) (n : Nat) (h : EnvT.search s = some n) : 0 < n :=
  EnvT.search_pos (EnvT.envMatch_none _ h1 (EnvT.noPairs_match hp [] _ rfl)) (EnvT.groupMatch_none _ h1 h2) n h

theorem switch_head {k : Legacy.Kind} {s : Str} (h : SwitchAt k s) : s.head? = some '\\' := by
  cases h with
  | name r h1 h2 => rfl
  | color h => cases h <;> rfl

/-- What the search for the next switch or brace finds, from the start of a piece on. -/
theorem skip_pieces (k : Legacy.Kind) (N next tail : Str) (hn : next = [] ∨ SwitchAt k next) (hp : NoPairs N) :
    ∀ (parts : List (Str × Part)) (fuel start : Nat) (last : Option Nat),
    N.drop start = pieces parts tail ++ next → PiecesOk k next parts tail → N.length - start < fuel → start ≤ N.length →
    (∃ pos body parts', skipTo k N fuel start last = .ok (some pos) ∧ N.drop pos = '{' :: (body ++ '}' :: (pieces parts' tail ++ next)) ∧
      Wrappable '{' '}' body ∧ PiecesOk k next parts' tail ∧ parts'.length < parts.length ∧ start ≤ pos ∧ pos < N.length) ∨
    (next ≠ [] ∧ skipTo k N fuel start last = .ok (some (N.length - next.length))) ∨
    (next = [] ∧ (skipTo k N fuel start last = .ok (some N.length) ∨ skipTo k N fuel start last = .ok none)) := by
  intro parts
  induction parts with
  | nil =>
    intro fuel start last hd hok hf hs
    have hq : QuietPiece k tail next := hok
    have hd' : N.drop start = tail ++ next := hd
    have hp' : NoPairs (tail ++ next) := EnvT.noPairs_suffix hp (u := N.take start) (by rw [← hd', List.take_append_drop])
    have hlen : N.length - start = tail.length + next.length := by
      have := congrArg List.length hd'
      simpa using this
    have e1 := findStop_quiet hq
    have e2 := search_quiet tail next (fun u v e hv => (hq.1 u v e hv).2) hp'
    cases fuel with
    | zero => omega
    | succ fuel =>
      rcases hn with rfl | hsw
      · right; right
        refine ⟨rfl, ?_⟩
        unfold skipTo
        rw [hd', e1]
        cases last with
        | none => exact .inr rfl
        | some l => exact .inl rfl
      · right; left
        refine ⟨(fun h => by rw [h] at hsw; have := switch_head hsw; cases this), ?_⟩
        obtain ⟨n1, n2⟩ := switch_noEnv hsw
        unfold skipTo
        rw [hd', e1, e2, findStop_switch hsw]
        cases hs' : EnvT.search next with
        | none => simp only [Option.map]; congr 2; omega
        | some j =>
          have := search_pos' n1 n2 (EnvT.noPairs_suffix hp' rfl) j hs'
          simp only [Option.map]
          rw [if_pos (by omega)]
          congr 2; omega
  | cons p l ih =>
    intro fuel start last hd hok hf hs
    obtain ⟨t, p⟩ := p
    obtain ⟨ht, hpo, hm, hl⟩ := hok
    have hd' : N.drop start = t ++ (p.render ++ (pieces l tail ++ next)) := by
      rw [hd]; simp [pieces]
    have hp' : NoPairs (N.drop start) := EnvT.noPairs_suffix hp (u := N.take start) (by rw [List.take_append_drop])
    rw [hd'] at hp'
    have hpb : NoPairs (p.render ++ (pieces l tail ++ next)) := EnvT.noPairs_suffix hp' rfl
    have e1 := findStop_quiet ht
    have e2 := search_quiet t _ (fun u v e hv => (ht.1 u v e hv).2) hp'
    have hlen : N.length - start = t.length + (p.render.length + (pieces l tail ++ next).length) := by
      have := congrArg List.length hd'
      simpa using this
    have hd2 : N.drop (start + t.length) = p.render ++ (pieces l tail ++ next) := by
      rw [← List.drop_drop, hd', List.drop_left']; rfl
    cases fuel with
    | zero => omega
    | succ fuel =>
      cases p with
      | braces body =>
        left
        have hr : (Part.braces body).render ++ (pieces l tail ++ next) = '{' :: (body ++ '}' :: (pieces l tail ++ next)) := by simp [Part.render]
        rw [hr] at e1 e2 hd' hd2 hpb
        refine ⟨start + t.length, body, l, ?_, hd2, hpo, hl, by simp, by omega, ?_⟩
        · have hf0 : findStop k t.getLast? ('{' :: (body ++ '}' :: (pieces l tail ++ next))) = some 0 := by
            rw [findStop_cons, if_pos]
            simp [ht.2.2]
          unfold skipTo
          rw [hd', e1, e2, hf0]
          cases hs' : EnvT.search ('{' :: (body ++ '}' :: (pieces l tail ++ next))) with
          | none => simp
          | some j =>
            have := search_pos' (s := '{' :: (body ++ '}' :: (pieces l tail ++ next))) (by rintro ⟨z, hz⟩; injection hz with hz; cases hz)
              (by rintro ⟨z, hz⟩; injection hz with hz; cases hz) hpb j hs'
            simp only [Option.map]
            rw [if_pos (by omega)]
            simp
        · have : (Part.braces body).render.length = body.length + 2 := by simp [Part.render]
          omega
      | block b =>
        have hb : b.Ok := hpo
        obtain ⟨b1, _, b3⟩ := EnvT.block_at b hb _ (hm b rfl) hpb
        have hbl : 0 < b.render.length := by
          cases hbr : b.render with
          | cons c s => simp
          | nil => exfalso; have := EnvT.block_head b hb []; rw [hbr] at this; cases this
        have hd3 : N.drop (start + t.length + b.render.length) = pieces l tail ++ next := by
          rw [← List.drop_drop, hd2]
          exact List.drop_left' rfl
        have hlen' : N.length - start = t.length + (b.render.length + (pieces l tail ++ next).length) := hlen
        have hrec := ih fuel (start + t.length + b.render.length) (some (start + t.length + b.render.length)) hd3 hl (by omega) (by omega)
        cases hsi : findStop k t.getLast? ((Part.block b).render ++ (pieces l tail ++ next)) with
        | none =>
          have hnext : next = [] := by
            rcases hn with h | h
            · exact h
            · obtain ⟨n, hn'⟩ := findStop_some h ((Part.block b).render ++ pieces l tail) t.getLast?
              rw [List.append_assoc, hsi] at hn'
              cases hn'
          right; right
          refine ⟨hnext, ?_⟩
          unfold skipTo
          rw [hd', e1, hsi]
          cases last with
          | none => exact .inr rfl
          | some l => exact .inl rfl
        | some i =>
          have b1' : EnvT.search ((Part.block b).render ++ (pieces l tail ++ next)) = some 0 := b1
          have b3' : EnvT.tryHandle ((Part.block b).render ++ (pieces l tail ++ next)) = .ok (some b.render.length) := b3
          have step : skipTo k N (fuel + 1) start last = skipTo k N fuel (start + t.length + b.render.length) (some (start + t.length + b.render.length)) := by
            conv => lhs; unfold skipTo
            rw [hd', e1, e2, hsi, b1']
            simp only [Option.map, Nat.zero_add]
            rw [if_neg (by omega), hd2, b3']
          rw [step]
          rcases hrec with ⟨pos, body, parts', r1, r2, r3, r4, r5, r6, r7⟩ | r | r
          · exact .inl ⟨pos, body, parts', r1, r2, r3, r4, by simp; omega, by omega, r7⟩
          · exact .inr (.inl r)
          · exact .inr (.inr r)

theorem suffix_drop {N A B : Str} (h : N = A ++ B) : N.drop (N.length - B.length) = B := by
  subst h
  simp

/-- The text of a switch ends where the next switch of its kind begins that is in no group or environment. -/
theorem scope_pieces (k : Legacy.Kind) (N next tail : Str) (hn : next = [] ∨ SwitchAt k next) (hp : NoPairs N) : ∀ (n : Nat) (parts : List (Str × Part)) (fuel pos : Nat), parts.length ≤ n →
    N.drop pos = pieces parts tail ++ next → PiecesOk k next parts tail → N.length - pos < fuel → pos ≤ N.length →
    scope k N fuel pos = .ok (N.length - next.length) := by
  intro n
  induction n with
  | zero =>
    intro parts fuel pos hle hd hok hf hs
    cases fuel with
    | zero => omega
    | succ fuel =>
      unfold scope
      split
      · rename_i hge
        rw [List.drop_eq_nil_of_le hge] at hd
        have : next = [] := (List.append_eq_nil_iff.1 hd.symm).2
        simp [this]
      · rcases skip_pieces k N next tail hn hp parts (N.length + 1) pos none hd hok (by omega) hs with ⟨_, _, _, _, _, _, _, h, _⟩ | ⟨h1, h2⟩ | ⟨h1, h2 | h2⟩
        · omega
        · rw [h2]
          have hsuf : next.length ≤ N.length := by
            have := congrArg List.length hd
            simp at this; omega
          have hne : 0 < next.length := List.length_pos_iff.2 h1
          have hdn : N.drop (N.length - next.length) = next :=
            suffix_drop (A := N.take pos ++ pieces parts tail) (by rw [List.append_assoc, ← hd, List.take_append_drop])
          simp only
          rw [if_neg (by omega), hdn, switch_head (hn.resolve_left h1), if_neg (by simp)]
        · rw [h2, h1]; simp
        · rw [h2, h1]; simp
  | succ n ih =>
    intro parts fuel pos hle hd hok hf hs
    cases fuel with
    | zero => omega
    | succ fuel =>
      unfold scope
      split
      · rename_i hge
        rw [List.drop_eq_nil_of_le hge] at hd
        have : next = [] := (List.append_eq_nil_iff.1 hd.symm).2
        simp [this]
      · rcases skip_pieces k N next tail hn hp parts (N.length + 1) pos none hd hok (by omega) hs with ⟨q, body, parts', r1, r2, r3, r4, r5, r6, r7⟩ | ⟨h1, h2⟩ | ⟨h1, h2 | h2⟩
        · rw [r1]
          simp only
          rw [if_neg (by omega), r2, Style.extract_wrapped '{' '}' (by decide) (by decide) (by decide) body _ r3]
          simp only [List.head?_cons, if_true]
          have hlen := congrArg List.length r2
          simp at hlen
          refine ih parts' fuel _ (by omega) ?_ r4 (by omega) (by omega)
          rw [← List.drop_drop, r2, show '{' :: (body ++ '}' :: (pieces parts' tail ++ next)) = ('{' :: (body ++ ['}'])) ++ (pieces parts' tail ++ next) by simp,
            show body.length + 2 = ('{' :: (body ++ ['}'])).length by simp, List.drop_left]
        · rw [h2]
          have hsuf : next.length ≤ N.length := by
            have := congrArg List.length hd
            simp at this; omega
          have hne : 0 < next.length := List.length_pos_iff.2 h1
          have hdn : N.drop (N.length - next.length) = next :=
            suffix_drop (A := N.take pos ++ pieces parts tail) (by rw [List.append_assoc, ← hd, List.take_append_drop])
          simp only
          rw [if_neg (by omega), hdn, switch_head (hn.resolve_left h1), if_neg (by simp)]
        · rw [h2, h1]; simp
        · rw [h2, h1]; simp

/-! The beginning of a switch. -/

theorem prefix_names : ∀ k ∈ [Legacy.Kind.font, .size, .color], ∀ a ∈ names k, ∀ k' ∈ [Legacy.Kind.font, .size, .color], ∀ c ∈ names k',
    (a.1 <+: c.1 → noLetter (c.1.drop a.1.length) = true → a.1 = c.1) := by decide +kernel

theorem name_eq {k k' : Legacy.Kind} {n : String} {st : String} (h : (n, st) ∈ switchTable k) {X : Str} (hX : NoLetterAt X) {e : Str × Str} (he : e ∈ names k')
    (h1 : e.1 <+: n.toList ++ X) (h2 : noLetter ((n.toList ++ X).drop e.1.length) = true) : e.1 = n.toList := by
  obtain ⟨m, hm⟩ := (table_names k (kind_mem k)).1 _ h
  rcases List.prefix_or_prefix_of_prefix h1 (List.prefix_append n.toList X) with hp | hp
  · refine prefix_names k' (kind_mem k') e he k (kind_mem k) _ hm hp ?_
    obtain ⟨u, hu⟩ := hp
    have hu' : n.toList = e.1 ++ u := hu.symm
    show noLetter (n.toList.drop e.1.length) = true
    rw [hu', List.append_assoc, List.drop_left] at h2
    rw [hu', List.drop_left]
    cases u with
    | nil => rfl
    | cons c u => exact h2
  · symm
    refine prefix_names k (kind_mem k) _ hm k' (kind_mem k') e he hp ?_
    obtain ⟨u, hu⟩ := hp
    show noLetter (e.1.drop n.toList.length) = true
    rw [← hu] at h1 ⊢
    rw [List.drop_left]
    obtain ⟨w, hw⟩ := h1
    rw [List.append_assoc] at hw
    have hX' : X = u ++ w := (List.append_cancel_left hw).symm
    cases u with
    | nil => rfl
    | cons c u => rw [noLetter_iff]; intro x hx; exact hX x (by rw [hX']; exact hx)

theorem nameMatch_miss {k k' : Legacy.Kind} {n st : String} (h : (n, st) ∈ switchTable k) (hd : ∀ e ∈ names k', e.1 ≠ n.toList) {X : Str} (hX : NoLetterAt X) :
    nameMatch (names k') ('\\' :: (n.toList ++ X)) = none := by
  cases hm : nameMatch (names k') ('\\' :: (n.toList ++ X)) with
  | none => rfl
  | some x =>
    obtain ⟨e, he, r, hr, hr2⟩ := (isSome_name (names k') (n.toList ++ X)).1 (by rw [hm]; rfl)
    exact absurd (name_eq h hX he ⟨r, hr.symm⟩ (by rw [hr, List.drop_left, noLetter_iff]; exact hr2)) (hd e he)

theorem nameMatch_hit {k : Legacy.Kind} {n st : String} (h : (n, st) ∈ switchTable k) (ws Y : Str) (hws : ∀ c ∈ ws, isSpace c = true) (hY : ∀ c ∈ Y.head?, isSpace c = false)
    (hX : NoLetterAt (ws ++ Y)) : nameMatch (names k) ('\\' :: (n.toList ++ (ws ++ Y))) =
      some ⟨some n.toList, 1 + n.toList.length + ws.length + (if Y.head? = some '{' then 1 else 0)⟩ := by
  obtain ⟨m, hm⟩ := (table_names k (kind_mem k)).1 _ h
  unfold nameMatch
  simp only
  cases hf : (names k).find? (fun e => startsWith (n.toList ++ (ws ++ Y)) e.1 && noLetter ((n.toList ++ (ws ++ Y)).drop e.1.length)) with
  | none =>
    exfalso
    have := List.find?_eq_none.1 hf _ hm
    simp only [List.drop_left, (noLetter_iff _).2 hX, Bool.and_true] at this
    exact this (List.isPrefixOf_iff_prefix.2 ⟨_, rfl⟩)
  | some e =>
    have h1 := List.find?_some hf
    simp only [Bool.and_eq_true] at h1
    have he := name_eq h hX (List.mem_of_find?_eq_some hf) (List.isPrefixOf_iff_prefix.1 h1.1) h1.2
    obtain ⟨e1, e2⟩ := e
    simp only at he
    subst he
    simp only [List.drop_left, (takeWhile_wrap_ws ws Y hws hY).1]

theorem disjoint_names : (∀ e ∈ fontSwitches, ∀ x ∈ names .size, x.1 ≠ e.1.toList) ∧ (∀ e ∈ sizeSwitches, ∀ x ∈ names .font, x.1 ≠ e.1.toList) := by decide +kernel

theorem handle_name {k : Legacy.Kind} {n st : String} (h : (n, st) ∈ switchTable k) (ws Y : Str) (hws : ∀ c ∈ ws, isSpace c = true) (hY : ∀ c ∈ Y.head?, isSpace c = false)
    (hX : NoLetterAt (ws ++ Y)) : handle ('\\' :: (n.toList ++ (ws ++ Y))) =
      some (handleHit ('\\' :: (n.toList ++ (ws ++ Y))) k ⟨some n.toList, 1 + n.toList.length + ws.length + (if Y.head? = some '{' then 1 else 0)⟩) := by
  have hh := nameMatch_hit h ws Y hws hY hX
  cases k with
  | font =>
    unfold handle
    rw [show Legacy.Kind.font.match ('\\' :: (n.toList ++ (ws ++ Y))) = _ from hh]
  | size =>
    have hm := nameMatch_miss (k' := .font) h (disjoint_names.2 _ h) hX
    unfold handle
    rw [show Legacy.Kind.font.match ('\\' :: (n.toList ++ (ws ++ Y))) = none from hm, show Legacy.Kind.size.match ('\\' :: (n.toList ++ (ws ++ Y))) = _ from hh]
  | color => cases h

/-- The modern command stands for the style of the switch. -/
theorem modern_style : ∀ k ∈ [Legacy.Kind.font, .size, .color], ∀ e ∈ switchTable k, ∃ cmd : String, (e.1, cmd) ∈ modernTable ∧ (cmd, some e.2) ∈ styleTable ∧
    Dict.get? (fontMap ++ sizeMap) e.1.toList = some cmd.toList := by
  have : ∀ k ∈ [Legacy.Kind.font, .size, .color], ∀ e ∈ switchTable k,
      (styleTable.any fun x => decide ((e.1, x.1) ∈ modernTable) && x.2 == some e.2 && Dict.get? (fontMap ++ sizeMap) e.1.toList == some x.1.toList) = true := by decide +kernel
  intro k hk e he
  obtain ⟨x, hx, hx2⟩ := List.any_eq_true.1 (this k hk e he)
  simp only [Bool.and_eq_true, beq_iff_eq, decide_eq_true_eq] at hx2
  exact ⟨x.1, hx2.1.1, by rw [← hx2.1.2]; exact hx, hx2.2⟩

theorem wrap_command (cmd : String) (b : Str) : wrap cmd.toList b = command cmd [] b := by simp [wrap, command]

/-- C58: a switch with an argument in braces is the command for its style, with the argument, trimmed. -/
theorem C58_braces {k : Legacy.Kind} {n style : String} (h : (n, style) ∈ switchTable k) (ws body rest : Str) (hws : ∀ c ∈ ws, isSpace c = true) (hb : Wrappable '{' '}' body) :
    ∃ cmd, (n, cmd) ∈ modernTable ∧ (cmd, some style) ∈ styleTable ∧ handle (command n ws body ++ rest) = some (.ok (command cmd [] (strip body), (command n ws body).length)) := by
  obtain ⟨cmd, h0, h1, h2⟩ := modern_style k (kind_mem k) _ h
  refine ⟨cmd, h0, h1, ?_⟩
  have e : command n ws body ++ rest = '\\' :: (n.toList ++ (ws ++ '{' :: (body ++ '}' :: rest))) := by simp [command]
  rw [e, handle_name h ws _ hws (by intro c hc; cases hc; rfl) (Style.brace_letter ws _ hws)]
  simp only [List.head?_cons, if_true]
  have ht : (('\\' :: (n.toList ++ (ws ++ '{' :: (body ++ '}' :: rest)))).take (1 + n.toList.length + ws.length + 1)).getLast? = some '{' := by
    rw [show '\\' :: (n.toList ++ (ws ++ '{' :: (body ++ '}' :: rest))) = ('\\' :: (n.toList ++ (ws ++ ['{']))) ++ (body ++ '}' :: rest) by simp,
      show 1 + n.toList.length + ws.length + 1 = ('\\' :: (n.toList ++ (ws ++ ['{']))).length by simp; omega, List.take_left]
    rw [show '\\' :: (n.toList ++ (ws ++ ['{'])) = ('\\' :: (n.toList ++ ws)) ++ ['{'] by simp, List.getLast?_concat]
  have hd : ('\\' :: (n.toList ++ (ws ++ '{' :: (body ++ '}' :: rest)))).drop (1 + n.toList.length + ws.length) = '{' :: (body ++ '}' :: rest) := by
    rw [show '\\' :: (n.toList ++ (ws ++ '{' :: (body ++ '}' :: rest))) = ('\\' :: (n.toList ++ ws)) ++ '{' :: (body ++ '}' :: rest) by simp,
      show 1 + n.toList.length + ws.length = ('\\' :: (n.toList ++ ws)).length by simp; omega, List.drop_left]
  have hx := Style.extract_wrapped '{' '}' (by decide) (by decide) (by decide) body rest hb
  have hl : (command n ws body).length = 1 + n.toList.length + ws.length + (body.length + 2) := by simp [command]; omega
  rw [hl, ← wrap_command]
  unfold handleHit
  cases k with
  | color => cases h
  | font =>
    simp only
    rw [if_pos ht, Nat.add_sub_cancel, hd, hx]
    simp only [Option.getD_some]
    rw [h2]
    rfl
  | size =>
    simp only
    rw [if_pos ht, Nat.add_sub_cancel, hd, hx]
    simp only [Option.getD_some]
    rw [h2]
    rfl

theorem upToClose_close (N rest : Str) (hN : Wrappable '{' '}' N) (hne : N ≠ []) : upToClose (N ++ '}' :: rest) = N := by
  unfold upToClose
  rw [Style.extract_wrapped '{' '}' (by decide) (by decide) (by decide) N rest hN]
  cases N with
  | nil => exact absurd rfl hne
  | cons c N =>
    simp only [Nat.add_sub_cancel]
    exact List.take_left

theorem extract_open (N : Str) (h : Balanced N '{' '}') : extractNestedContent ('{' :: N) '{' '}' = none := by
  rw [extract_none_iff]
  rintro ⟨s, e, h1, h2⟩
  have hs : s = 0 := by
    cases s with
    | zero => rfl
    | succ s => obtain ⟨x, hx, hx2⟩ := h1.1 0 (by omega); simp at hx; subst hx; cases hx2
  subst hs
  have he : e ≤ ('{' :: N).length := h2.le
  have hpos := h2.lt
  have hc := h2.closed
  obtain ⟨j, rfl⟩ : ∃ j, e = j + 1 := ⟨e - 1, by omega⟩
  have hl := level_append_right ['{'] N '{' '}' rfl j
  have hj := h.1 j (by simp at he; omega)
  simp only [List.length_singleton, List.singleton_append] at hl
  have e0 : level ['{'] '{' '}' 1 = 1 := rfl
  rw [show 1 + j = j + 1 by omega] at hl
  rw [hc] at hl
  have : level ('{' :: N) '{' '}' 0 = 0 := rfl
  simp only [e0, this] at hl
  omega

theorem upToClose_open (N : Str) (h : Balanced N '{' '}') : upToClose N = N := by
  unfold upToClose
  rw [extract_open N h]

theorem trailing_none : ∀ (l : List Str) (t : Str) (acc : List Str), (∀ n ∈ l, ¬ '\\' :: n <:+ t) → trailing l t acc = (t, acc)
  | [], _, _, _ => rfl
  | n :: l, t, acc, h => by
    unfold trailing
    rw [if_neg (by rw [List.isSuffixOf_iff_suffix]; exact h n (by simp))]
    exact trailing_none l t acc fun m hm => h m (by simp [hm])

theorem allNames_table : ∀ n ∈ allNames, ∃ k st, (String.ofList n, st) ∈ switchTable k := by
  intro n hn
  unfold allNames at hn
  obtain ⟨e, he, rfl⟩ := List.mem_map.1 hn
  rcases List.mem_append.1 he with he | he
  · obtain ⟨st, h⟩ := (table_names .font (by simp)).2 e he; exact ⟨.font, st, h⟩
  · obtain ⟨st, h⟩ := (table_names .size (by simp)).2 e he; exact ⟨.size, st, h⟩

theorem table_allNames {k : Legacy.Kind} {n st : String} (h : (n, st) ∈ switchTable k) : n.toList ∈ allNames := by
  obtain ⟨m, hm⟩ := (table_names k (kind_mem k)).1 _ h
  unfold allNames
  refine List.mem_map.2 ⟨(n.toList, m), ?_, rfl⟩
  cases k with
  | font => exact List.mem_append_left _ hm
  | size => exact List.mem_append_right _ hm
  | color => cases hm

theorem format_plain (modern T : Str) (h : ¬ EndsWithSwitch T) : format modern T = wrap modern T := by
  unfold format
  split
  · rfl
  · rw [trailing_none allNames (rstrip T) [] (fun n hn hs => by
      obtain ⟨k, st, hk⟩ := allNames_table n hn
      exact h ⟨k, _, st, hk, by rw [String.toList_ofList]; exact hs⟩)]
    rfl

/-- The text up to the end of the group: what follows it. -/
def _root_.L2J.Spec.GroupEnd (close : Str) : Prop := close = [] ∨ ∃ rest, close = '}' :: rest

theorem occurs_scope (k : Legacy.Kind) (N next tail : Str) (parts : List (Str × Part)) (hN : N = pieces parts tail ++ next) (hn : next = [] ∨ SwitchAt k next) (hp : NoPairs N)
    (hok : PiecesOk k next parts tail) :
    (if occurs k N then scope k N (N.length + 1) 0 else .ok N.length) = .ok (pieces parts tail).length := by
  have hlen : N.length - next.length = (pieces parts tail).length := by rw [hN]; simp
  split
  · rw [scope_pieces k N next tail hn hp _ parts (N.length + 1) 0 (Nat.le_refl _) hN hok (by omega) (by omega), hlen]
  · rename_i ho
    have : next = [] := by
      rcases hn with h | h
      · exact h
      · exfalso
        apply ho
        have key : ∀ x : Str, occurs k (x ++ next) = true := by
          intro x
          induction x with
          | nil =>
            have hm := (switch_iff k next).2 h
            cases next with
            | nil => cases k <;> cases hm
            | cons c s => simp [occurs, hm]
          | cons c x ih => simp [occurs, ih]
        rw [hN]; exact key _
    subst this
    rw [← hlen]
    simp

theorem handleSwitch_fmt (k : Legacy.Kind) (pre next tail close : Str) (parts : List (Str × Part)) (cmd : Option Str) (modern : Str)
    (hw : Wrappable '{' '}' (pieces parts tail ++ next)) (hc : GroupEnd close) (hne : close ≠ [] → pieces parts tail ++ next ≠ [])
    (hn : next = [] ∨ SwitchAt k next) (hp : NoPairs (pieces parts tail ++ next)) (hok : PiecesOk k next parts tail) :
    handleSwitch (pre ++ (pieces parts tail ++ (next ++ close))) k cmd modern pre.length =
      .ok (format modern (pieces parts tail), pre.length + (pieces parts tail).length + offLen k cmd (next ++ close)) := by
  have hu : upToClose ((pre ++ (pieces parts tail ++ (next ++ close))).drop pre.length) = pieces parts tail ++ next := by
    rw [List.drop_left, ← List.append_assoc]
    rcases hc with rfl | ⟨rest, rfl⟩
    · rw [List.append_nil]; exact upToClose_open _ hw.1
    · exact upToClose_close _ _ hw (hne (by simp))
  unfold handleSwitch
  rw [hu]
  simp only
  rw [occurs_scope k _ next tail parts rfl hn hp hok]
  simp only
  rw [List.take_left, ← List.drop_drop, List.drop_left, List.drop_left]

theorem handleSwitch_eq (k : Legacy.Kind) (pre next tail close : Str) (parts : List (Str × Part)) (cmd : Option Str) (modern : Str)
    (hw : Wrappable '{' '}' (pieces parts tail ++ next)) (hc : GroupEnd close) (hne : close ≠ [] → pieces parts tail ++ next ≠ [])
    (hn : next = [] ∨ SwitchAt k next) (hp : NoPairs (pieces parts tail ++ next)) (hok : PiecesOk k next parts tail) (hend : ¬ EndsWithSwitch (pieces parts tail)) :
    handleSwitch (pre ++ (pieces parts tail ++ (next ++ close))) k cmd modern pre.length =
      .ok (wrap modern (pieces parts tail), pre.length + (pieces parts tail).length + offLen k cmd (next ++ close)) := by
  rw [handleSwitch_fmt k pre next tail close parts cmd modern hw hc hne hn hp hok, format_plain _ _ hend]

theorem noLast_brace (pre : Str) (n : Str) (ws : Str) (h : pre = '\\' :: (n ++ ws)) (hn : n ≠ []) (h1 : ∀ c ∈ ws, isSpace c = true) (h2 : n.getLast? ≠ some '{') : pre.getLast? ≠ some '{' := by
  subst h
  cases hw : ws.getLast? with
  | some x =>
    have hx := h1 x (List.mem_of_getLast? hw)
    rw [← List.cons_append, List.getLast?_append, hw]
    intro h; simp at h; subst h; cases hx
  | none =>
    rw [List.getLast?_eq_none_iff] at hw
    subst hw
    rw [List.append_nil, List.getLast?_cons]
    cases hl : n.getLast? with
    | none => rw [List.getLast?_eq_none_iff] at hl; exact absurd hl hn
    | some x => rw [hl] at h2; simpa using h2

theorem handle_format {k : Legacy.Kind} {n style : String} (h : (n, style) ∈ switchTable k) (ws next tail close : Str) (parts : List (Str × Part))
    (hws : ∀ c ∈ ws, isSpace c = true) (hstart : ∀ c ∈ (pieces parts tail ++ (next ++ close)).head?, isSpace c = false ∧ c ≠ '{')
    (hX : NoLetterAt (ws ++ (pieces parts tail ++ (next ++ close))))
    (hw : Wrappable '{' '}' (pieces parts tail ++ next)) (hc : GroupEnd close) (hne : close ≠ [] → pieces parts tail ++ next ≠ [])
    (hn : next = [] ∨ SwitchAt k next) (hp : NoPairs (pieces parts tail ++ next)) (hok : PiecesOk k next parts tail) :
    ∃ cmd, (n, cmd) ∈ modernTable ∧ (cmd, some style) ∈ styleTable ∧ handle ('\\' :: (n.toList ++ (ws ++ (pieces parts tail ++ (next ++ close))))) =
      some (.ok (format cmd.toList (pieces parts tail), ('\\' :: (n.toList ++ (ws ++ pieces parts tail))).length + offLen k (some n.toList) (next ++ close))) := by
  obtain ⟨cmd, h0, h1, h2⟩ := modern_style k (kind_mem k) _ h
  refine ⟨cmd, h0, h1, ?_⟩
  rw [handle_name h ws _ hws (fun c hc => (hstart c hc).1) hX, if_neg (show ¬ (pieces parts tail ++ (next ++ close)).head? = some '{' from fun hh => (hstart _ hh).2 rfl)]
  simp only [Nat.add_zero]
  have hs := handleSwitch_fmt k ('\\' :: (n.toList ++ ws)) next tail close parts (some n.toList) cmd.toList hw hc hne hn hp hok
  have el : ('\\' :: (n.toList ++ ws)).length = 1 + n.toList.length + ws.length := by simp; omega
  have es : ('\\' :: (n.toList ++ ws)) ++ (pieces parts tail ++ (next ++ close)) = '\\' :: (n.toList ++ (ws ++ (pieces parts tail ++ (next ++ close)))) := by simp
  rw [el, es] at hs
  have ht : (('\\' :: (n.toList ++ (ws ++ (pieces parts tail ++ (next ++ close))))).take (1 + n.toList.length + ws.length)).getLast? ≠ some '{' := by
    rw [← es, ← el, List.take_left]
    have tbl : ∀ k ∈ [Legacy.Kind.font, .size, .color], ∀ e ∈ switchTable k, e.1.toList ≠ [] ∧ e.1.toList.getLast? ≠ some '{' := by decide +kernel
    obtain ⟨t1, t2⟩ := tbl k (kind_mem k) _ h
    exact noLast_brace _ n.toList ws rfl t1 hws t2
  have hl2 : ('\\' :: (n.toList ++ (ws ++ pieces parts tail))).length = 1 + n.toList.length + ws.length + (pieces parts tail).length := by simp; omega
  rw [hl2]
  unfold handleHit
  cases k with
  | color => cases h
  | font =>
    simp only
    rw [if_neg ht]
    simp only [Option.getD_some]
    rw [h2, Option.getD_some, hs]
  | size =>
    simp only
    rw [if_neg ht]
    simp only [Option.getD_some]
    rw [h2, Option.getD_some, hs]

theorem handle_switch {k : Legacy.Kind} {n style : String} (h : (n, style) ∈ switchTable k) (ws next tail close : Str) (parts : List (Str × Part))
    (hws : ∀ c ∈ ws, isSpace c = true) (hstart : ∀ c ∈ (pieces parts tail ++ (next ++ close)).head?, isSpace c = false ∧ c ≠ '{')
    (hX : NoLetterAt (ws ++ (pieces parts tail ++ (next ++ close))))
    (hw : Wrappable '{' '}' (pieces parts tail ++ next)) (hc : GroupEnd close) (hne : close ≠ [] → pieces parts tail ++ next ≠ [])
    (hn : next = [] ∨ SwitchAt k next) (hp : NoPairs (pieces parts tail ++ next)) (hok : PiecesOk k next parts tail) (hend : ¬ EndsWithSwitch (pieces parts tail)) :
    ∃ cmd, (n, cmd) ∈ modernTable ∧ (cmd, some style) ∈ styleTable ∧ handle ('\\' :: (n.toList ++ (ws ++ (pieces parts tail ++ (next ++ close))))) =
      some (.ok (command cmd [] (pieces parts tail), ('\\' :: (n.toList ++ (ws ++ pieces parts tail))).length + offLen k (some n.toList) (next ++ close))) := by
  obtain ⟨cmd, h0, h1, h2⟩ := handle_format h ws next tail close parts hws hstart hX hw hc hne hn hp hok
  exact ⟨cmd, h0, h1, by rw [h2, format_plain _ _ hend, wrap_command]⟩

theorem offLen_none {k : Legacy.Kind} {n style : String} (h : (n, style) ∈ switchTable k) {next close : Str} (hc : GroupEnd close) (hn : next = [] ∨ ¬ '\\' :: n.toList <+: next ++ close) :
    offLen k (some n.toList) (next ++ close) = 0 := by
  have hnp : ¬ '\\' :: n.toList <+: next ++ close := by
    rcases hn with rfl | hn2
    · rcases hc with rfl | ⟨rest, rfl⟩
      · rintro ⟨t, ht⟩; cases ht
      · rintro ⟨t, ht⟩; injection ht with ht _; cases ht
    · exact hn2
  unfold offLen
  have : offSwitch k n.toList (next ++ close) = false := by
    unfold offSwitch
    cases k with
    | color => cases h
    | font => exact Style.starts_no hnp
    | size => exact Style.starts_no hnp
  simp [this]

/-- C58: a switch is the command for its style around the text up to the next switch of its kind (in no group or environment of that text), or up to the
end of the group it stands in, or of everything. Exactly the switch, the blanks behind it and that text are replaced. -/
theorem C58_switch {k : Legacy.Kind} {n style : String} (h : (n, style) ∈ switchTable k) (ws next tail close : Str) (parts : List (Str × Part))
    (hws : ∀ c ∈ ws, isSpace c = true) (hstart : ∀ c ∈ (pieces parts tail ++ (next ++ close)).head?, isSpace c = false ∧ c ≠ '{')
    (hX : NoLetterAt (ws ++ (pieces parts tail ++ (next ++ close))))
    (hw : Wrappable '{' '}' (pieces parts tail ++ next)) (hc : GroupEnd close) (hne : close ≠ [] → pieces parts tail ++ next ≠ [])
    (hn : next = [] ∨ (SwitchAt k next ∧ ¬ '\\' :: n.toList <+: next ++ close)) (hp : NoPairs (pieces parts tail ++ next)) (hok : PiecesOk k next parts tail) (hend : ¬ EndsWithSwitch (pieces parts tail)) :
    ∃ cmd, (n, cmd) ∈ modernTable ∧ (cmd, some style) ∈ styleTable ∧ handle ('\\' :: (n.toList ++ (ws ++ (pieces parts tail ++ (next ++ close))))) =
      some (.ok (command cmd [] (pieces parts tail), ('\\' :: (n.toList ++ (ws ++ pieces parts tail))).length)) := by
  obtain ⟨cmd, h0, h1, h2⟩ := handle_switch h ws next tail close parts hws hstart hX hw hc hne (hn.imp id (·.1)) hp hok hend
  refine ⟨cmd, h0, h1, ?_⟩
  have ho : offLen k (some n.toList) (next ++ close) = 0 := by
    have hnp : ¬ '\\' :: n.toList <+: next ++ close := by
      rcases hn with rfl | ⟨hn, hn2⟩
      · rcases hc with rfl | ⟨rest, rfl⟩
        · rintro ⟨t, ht⟩; cases ht
        · rintro ⟨t, ht⟩; injection ht with ht _; cases ht
      · exact hn2
    unfold offLen
    have : offSwitch k n.toList (next ++ close) = false := by
      unfold offSwitch
      cases k with
      | color => cases h
      | font => exact Style.starts_no hnp
      | size => exact Style.starts_no hnp
    simp [this]
  rw [h2, ho, Nat.add_zero]

/-- C58: the same switch once more switches the style off: it is replaced as well. -/
theorem C58_off {k : Legacy.Kind} {n style : String} (h : (n, style) ∈ switchTable k) (ws tail close r : Str) (parts : List (Str × Part))
    (hws : ∀ c ∈ ws, isSpace c = true) (hstart : ∀ c ∈ (pieces parts tail ++ '\\' :: (n.toList ++ r) ++ close).head?, isSpace c = false ∧ c ≠ '{')
    (hX : NoLetterAt (ws ++ (pieces parts tail ++ '\\' :: (n.toList ++ r) ++ close))) (hr : NoLetterAt r)
    (hw : Wrappable '{' '}' (pieces parts tail ++ '\\' :: (n.toList ++ r))) (hc : GroupEnd close)
    (hp : NoPairs (pieces parts tail ++ '\\' :: (n.toList ++ r))) (hok : PiecesOk k ('\\' :: (n.toList ++ r)) parts tail) (hend : ¬ EndsWithSwitch (pieces parts tail)) :
    ∃ cmd, (n, cmd) ∈ modernTable ∧ (cmd, some style) ∈ styleTable ∧ handle ('\\' :: (n.toList ++ (ws ++ (pieces parts tail ++ '\\' :: (n.toList ++ r) ++ close)))) =
      some (.ok (command cmd [] (pieces parts tail), ('\\' :: (n.toList ++ (ws ++ (pieces parts tail ++ '\\' :: n.toList)))).length)) := by
  rw [List.append_assoc (pieces parts tail)] at *
  obtain ⟨cmd, h0, h1, h2⟩ := handle_switch h ws ('\\' :: (n.toList ++ r)) tail close parts hws hstart hX hw hc (fun _ => by simp) (.inr (.name r h hr)) hp hok hend
  refine ⟨cmd, h0, h1, ?_⟩
  have ho : offLen k (some n.toList) ('\\' :: (n.toList ++ r) ++ close) = n.toList.length + 1 := by
    have : offSwitch k n.toList ('\\' :: (n.toList ++ r) ++ close) = true := by
      have hs : startsWith ('\\' :: (n.toList ++ r) ++ close) ('\\' :: n.toList) = true := List.isPrefixOf_iff_prefix.2 ⟨r ++ close, by simp⟩
      unfold offSwitch
      cases k with
      | color => cases h
      | font => exact hs
      | size => exact hs
    unfold offLen
    simp only [this, if_true]
    cases k with
    | color => cases h
    | font => rfl
    | size => rfl
  rw [h2, ho]
  simp
  omega

/-! Colours. -/

theorem color_noName (X : Str) : nameMatch fontMap ("\\color".toList ++ X) = none ∧ nameMatch sizeMap ("\\color".toList ++ X) = none := by
  have key : ∀ d : Dict Str, (∀ e ∈ d, ¬ e.1 <+: "color".toList ∧ ¬ "color".toList <+: e.1) → nameMatch d ("\\color".toList ++ X) = none := by
    intro d hd
    cases hm : nameMatch d ("\\color".toList ++ X) with
    | none => rfl
    | some x =>
      obtain ⟨e, he, r, hr, _⟩ := (isSome_name d ("color".toList ++ X)).1 (by rw [show '\\' :: ("color".toList ++ X) = "\\color".toList ++ X from rfl, hm]; rfl)
      rcases List.prefix_or_prefix_of_prefix (List.prefix_append "color".toList X) ⟨r, hr.symm⟩ with h | h
      · exact absurd h (hd e he).2
      · exact absurd h (hd e he).1
  exact ⟨key _ (by decide +kernel), key _ (by decide +kernel)⟩

theorem normal_noName (X : Str) : nameMatch fontMap ("\\normalcolor".toList ++ X) = none ∧ nameMatch sizeMap ("\\normalcolor".toList ++ X) = none := by
  have key : ∀ d : Dict Str, (∀ e ∈ d, ¬ e.1 <+: "normalcolor".toList ∧ ¬ "normalcolor".toList <+: e.1) → nameMatch d ("\\normalcolor".toList ++ X) = none := by
    intro d hd
    cases hm : nameMatch d ("\\normalcolor".toList ++ X) with
    | none => rfl
    | some x =>
      obtain ⟨e, he, r, hr, _⟩ := (isSome_name d ("normalcolor".toList ++ X)).1 (by rw [show '\\' :: ("normalcolor".toList ++ X) = "\\normalcolor".toList ++ X from rfl, hm]; rfl)
      rcases List.prefix_or_prefix_of_prefix (List.prefix_append "normalcolor".toList X) ⟨r, hr.symm⟩ with h | h
      · exact absurd h (hd e he).2
      · exact absurd h (hd e he).1
  exact ⟨key _ (by decide +kernel), key _ (by decide +kernel)⟩

/-- C58: `\normalcolor` gives nothing. -/
theorem C58_normalcolor (rest : Str) (hr : ∀ c ∈ rest.head?, isWord c = false) : handle ("\\normalcolor".toList ++ rest) = some (.ok ([], "\\normalcolor".toList.length)) := by
  obtain ⟨n1, n2⟩ := normal_noName rest
  have hm : colorMatch ("\\normalcolor".toList ++ rest) = some ⟨none, 12⟩ := by
    unfold colorMatch
    rw [Style.lit_miss _ _ _ (by decide +kernel), if_neg (by simp), if_pos]
    refine ⟨List.isPrefixOf_iff_prefix.2 ⟨_, rfl⟩, ?_⟩
    rw [show ("\\normalcolor".toList ++ rest).drop 12 = rest from rfl]
    cases hc : rest.head? with
    | none => simp
    | some c => simp [hr c hc]
  unfold handle
  rw [show Legacy.Kind.font.match ("\\normalcolor".toList ++ rest) = none from n1, show Legacy.Kind.size.match ("\\normalcolor".toList ++ rest) = none from n2,
    show Legacy.Kind.color.match ("\\normalcolor".toList ++ rest) = _ from hm]
  simp only [Option.map]
  unfold handleHit
  simp only
  rw [if_pos (show startsWith ("\\normalcolor".toList ++ rest) "\\normalcolor".toList = true from List.isPrefixOf_iff_prefix.2 ⟨_, rfl⟩)]
  rfl

theorem colorMatch_at (ws0 : Str) (m : Option Str) (ws r : Str) (h0 : ∀ c ∈ ws0, isSpace c = true) (hm : ∀ x ∈ m, x ≠ [] ∧ ∀ y ∈ x, isWord y = true) (hws : ∀ c ∈ ws, isSpace c = true) :
    colorMatch ("\\color".toList ++ (ws0 ++ (colorModel m ++ (ws ++ '{' :: r)))) = some ⟨m, ("\\color".toList ++ (ws0 ++ (colorModel m ++ (ws ++ ['{'])))).length⟩ := by
  cases m with
  | none =>
    have h : ∀ c ∈ ws0 ++ ws, isSpace c = true := fun c hc => by
      rcases List.mem_append.1 hc with hc | hc
      · exact h0 c hc
      · exact hws c hc
    obtain ⟨d1, d2⟩ := Style.dropWhile_ws' (ws0 ++ ws) '{' r h (by decide)
    rw [List.append_assoc] at d1 d2
    show colorMatch ("\\color".toList ++ (ws0 ++ (ws ++ '{' :: r))) = _
    unfold colorMatch
    rw [if_pos (show startsWith ("\\color".toList ++ (ws0 ++ (ws ++ '{' :: r))) "\\color".toList = true from List.isPrefixOf_iff_prefix.2 ⟨_, rfl⟩),
      show ("\\color".toList ++ (ws0 ++ (ws ++ '{' :: r))).drop 6 = ws0 ++ (ws ++ '{' :: r) from rfl]
    simp only [d2]
    rw [show (ws0 ++ (ws ++ '{' :: r)).drop (ws0 ++ ws).length = '{' :: r by rw [← List.append_assoc, List.drop_left]]
    simp [Style.wordOption, show isSpace '{' = false from rfl, colorModel]
    omega
  | some m =>
    obtain ⟨m1, m2⟩ := hm m rfl
    obtain ⟨d1, d2⟩ := Style.dropWhile_ws' ws0 '[' (m ++ ']' :: (ws ++ '{' :: r)) h0 (by decide)
    obtain ⟨d3, d4⟩ := Style.dropWhile_ws' ws '{' r hws (by decide)
    rw [show colorModel (some m) ++ (ws ++ '{' :: r) = '[' :: (m ++ ']' :: (ws ++ '{' :: r)) by simp [colorModel]]
    unfold colorMatch
    rw [if_pos (show startsWith ("\\color".toList ++ (ws0 ++ '[' :: (m ++ ']' :: (ws ++ '{' :: r)))) "\\color".toList = true from List.isPrefixOf_iff_prefix.2 ⟨_, rfl⟩),
      show ("\\color".toList ++ (ws0 ++ '[' :: (m ++ ']' :: (ws ++ '{' :: r)))).drop 6 = ws0 ++ '[' :: (m ++ ']' :: (ws ++ '{' :: r)) from rfl]
    simp only [d2, List.drop_left, Style.wordOption_hit m _ m1 m2]
    have e : ('[' :: (m ++ ']' :: (ws ++ '{' :: r))).drop (m.length + 2) = ws ++ '{' :: r := by
      rw [show '[' :: (m ++ ']' :: (ws ++ '{' :: r)) = ('[' :: (m ++ [']'])) ++ (ws ++ '{' :: r) by simp, show m.length + 2 = ('[' :: (m ++ [']'])).length by simp, List.drop_left]
    rw [e, d3, d4]
    simp [colorModel]
    omega

theorem color_start (X : Str) (hit : Hit) (h : colorMatch ("\\color".toList ++ X) = some hit) : handle ("\\color".toList ++ X) = some (handleHit ("\\color".toList ++ X) .color hit) := by
  obtain ⟨n1, n2⟩ := color_noName X
  unfold handle
  rw [show Legacy.Kind.font.match ("\\color".toList ++ X) = none from n1, show Legacy.Kind.size.match ("\\color".toList ++ X) = none from n2,
    show Legacy.Kind.color.match ("\\color".toList ++ X) = _ from h]
  rfl

theorem handleHit_color (s t : Str) (h : Hit) (e : Nat) (h1 : startsWith s "\\normalcolor".toList = false) (h2 : extractNestedContent ('{' :: s.drop h.len) '{' '}' = some (t, e)) :
    handleHit s .color h = handleSwitch s .color h.cmd ("textcolor".toList ++ (colorModel h.cmd ++ '{' :: (t ++ ['}']))) (h.len + (e - 1)) := by
  unfold handleHit
  simp only [h1, h2]
  cases h.cmd <;> rfl

theorem handle_color (ws0 : Str) (m : Option Str) (ws c next tail close : Str) (parts : List (Str × Part))
    (h0 : ∀ x ∈ ws0, isSpace x = true) (hm : ∀ x ∈ m, x ≠ [] ∧ ∀ y ∈ x, isWord y = true) (hws : ∀ x ∈ ws, isSpace x = true) (hcol : Wrappable '{' '}' c)
    (hw : Wrappable '{' '}' (pieces parts tail ++ next)) (hc : GroupEnd close) (hne : close ≠ [] → pieces parts tail ++ next ≠ [])
    (hn : next = [] ∨ SwitchAt .color next) (hp : NoPairs (pieces parts tail ++ next)) (hok : PiecesOk .color next parts tail) (hend : ¬ EndsWithSwitch (pieces parts tail)) :
    handle ("\\color".toList ++ (ws0 ++ (colorModel m ++ (ws ++ '{' :: (c ++ '}' :: (pieces parts tail ++ (next ++ close))))))) =
      some (.ok ("\\textcolor".toList ++ (colorModel m ++ wrapAll '{' '}' [([], c), ([], pieces parts tail)]),
        ("\\color".toList ++ (ws0 ++ (colorModel m ++ (ws ++ '{' :: (c ++ '}' :: pieces parts tail))))).length + offLen .color m (next ++ close))) := by
  have hM := colorMatch_at ws0 m ws (c ++ '}' :: (pieces parts tail ++ (next ++ close))) h0 hm hws
  rw [color_start _ _ hM]
  have hs := handleSwitch_eq .color ("\\color".toList ++ (ws0 ++ (colorModel m ++ (ws ++ '{' :: (c ++ ['}']))))) next tail close parts m
    ("textcolor".toList ++ (colorModel m ++ '{' :: (c ++ ['}']))) hw hc hne hn hp hok hend
  have es : "\\color".toList ++ (ws0 ++ (colorModel m ++ (ws ++ '{' :: (c ++ ['}'])))) ++ (pieces parts tail ++ (next ++ close)) =
      "\\color".toList ++ (ws0 ++ (colorModel m ++ (ws ++ '{' :: (c ++ '}' :: (pieces parts tail ++ (next ++ close)))))) := by simp
  rw [es] at hs
  have hd : ("\\color".toList ++ (ws0 ++ (colorModel m ++ (ws ++ '{' :: (c ++ '}' :: (pieces parts tail ++ (next ++ close))))))).drop ("\\color".toList ++ (ws0 ++ (colorModel m ++ (ws ++ ['{'])))).length =
      c ++ '}' :: (pieces parts tail ++ (next ++ close)) := by
    rw [show "\\color".toList ++ (ws0 ++ (colorModel m ++ (ws ++ '{' :: (c ++ '}' :: (pieces parts tail ++ (next ++ close)))))) =
      ("\\color".toList ++ (ws0 ++ (colorModel m ++ (ws ++ ['{'])))) ++ (c ++ '}' :: (pieces parts tail ++ (next ++ close))) by simp, List.drop_left]
  have hx := Style.extract_wrapped '{' '}' (by decide) (by decide) (by decide) c (pieces parts tail ++ (next ++ close)) hcol
  have el : ("\\color".toList ++ (ws0 ++ (colorModel m ++ (ws ++ ['{'])))).length + (c.length + 2 - 1) = ("\\color".toList ++ (ws0 ++ (colorModel m ++ (ws ++ '{' :: (c ++ ['}']))))).length := by
    generalize "\\color".toList = kw
    simp only [List.length_append, List.length_cons, List.length_nil]
    omega
  rw [← hd] at hx
  rw [handleHit_color _ c _ _ (Style.lit_miss _ _ _ (by decide +kernel)) hx]
  show some (handleSwitch _ .color m _ _) = _
  rw [el, hs]
  have w1 : wrap ("textcolor".toList ++ (colorModel m ++ '{' :: (c ++ ['}']))) (pieces parts tail) = "\\textcolor".toList ++ (colorModel m ++ wrapAll '{' '}' [([], c), ([], pieces parts tail)]) := by
    unfold wrap
    rw [show "\\textcolor".toList = '\\' :: "textcolor".toList from rfl]
    generalize "textcolor".toList = kw
    simp [wrapAll]
  have w2 : ("\\color".toList ++ (ws0 ++ (colorModel m ++ (ws ++ '{' :: (c ++ '}' :: pieces parts tail))))).length =
      ("\\color".toList ++ (ws0 ++ (colorModel m ++ (ws ++ '{' :: (c ++ ['}']))))).length + (pieces parts tail).length := by
    generalize "\\color".toList = kw
    simp only [List.length_append, List.length_cons, List.length_nil]
    omega
  rw [w1, w2]

/-- C58: a colour switch is `\textcolor` with the same model and colour around the text up to the next colour switch, the end of the group or of everything. -/
theorem C58_color (ws0 : Str) (m : Option Str) (ws c next tail close : Str) (parts : List (Str × Part))
    (h0 : ∀ x ∈ ws0, isSpace x = true) (hm : ∀ x ∈ m, x ≠ [] ∧ ∀ y ∈ x, isWord y = true) (hws : ∀ x ∈ ws, isSpace x = true) (hcol : Wrappable '{' '}' c)
    (hw : Wrappable '{' '}' (pieces parts tail ++ next)) (hc : GroupEnd close) (hne : close ≠ [] → pieces parts tail ++ next ≠ [])
    (hn : next = [] ∨ (SwitchAt .color next ∧ ∀ x ∈ m, 'c' ∉ x ∧ 'n' ∉ x)) (hp : NoPairs (pieces parts tail ++ next)) (hok : PiecesOk .color next parts tail) (hend : ¬ EndsWithSwitch (pieces parts tail)) :
    handle ("\\color".toList ++ (ws0 ++ (colorModel m ++ (ws ++ '{' :: (c ++ '}' :: (pieces parts tail ++ (next ++ close))))))) =
      some (.ok ("\\textcolor".toList ++ (colorModel m ++ wrapAll '{' '}' [([], c), ([], pieces parts tail)]),
        ("\\color".toList ++ (ws0 ++ (colorModel m ++ (ws ++ '{' :: (c ++ '}' :: pieces parts tail))))).length)) := by
  rw [handle_color ws0 m ws c next tail close parts h0 hm hws hcol hw hc hne (hn.imp id (·.1)) hp hok hend]
  have ho : offLen .color m (next ++ close) = 0 := by
    cases m with
    | none => rfl
    | some x =>
      have : offSwitch .color x (next ++ close) = false := by
        rcases hn with rfl | ⟨hn, hx⟩
        · rcases hc with rfl | ⟨rest, rfl⟩
          · rfl
          · rfl
        · obtain ⟨x1, x2⟩ := hx x rfl
          cases hn with
          | name r h1 _ => cases h1
          | color h =>
            cases h with
            | plain ws r _ => show x.contains 'c' = false; simpa using x1
            | model ws m ws' r _ _ _ _ => show x.contains 'c' = false; simpa using x1
            | normal r _ => show x.contains 'n' = false; simpa using x2
      unfold offLen
      simp [this]
  rw [ho, Nat.add_zero]

/-! A switch of another kind at the end of the text. -/

theorem suffix_switch {m n T0 : Str} (hm : '\\' ∉ m) (hn : '\\' ∉ n) (h : '\\' :: m <:+ T0 ++ '\\' :: n) : m = n := by
  obtain ⟨x, hx⟩ := h
  have h1 : ('\\' :: m) <:+ T0 ++ '\\' :: n := ⟨x, hx⟩
  have h2 : ('\\' :: n) <:+ T0 ++ '\\' :: n := ⟨T0, rfl⟩
  rcases List.suffix_or_suffix_of_suffix h1 h2 with h | h
  · obtain ⟨y, hy⟩ := h
    cases y with
    | nil => injection hy
    | cons c y => exfalso; injection hy with _ hy; exact hn (by rw [← hy]; simp)
  · obtain ⟨y, hy⟩ := h
    cases y with
    | nil => injection hy with _ hy; exact hy.symm
    | cons c y => exfalso; injection hy with _ hy; exact hm (by rw [← hy]; simp)

theorem allNames_bs : ∀ n ∈ allNames, '\\' ∉ n := by decide +kernel

theorem trailing_one (n T0 : Str) (hn : n ∈ allNames) : ∀ (l : List Str), l.Nodup → (∀ m ∈ l, m ∈ allNames) → n ∈ l → (∀ m ∈ allNames, ¬ '\\' :: m <:+ rstrip T0) →
    trailing l (T0 ++ '\\' :: n) [] = (rstrip T0, ['\\' :: n])
  | [], _, _, h, _ => by cases h
  | m :: l, hd, hl, h, h0 => by
    unfold trailing
    rw [List.nodup_cons] at hd
    by_cases e : m = n
    · subst e
      rw [if_pos (by rw [List.isSuffixOf_iff_suffix]; exact ⟨T0, rfl⟩)]
      rw [show (T0 ++ '\\' :: m).length - (m.length + 1) = T0.length by simp, List.take_left]
      exact trailing_none l _ _ fun x hx => h0 x (hl x (by simp [hx]))
    · rw [if_neg (by rw [List.isSuffixOf_iff_suffix]; exact fun hs => e (suffix_switch (allNames_bs m (hl m (by simp))) (allNames_bs n hn) hs))]
      refine trailing_one n T0 hn l hd.2 (fun x hx => hl x (by simp [hx])) ?_ h0
      rcases List.mem_cons.1 h with h | h
      · exact absurd h.symm e
      · exact h

theorem format_trailing (modern T0 ws : Str) {k : Legacy.Kind} {n st : String} (h : (n, st) ∈ switchTable k) (hws : ∀ c ∈ ws, isSpace c = true) (h0 : ¬ EndsWithSwitch T0) :
    format modern (T0 ++ ('\\' :: n.toList ++ ws)) = wrap modern (rstrip T0) ++ ' ' :: '\\' :: n.toList := by
  have hn := table_allNames h
  have hl : ∀ n ∈ allNames, ∃ c, n.getLast? = some c ∧ isSpace c = false := by
    have : ∀ n ∈ allNames, (n.getLast?.map isSpace) = some false := by decide +kernel
    intro n hn
    have := this n hn
    cases hg : n.getLast? with
    | none => rw [hg] at this; cases this
    | some c => rw [hg] at this; exact ⟨c, rfl, by simpa using this⟩
  have hr : rstrip (T0 ++ ('\\' :: n.toList ++ ws)) = T0 ++ '\\' :: n.toList := by
    rw [← List.append_assoc]
    obtain ⟨c, hc, hc2⟩ := hl _ hn
    exact rstrip_eq_of _ ws hws (fun x hx => by
      rw [List.getLast?_append, List.getLast?_cons, hc] at hx
      simp at hx
      rw [← hx]; exact hc2)
  unfold format
  rw [hr, if_neg (by simp)]
  rw [trailing_one n.toList T0 hn allNames (by decide +kernel) (fun _ h => h) hn (fun m hm hs => by
      obtain ⟨k, st, hk⟩ := allNames_table m hm
      exact h0 ⟨k, _, st, hk, by rw [String.toList_ofList]; exact hs⟩)]
  rfl

/-- C58: a switch of the other kind at the end of the text (before the next switch, or the end of the group) is kept, behind the text. -/
theorem C58_trailing {k k' : Legacy.Kind} {n style n' style' : String} (h : (n, style) ∈ switchTable k) (h' : (n', style') ∈ switchTable k') (ws next tail close T0 bl : Str) (parts : List (Str × Part))
    (hws : ∀ c ∈ ws, isSpace c = true) (hstart : ∀ c ∈ (pieces parts tail ++ (next ++ close)).head?, isSpace c = false ∧ c ≠ '{')
    (hX : NoLetterAt (ws ++ (pieces parts tail ++ (next ++ close))))
    (hw : Wrappable '{' '}' (pieces parts tail ++ next)) (hc : GroupEnd close) (hne : close ≠ [] → pieces parts tail ++ next ≠ [])
    (hn : next = [] ∨ (SwitchAt k next ∧ ¬ '\\' :: n.toList <+: next ++ close)) (hp : NoPairs (pieces parts tail ++ next)) (hok : PiecesOk k next parts tail)
    (htext : pieces parts tail = T0 ++ ('\\' :: n'.toList ++ bl)) (hbl : ∀ c ∈ bl, isSpace c = true) (hend : ¬ EndsWithSwitch T0) :
    ∃ cmd, (n, cmd) ∈ modernTable ∧ (cmd, some style) ∈ styleTable ∧ handle ('\\' :: (n.toList ++ (ws ++ (pieces parts tail ++ (next ++ close))))) =
      some (.ok (command cmd [] (rstrip T0) ++ ' ' :: '\\' :: n'.toList, ('\\' :: (n.toList ++ (ws ++ pieces parts tail))).length)) := by
  obtain ⟨cmd, h0, h1, h2⟩ := handle_format h ws next tail close parts hws hstart hX hw hc hne (hn.imp id (·.1)) hp hok
  refine ⟨cmd, h0, h1, ?_⟩
  have ho : offLen k (some n.toList) (next ++ close) = 0 := offLen_none h hc (hn.imp id (·.2))
  rw [h2, ho, Nat.add_zero, htext, format_trailing _ T0 bl h' hbl hend, wrap_command]

/-! What does not hold. -/

/-- C58 fails when the name of the next switch of the kind starts with the name of this one: the start of the next switch is swallowed, and what is left of
its name is text. -/
theorem C58_violated_prefix {k : Legacy.Kind} {n style m style' : String} (h : (n, style) ∈ switchTable k) (hm : (m, style') ∈ switchTable k) (ws tail close x r : Str) (parts : List (Str × Part))
    (hmx : m.toList = n.toList ++ x) (hx : x ≠ []) (hr : NoLetterAt r)
    (hws : ∀ c ∈ ws, isSpace c = true) (hstart : ∀ c ∈ (pieces parts tail ++ ('\\' :: (n.toList ++ x) ++ r ++ close)).head?, isSpace c = false ∧ c ≠ '{')
    (hX : NoLetterAt (ws ++ (pieces parts tail ++ ('\\' :: (n.toList ++ x) ++ r ++ close))))
    (hw : Wrappable '{' '}' (pieces parts tail ++ ('\\' :: (n.toList ++ x) ++ r))) (hc : GroupEnd close)
    (hp : NoPairs (pieces parts tail ++ ('\\' :: (n.toList ++ x) ++ r))) (hok : PiecesOk k ('\\' :: (n.toList ++ x) ++ r) parts tail) (hend : ¬ EndsWithSwitch (pieces parts tail)) :
    ∃ cmd used, handle ('\\' :: (n.toList ++ (ws ++ (pieces parts tail ++ ('\\' :: (n.toList ++ x) ++ r ++ close))))) = some (.ok (command cmd [] (pieces parts tail), used)) ∧
      ('\\' :: (n.toList ++ (ws ++ (pieces parts tail ++ ('\\' :: (n.toList ++ x) ++ r ++ close))))).drop used = x ++ r ++ close ∧ (x ++ r ++ close).head? ≠ some '\\' := by
  have hsw : SwitchAt k ('\\' :: (n.toList ++ x) ++ r) := by rw [← hmx]; exact .name r hm hr
  obtain ⟨cmd, h0, h1, h2⟩ := handle_switch h ws ('\\' :: (n.toList ++ x) ++ r) tail close parts hws hstart hX hw hc (fun _ => by simp) (.inr hsw) hp hok hend
  have ho : offLen k (some n.toList) ('\\' :: (n.toList ++ x) ++ r ++ close) = n.toList.length + 1 := by
    have : offSwitch k n.toList ('\\' :: (n.toList ++ x) ++ r ++ close) = true := by
      have hs : startsWith ('\\' :: (n.toList ++ x) ++ r ++ close) ('\\' :: n.toList) = true := List.isPrefixOf_iff_prefix.2 ⟨x ++ r ++ close, by simp⟩
      unfold offSwitch
      cases k with
      | color => cases h
      | font => exact hs
      | size => exact hs
    unfold offLen
    simp only [this, if_true]
    cases k with
    | color => cases h
    | font => rfl
    | size => rfl
  refine ⟨cmd, _, h2, ?_, ?_⟩
  · rw [ho]
    rw [show '\\' :: (n.toList ++ (ws ++ (pieces parts tail ++ ('\\' :: (n.toList ++ x) ++ r ++ close)))) = ('\\' :: (n.toList ++ (ws ++ pieces parts tail)) ++ '\\' :: n.toList) ++ (x ++ r ++ close) by simp,
      show ('\\' :: (n.toList ++ (ws ++ pieces parts tail))).length + (n.toList.length + 1) = ('\\' :: (n.toList ++ (ws ++ pieces parts tail)) ++ '\\' :: n.toList).length by simp; omega, List.drop_left]
  · cases x with
    | nil => exact absurd rfl hx
    | cons c x =>
      intro hh
      simp at hh
      subst hh
      exact allNames_bs _ (table_allNames hm) (by rw [hmx]; simp)

/-- What is left of a text. -/
def shown (s : String) : Option (Option (String × String)) :=
  (handle s.toList).map fun
    | .ok (t, n) => some (String.ofList t, String.ofList (s.toList.drop n))
    | .error _ => none

example : shown "\\it a \\itshape b" = some (some ("\\textit{a }", "shape b")) := by decide +kernel
example : shown "\\large x \\larger y" = some (some ("\\textlarge{x }", "r y")) := by decide +kernel

/-- It fails for a colour model with a `c` or an `n`: it is read as a set of characters, and the next colour switch is cut. -/
theorem C58_violated_model : shown "\\color[cmyk]{0,0,0,1} a \\color{red} b" = some (some ("\\textcolor[cmyk]{0,0,0,1}{ a }", "red} b")) ∧
    shown "\\color[named]{Red} a \\normalcolor b" = some (some ("\\textcolor[named]{Red}{ a }", "olor b")) := by constructor <;> decide +kernel

/-- A brace that is not closed raises an exception, for every switch. -/
theorem C58_violated_unclosed {k : Legacy.Kind} {n style : String} (h : (n, style) ∈ switchTable k) (ws body : Str) (hws : ∀ c ∈ ws, isSpace c = true) (hb : Balanced body '{' '}') :
    handle ('\\' :: (n.toList ++ (ws ++ '{' :: body))) = some (.error ()) := by
  rw [handle_name h ws _ hws (by intro c hc; cases hc; rfl) (Style.brace_letter ws _ hws)]
  simp only [List.head?_cons, if_true]
  have ht : (('\\' :: (n.toList ++ (ws ++ '{' :: body))).take (1 + n.toList.length + ws.length + 1)).getLast? = some '{' := by
    rw [show '\\' :: (n.toList ++ (ws ++ '{' :: body)) = ('\\' :: (n.toList ++ (ws ++ ['{']))) ++ body by simp,
      show 1 + n.toList.length + ws.length + 1 = ('\\' :: (n.toList ++ (ws ++ ['{']))).length by simp; omega, List.take_left]
    rw [show '\\' :: (n.toList ++ (ws ++ ['{'])) = ('\\' :: (n.toList ++ ws)) ++ ['{'] by simp, List.getLast?_concat]
  have hd : ('\\' :: (n.toList ++ (ws ++ '{' :: body))).drop (1 + n.toList.length + ws.length) = '{' :: body := by
    rw [show '\\' :: (n.toList ++ (ws ++ '{' :: body)) = ('\\' :: (n.toList ++ ws)) ++ '{' :: body by simp,
      show 1 + n.toList.length + ws.length = ('\\' :: (n.toList ++ ws)).length by simp; omega, List.drop_left]
  unfold handleHit
  cases k with
  | color => cases h
  | font => simp only; rw [if_pos ht, Nat.add_sub_cancel, hd, extract_open body hb]
  | size => simp only; rw [if_pos ht, Nat.add_sub_cancel, hd, extract_open body hb]

/-- It fails for a switch with nothing before the end of the group: the brace and all that follows are taken for its text. -/
theorem C58_violated_brace : shown "\\bf} x {\\it y}" = some (some ("\\textbf{} x {\\it y}}", "")) := by decide +kernel

/-- It fails for a text that ends with a line break and the name of a switch: this is taken for a switch. -/
theorem C58_violated_break : shown "\\large a \\\\it" = some (some ("\\textlarge{a \\} \\it", "")) := by decide +kernel

/-! Instances. -/

/-- Decides `QuietPiece`. -/
def quietB (k : Legacy.Kind) (prev : Option Char) : Str → Str → Bool
  | [], _ => prev ≠ some '\\'
  | c :: t, R => !(k.match (c :: t ++ R)).isSome && !startsWith (c :: t ++ R) "\\begin".toList && !startsWith (c :: t ++ R) "\\bgroup".toList &&
      (c ≠ '{' || prev = some '\\') && quietB k (some c) t R

theorem quietB_sound (k : Legacy.Kind) : ∀ (t R : Str) (prev : Option Char), quietB k prev t R = true →
    (∀ u v, t = u ++ v → v ≠ [] → ¬ SwitchAt k (v ++ R) ∧ ¬ "\\begin".toList <+: v ++ R ∧ ¬ "\\bgroup".toList <+: v ++ R) ∧
    (∀ u v, t = u ++ '{' :: v → (u.getLast?.or prev) = some '\\') ∧ (t.getLast?.or prev) ≠ some '\\'
  | [], R, prev, h => by
    refine ⟨?_, ?_, ?_⟩
    · intro u v e hv; exact absurd (List.append_eq_nil_iff.1 e.symm).2 hv
    · intro u v e; simp at e
    · simpa [quietB] using h
  | c :: t, R, prev, h => by
    unfold quietB at h
    simp only [Bool.and_eq_true, Bool.not_eq_true', Bool.or_eq_true, decide_eq_true_eq] at h
    obtain ⟨⟨⟨⟨h1, h2⟩, h3⟩, h4⟩, h5⟩ := h
    obtain ⟨i1, i2, i3⟩ := quietB_sound k t R (some c) h5
    refine ⟨?_, ?_, ?_⟩
    · intro u v e hv
      cases u with
      | nil =>
        rw [List.nil_append] at e
        subst e
        refine ⟨fun hh => ?_, fun hh => ?_, fun hh => ?_⟩
        · rw [(switch_iff k _).2 hh] at h1; cases h1
        · rw [startsWith, List.isPrefixOf_iff_prefix.2 hh] at h2; cases h2
        · rw [startsWith, List.isPrefixOf_iff_prefix.2 hh] at h3; cases h3
      | cons y u => rw [List.cons_append] at e; injection e with _ e; exact i1 u v e hv
    · intro u v e
      cases u with
      | nil =>
        rw [List.nil_append] at e
        injection e with e _
        rcases h4 with h4 | h4
        · exact absurd e (by simpa using h4)
        · simpa using h4
      | cons y u =>
        rw [List.cons_append] at e; injection e with e1 e
        have := i2 u v e
        rw [List.getLast?_cons]
        subst e1
        cases hg : u.getLast? with
        | none => rw [hg] at this; simpa using this
        | some z => rw [hg] at this; simpa using this
    · rw [List.getLast?_cons]
      cases hg : t.getLast? with
      | none => rw [hg] at i3; simpa using i3
      | some z => rw [hg] at i3; simpa using i3

theorem quiet_of {k : Legacy.Kind} {t R : Str} (h : quietB k none t R = true) : QuietPiece k t R := by
  obtain ⟨h1, h2, h3⟩ := quietB_sound k t R none h
  exact ⟨h1, fun u v e => by simpa using h2 u v e, by simpa using h3⟩

theorem notEnds_of {t : Str} (h : (allNames.all fun n => !('\\' :: n).isSuffixOf (rstrip t)) = true) : ¬ EndsWithSwitch t := by
  rintro ⟨k, n, st, hn, hs⟩
  have := List.all_eq_true.1 h _ (table_allNames hn)
  rw [List.isSuffixOf_iff_suffix.2 hs] at this
  cases this

def exParts : List (Str × Part) := [("a ".toList, .braces "\\it b".toList), (" ".toList, .block (.env "x".toList "\\begin{x}".toList "\\it c".toList "\\end{x}".toList))]

theorem exParts_ok (k : Legacy.Kind) (next : Str) (h : quietB k none "a ".toList ("{\\it b} \\begin{x}\\it c\\end{x} d ".toList ++ next) = true)
    (h1 : quietB k none " ".toList ("\\begin{x}\\it c\\end{x} d ".toList ++ next) = true) (h2 : quietB k none " d ".toList next = true) : PiecesOk k next exParts " d ".toList := by
  refine ⟨quiet_of h, by unfold Part.Ok Wrappable; decide +kernel, (fun b hb => by cases hb), quiet_of h1, ?_, ?_, quiet_of h2⟩
  · refine ⟨by decide, by decide, by decide +kernel, ?_, ⟨[], by simp, by decide +kernel⟩, ⟨[], by simp, by decide +kernel⟩⟩
    exact .plain _ (EnvT.noDelim_of_absent _ _ _ (by decide) (by decide +kernel)) (EnvT.noDelim_of_absent _ _ _ (by decide) (by decide +kernel))
  · intro b hb x hx; cases hx; rfl

/-- All hypotheses of `C58_switch` are met. -/
example : ∃ cmd, ("bf", cmd) ∈ modernTable ∧ (cmd, some "bold") ∈ styleTable ∧ handle "\\bf a {\\it b} \\begin{x}\\it c\\end{x} d \\it e} f".toList =
    some (.ok (command cmd [] "a {\\it b} \\begin{x}\\it c\\end{x} d ".toList, 38)) :=
  C58_switch (k := .font) (n := "bf") (style := "bold") (by simp [switchTable, fontSwitches]) " ".toList "\\it e".toList " d ".toList "} f".toList exParts (by decide) (by decide +kernel)
    (by unfold NoLetterAt; decide +kernel) (by unfold Wrappable; decide +kernel) (.inr ⟨" f".toList, rfl⟩) (fun _ => by decide +kernel)
    (.inr ⟨.name (n := "it") (style := "italic") " e".toList (by simp [switchTable, fontSwitches]) (by unfold NoLetterAt; decide), by decide +kernel⟩) (EnvT.noPairs_of (by decide +kernel))
    (exParts_ok _ _ (by decide +kernel) (by decide +kernel) (by decide +kernel)) (notEnds_of (by decide +kernel))

example : shown "\\bf a {\\it b} \\begin{x}\\it c\\end{x} d \\it e} f" = some (some ("\\textbf{a {\\it b} \\begin{x}\\it c\\end{x} d }", "\\it e} f")) := by decide +kernel

example := C58_off (k := .size) (n := "large") (style := "large") (by simp [switchTable, sizeSwitches]) " ".toList " d ".toList "} f".toList " g".toList exParts (by decide) (by decide +kernel)
  (by unfold NoLetterAt; decide +kernel) (by unfold NoLetterAt; decide +kernel) (by unfold Wrappable; decide +kernel) (.inr ⟨" f".toList, rfl⟩) (EnvT.noPairs_of (by decide +kernel))
  (exParts_ok _ _ (by decide +kernel) (by decide +kernel) (by decide +kernel)) (notEnds_of (by decide +kernel))

example := C58_color " ".toList (some "rgb".toList) [] "1,0,0".toList "\\color{red} x".toList " d ".toList "} f".toList exParts (by decide) (fun x hx => by cases hx; decide +kernel) (by decide)
  (by unfold Wrappable; decide +kernel) (by unfold Wrappable; decide +kernel) (.inr ⟨" f".toList, rfl⟩) (fun _ => by decide +kernel)
  (.inr ⟨.color (.plain [] "red} x".toList (by decide)), fun x hx => by cases hx; decide +kernel⟩) (EnvT.noPairs_of (by decide +kernel))
  (exParts_ok _ _ (by decide +kernel) (by decide +kernel) (by decide +kernel)) (notEnds_of (by decide +kernel))

example := C58_trailing (k := .font) (k' := .size) (n := "bf") (style := "bold") (n' := "large") (style' := "large") (by simp [switchTable, fontSwitches]) (by simp [switchTable, sizeSwitches])
  " ".toList [] "a \\large\n".toList "} f".toList "a ".toList "\n".toList [] (by decide) (by decide +kernel) (by unfold NoLetterAt; decide +kernel) (by unfold Wrappable; decide +kernel)
  (.inr ⟨" f".toList, rfl⟩) (fun _ => by decide +kernel) (.inl rfl) (EnvT.noPairs_of (by decide +kernel)) (quiet_of (by decide +kernel)) (by decide +kernel) (by decide) (notEnds_of (by decide +kernel))

example : shown "\\bf a \\large\n} f" = some (some ("\\textbf{a} \\large", "} f")) := by decide +kernel

example := C58_violated_prefix (k := .font) (n := "it") (style := "italic") (m := "itshape") (style' := "italic") (by simp [switchTable, fontSwitches]) (by simp [switchTable, fontSwitches])
  " ".toList "a ".toList [] "shape".toList " b".toList [] (by decide +kernel) (by decide) (by unfold NoLetterAt; decide +kernel) (by decide) (by decide +kernel) (by unfold NoLetterAt; decide +kernel)
  (by unfold Wrappable; decide +kernel) (.inl rfl) (EnvT.noPairs_of (by decide +kernel)) (quiet_of (by decide +kernel)) (notEnds_of (by decide +kernel))

example := C58_braces (k := .font) (n := "mathversion{bold}") (style := "bold") (by simp [switchTable, fontSwitches]) " ".toList " a {b} ".toList "c".toList (by decide) (by unfold Wrappable; decide +kernel)
example := C58_violated_unclosed (k := .font) (n := "bf") (style := "bold") (by simp [switchTable, fontSwitches]) " ".toList "a {b}".toList (by decide) (by unfold Balanced; decide +kernel)

end L2J.Legacy
