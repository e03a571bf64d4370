import Verif.Model.Preamble
import Verif.Spec.Preamble
import Verif.Lemmas.MinLen
import Verif.Lemmas.Bib
/-! C72: the definitions of a preamble. -/
namespace L2J.Pream
open Cmds Defn L2J.Spec

/-! Where commands begin. -/

/-- A command with a name begins here. -/
def isDelim : Str → Bool
  | '\\' :: c :: _ => isNameChar c
  | _ => false

theorem delim_dead {s : Str} (h : isDelim s = false) : Dead delimRe s := by
  cases s with
  | nil => exact Dead.seq (Dead.lit (by rintro ⟨u, hu⟩; simp at hu))
  | cons a t =>
    by_cases ha : a = '\\'
    · subst ha
      intro rev g
      cases t with
      | nil => simp [delimRe, Re.run, Re.lit]
      | cons c t =>
        have hc : isNameChar c = false := h
        simp [delimRe, Re.run, Re.lit, hc]
    · exact Dead.seq (Dead.lit (by rintro ⟨u, hu⟩; simp at hu; exact ha hu.1.symm))

theorem look_eats {c : Char} {t : Str} (h : isNameChar c = true) : Eats (.look (.chr isNameChar)) [] (c :: t) [] [] := by
  intro rev
  simp [Hd, Re.run, h]

theorem delim_match {s : Str} (h : isDelim s = true) (rev : Str) : ∃ m, delimRe.matchAt rev s = some m ∧ m.start = rev.length := by
  obtain ⟨c, t, rfl, h0⟩ : ∃ c t, s = '\\' :: c :: t ∧ isNameChar c = true := by
    unfold isDelim at h
    split at h
    · exact ⟨_, _, rfl, h⟩
    · cases h
  have e : Eats delimRe (['\\'] ++ ([] ++ (c :: t.takeWhile isNameChar))) (t.dropWhile isNameChar) [] [] := by
    refine Eats.seq (g1 := []) (Eats.lit ['\\'] _ _) (Eats.seq (g1 := []) (look_eats h0) ?_)
    refine Eats.plus_chr _ (by simp) ?_ (fun d hd => by
      cases hh : t.dropWhile isNameChar with
      | nil => rw [hh] at hd; cases hd
      | cons y l => rw [hh] at hd; cases hd; exact L2J.dropWhile_head hh)
    intro x hx
    rcases List.mem_cons.1 hx with rfl | hx
    · exact h0
    · exact L2J.takeWhile_all _ _ hx
  have := e.matchAt rev
  simp only [List.nil_append, List.cons_append, List.takeWhile_append_dropWhile] at this
  exact ⟨_, this, rfl⟩

/-- Where the next command with a name begins. -/
def nextDelim : Str → Option Nat
  | [] => none
  | x :: s => if isDelim (x :: s) then some 0 else (nextDelim s).map (· + 1)

theorem delim_search : ∀ (s rev : Str), (delimRe.searchFrom rev s).map (·.start) = (nextDelim s).map (rev.length + ·)
  | [], rev => by
    unfold Re.searchFrom nextDelim
    rw [(delim_dead (s := []) rfl).matchAt rev]
    rfl
  | x :: s, rev => by
    rw [nextDelim]
    unfold Re.searchFrom
    cases h : isDelim (x :: s) with
    | true =>
      obtain ⟨m, h1, h2⟩ := delim_match h rev
      simp [h1, h2]
    | false =>
      rw [(delim_dead h).matchAt rev]
      simp only [delim_search s (x :: rev), Bool.false_eq_true, if_false, Option.map_map, List.length_cons]
      congr 1
      funext k
      simp; omega

theorem delim_next (s : Str) : (delimRe.search s).map (·.start) = nextDelim s := by
  unfold Re.search
  rw [delim_search s []]
  simp

theorem nextDelim_zero {s : Str} (h : nextDelim s = some 0) : isDelim s = true := by
  cases s with
  | nil => cases h
  | cons x s =>
    rw [nextDelim] at h
    cases hd : isDelim (x :: s) with
    | true => rfl
    | false => rw [hd] at h; cases hn : nextDelim s <;> simp [hn] at h

/-- A turn at a command. -/
def turnAt (s : Str) : Except Unit (Option (Bool × Nat)) :=
  match useRe.matchAt [] s with
  | some u => .ok (some (true, u.len))
  | none =>
    match block s with
    | some e => .ok (some (true, e))
    | none =>
      if canHandle s then
        match handle s with
        | .error e => .error e
        | .ok (_, e) => if 0 < e then .ok (some (true, e.toNat)) else .ok (some (false, 1))
      else .ok (some (false, 1))

theorem turn_eq (s : Str) : turn s = match nextDelim s with
    | none => .ok none
    | some (k + 1) => .ok (some (false, k + 1))
    | some 0 => turnAt s := by
  have h := delim_next s
  unfold turn
  cases hd : delimRe.search s with
  | none => rw [hd] at h; rw [← h]; rfl
  | some d =>
    rw [hd] at h
    rw [← h]
    simp only [Option.map_some]
    cases hs : d.start with
    | zero =>
      simp only [Nat.lt_irrefl, if_false]
      unfold turnAt
      rfl
    | succ k => simp

theorem use_min : 1 ≤ useRe.minLen := by decide +kernel
theorem atOther_min : 1 ≤ atOtherRe.minLen := by decide +kernel

/-- Every turn passes something over. -/
theorem turn_pos {s : Str} {k : Bool} {e : Nat} (h : turn s = .ok (some (k, e))) : 0 < e := by
  rw [turn_eq] at h
  cases hn : nextDelim s with
  | none => rw [hn] at h; simp at h
  | some j =>
    rw [hn] at h
    cases j with
    | succ j => simp at h; omega
    | zero =>
      simp only [turnAt] at h
      cases hu : useRe.matchAt [] s with
      | some u =>
        rw [hu] at h
        simp at h
        have := (nonEmpty_of_minLen useRe use_min [] s u hu).1
        omega
      | none =>
        rw [hu] at h
        simp only at h
        cases hb : block s with
        | some b =>
          rw [hb] at h
          simp at h
          unfold block at hb
          cases hl : atLetterRe.matchAt [] s with
          | none => rw [hl] at hb; cases hb
          | some m =>
            rw [hl] at hb
            simp only at hb
            cases ho : atOtherRe.search s with
            | none => rw [ho] at hb; cases hb
            | some o =>
              rw [ho] at hb
              simp at hb
              have h1 := Re.search_minLen atOtherRe s o ho
              have h2 := atOther_min
              unfold Match.stop at hb
              omega
        | none =>
          rw [hb] at h
          simp only at h
          split at h
          · cases hh : handle s with
            | error x => rw [hh] at h; cases h
            | ok r =>
              rw [hh] at h
              simp only at h
              split at h
              · simp at h; omega
              · simp at h; omega
          · simp at h; omega

theorem turn_drop {s : Str} {k : Bool} {e : Nat} (hs : s ≠ []) (h : turn s = .ok (some (k, e))) : (s.drop e).length < s.length := by
  have := turn_pos h
  have : 0 < s.length := List.length_pos_iff.2 hs
  rw [List.length_drop]; omega

/-- Any fuel beyond the length of the text gives the same. -/
theorem loop_fuel : ∀ (n m : Nat) (s : Str), s.length < n → s.length < m → loop n s = loop m s
  | 0, _, _, h, _ => by omega
  | _, 0, _, _, h => by omega
  | n + 1, m + 1, s, h1, h2 => by
    rw [loop, loop]
    split
    · rfl
    · rename_i hs
      cases ht : turn s with
      | error e => rfl
      | ok o =>
        cases o with
        | none => rfl
        | some x =>
          obtain ⟨k, e⟩ := x
          have hd := turn_drop hs ht
          simp only
          rw [loop_fuel n m (s.drop e) (by omega) (by omega)]

theorem collect_eq (s : Str) : collect s = if s = [] then .ok [] else match turn s with
    | .error e => .error e
    | .ok none => .ok []
    | .ok (some (k, e)) =>
      match collect (s.drop e) with
      | .error x => .error x
      | .ok o => .ok (if k then s.take e ++ '\n' :: o else o) := by
  unfold collect
  rw [loop]
  split
  · rfl
  · rename_i hs
    cases ht : turn s with
    | error e => rfl
    | ok o =>
      cases o with
      | none => rfl
      | some x =>
        obtain ⟨k, e⟩ := x
        have hd := turn_drop hs ht
        simp only
        rw [loop_fuel _ ((s.drop e).length + 1) (s.drop e) (by omega) (by omega)]
        rfl

/-- A character at which no command begins is passed over. -/
theorem collect_skip {x : Char} {s : Str} (h : isDelim (x :: s) = false) : collect (x :: s) = collect s := by
  have hn : nextDelim (x :: s) = (nextDelim s).map (· + 1) := by rw [nextDelim, h]; rfl
  rw [collect_eq (x :: s), if_neg (by simp), turn_eq, hn, collect_eq s]
  cases he : nextDelim s with
  | none =>
    have : turn s = .ok none := by rw [turn_eq, he]
    rw [this]
    simp
  | some k =>
    simp only [Option.map_some, List.drop_succ_cons]
    have hs : s ≠ [] := by rintro rfl; cases he
    rw [if_neg hs]
    cases k with
    | succ k =>
      have : turn s = .ok (some (false, k + 1)) := by rw [turn_eq, he]
      rw [this]
      rfl
    | zero =>
      simp only [List.drop_zero, Bool.false_eq_true, if_false]
      rw [collect_eq s, if_neg hs]
      cases ht : turn s with
      | error e => rfl
      | ok o =>
        cases o with
        | none => rfl
        | some x =>
          obtain ⟨k, e⟩ := x
          simp only
          cases collect (s.drop e) <;> rfl

/-- What a turn keeps. -/
theorem collect_keep {t rest o : Str} (h0 : isDelim (t ++ rest) = true) (h1 : turnAt (t ++ rest) = .ok (some (true, t.length))) (h2 : collect rest = .ok o) :
    collect (t ++ rest) = .ok (t ++ '\n' :: o) := by
  have hne : t ++ rest ≠ [] := by intro h; rw [h] at h0; cases h0
  have hn : nextDelim (t ++ rest) = some 0 := by
    cases hh : t ++ rest with
    | nil => exact absurd hh hne
    | cons x s => rw [nextDelim, ← hh, h0]; rfl
  rw [collect_eq, if_neg hne, turn_eq, hn]
  simp only [h1, List.drop_left, h2, if_true, List.take_left]

/-- A command that is not kept. -/
theorem collect_pass {s : Str} (h0 : isDelim s = true) (h1 : turnAt s = .ok (some (false, 1))) : collect s = collect s.tail := by
  have hne : s ≠ [] := by intro h; rw [h] at h0; cases h0
  have hn : nextDelim s = some 0 := by
    cases hh : s with
    | nil => exact absurd hh hne
    | cons x s => rw [nextDelim, ← hh, h0]; rfl
  rw [collect_eq, if_neg hne, turn_eq, hn]
  simp only [h1, List.drop_one]
  cases collect s.tail <;> rfl

/-! The parts of a preamble. -/

theorem text_skip : ∀ (t : Str) {rest : Str}, '\\' ∉ t → collect (t ++ rest) = collect rest
  | [], _, _ => rfl
  | x :: t, rest, h => by
    rw [List.cons_append, collect_skip, text_skip t (fun hx => h (by simp [hx]))]
    have : x ≠ '\\' := by rintro rfl; exact h (by simp)
    unfold isDelim
    split
    · rename_i heq; simp at heq; exact absurd heq.1 this
    · rfl

theorem symbol_skip {c : Char} {rest : Str} (h : isNameChar c = false) (hc : c ≠ '\\') : collect ('\\' :: c :: rest) = collect rest := by
  rw [collect_skip (show isDelim ('\\' :: c :: rest) = false from h)]
  exact text_skip [c] (by simp; exact Ne.symm hc)

theorem bs_skip {rest : Str} (h : NameEnds rest) : isDelim ('\\' :: rest) = false := by
  cases rest with
  | nil => rfl
  | cons c t => exact h c (by simp)

theorem break_skip {rest : Str} (h : NameEnds rest) : collect ('\\' :: '\\' :: rest) = collect rest := by
  rw [collect_skip (show isDelim ('\\' :: '\\' :: rest) = false from rfl), collect_skip (bs_skip h)]

theorem use_dead {s : Str} (h1 : ¬ "\\use".toList <+: s) (h2 : ¬ "\\RequirePackage".toList <+: s) : Dead useRe s := by
  refine Dead.alt (Dead.seq (Dead.alt (Dead.lit ?_) (Dead.lit h2))) (Dead.seq (Dead.lit h1))
  rintro ⟨u, hu⟩
  exact h1 ⟨"package".toList ++ u, by rw [← hu]; rfl⟩

theorem block_none {s : Str} (h : ¬ "\\makeatletter".toList <+: s) : block s = none := by
  unfold block
  rw [(show Dead atLetterRe s from Dead.seq (Dead.lit h)).matchAt []]

theorem name_prefix {w n rest : Str} (hw : ∀ c ∈ w, isNameChar c = true) (hr : NameEnds rest) (h : '\\' :: w <+: '\\' :: (n ++ rest)) : w <+: n := by
  have h : w <+: n ++ rest := (List.cons_prefix_cons.1 h).2
  rcases Fmt.prefix_split h with h | ⟨d, r, e, hd⟩
  · exact h
  · exfalso
    obtain ⟨u, hu⟩ := hd
    have h1 := hr d (by rw [← hu]; rfl)
    have h2 := hw d (by rw [e]; simp)
    rw [h1] at h2; cases h2

theorem cmd_skip {n rest : Str} (h0 : n ≠ []) (h1 : ∀ c ∈ n, isNameChar c = true) (hr : NameEnds rest) (hu : ¬ "use".toList <+: n) (hp : ¬ "RequirePackage".toList <+: n)
    (hm : ¬ "makeatletter".toList <+: n) (hd : Without defineWords ('\\' :: (n ++ rest))) : collect ('\\' :: (n ++ rest)) = collect rest := by
  have hdel : isDelim ('\\' :: (n ++ rest)) = true := by
    cases n with
    | nil => exact absurd rfl h0
    | cons c n => exact h1 c (by simp)
  rw [collect_pass hdel, List.tail_cons, text_skip n]
  · intro hx
    have := h1 _ hx
    revert this; decide
  · unfold turnAt
    rw [(use_dead (fun h => hu (name_prefix (by decide) hr h)) (fun h => hp (name_prefix (by decide) hr h))).matchAt []]
    rw [block_none (fun h => hm (name_prefix (by decide) hr h))]
    simp only [Pre.define_none hd, Bool.false_eq_true, if_false]

theorem opt_dead {a b : Re} {s : Str} (ha : Dead a s) (hb : Dead b s) : Dead (.seq (.opt a) b) s := by
  intro rev g
  show ((a.run ⟨rev, s, g⟩) ++ ([⟨rev, s, g⟩] : List MSt)).flatMap b.run = []
  rw [ha rev g]
  simp [hb rev g]

theorem spaces_dead {b : Re} {s : Str} (hs : ∀ c ∈ s.head?, isSpace c = false) (h : Dead b s) : Dead (.seq spaces b) s := by
  intro rev g
  show ((Re.star reSpace).run ⟨rev, s, g⟩).flatMap b.run = []
  have : (Re.star reSpace).run ⟨rev, s, g⟩ = [⟨rev, s, g⟩] := by
    cases s with
    | nil => simp [Re.run, iterGreedy]
    | cons c t =>
      have hc : isSpace c = false := hs c (by simp)
      simp [Re.run, iterGreedy, reSpace, hc]
  rw [this]
  simp [h rev g]

theorem tail_dead {s : Str} (h : ∀ c ∈ s.head?, isSpace c = false ∧ c ≠ '[' ∧ c ≠ '{') : Dead Pre.packTail s := by
  have h1 : ∀ c ∈ s.head?, isSpace c = false := fun c hc => (h c hc).1
  have hne : ∀ x, (x = '[' ∨ x = '{') → s.head? ≠ some x := by
    intro x hx he
    have := (h x he).2
    rcases hx with rfl | rfl
    · exact this.1 rfl
    · exact this.2 rfl
  exact spaces_dead h1 (opt_dead (Dead.seq (Dead.char (hne _ (.inl rfl)))) (spaces_dead h1 (Dead.seq (Dead.char (hne _ (.inr rfl))))))

theorem letter_name {c : Char} (h : isLetter c = true) : isNameChar c = true := by unfold isNameChar; simp [h]

theorem letter_other {c : Char} (h : isLetter c = true) : isSpace c = false ∧ c ≠ '[' ∧ c ≠ '{' := by
  have h := name_char_facts (letter_name h)
  refine ⟨h.1, ?_, h.2.1⟩
  rintro rfl
  revert h; decide

theorem name_other {c : Char} (h : isNameChar c = true) : isSpace c = false ∧ c ≠ '[' ∧ c ≠ '{' := by
  unfold isNameChar at h
  simp only [Bool.or_eq_true] at h
  rcases h with h | h
  · exact letter_other h
  · have : c = '@' := by simpa using h
    subst this
    decide

theorem plus_dead {p : Char → Bool} {b : Re} {s : Str} (hb : ∀ c t, p c = true → Dead b (c :: t)) (h : ∀ c ∈ s.head?, p c = true → Dead b (s.dropWhile p)) :
    Dead (.seq (.plus (.chr p)) b) s := by
  intro rev g
  show ((Re.plus (.chr p)).run ⟨rev, s, g⟩).flatMap b.run = []
  rw [run_plus_chr_flatMap p b.run rev s g (fun rev x rest hx => hb x rest hx rev g)]
  split
  · rfl
  · next hx =>
    cases s with
    | nil => simp at hx
    | cons c t =>
      by_cases hp : p c = true
      · exact h c rfl hp _ _
      · simp [hp] at hx

theorem name_head {n rest : Str} (h1 : ∀ c ∈ n, isNameChar c = true) (hb : ∀ c ∈ rest.head?, isSpace c = false ∧ c ≠ '[' ∧ c ≠ '{') :
    ∀ c ∈ (n ++ rest).head?, isSpace c = false ∧ c ≠ '[' ∧ c ≠ '{' := by
  intro c hc
  cases n with
  | nil => exact hb c hc
  | cons x n =>
    cases hc
    exact name_other (h1 _ List.mem_cons_self)

theorem use_dead_blocked {n rest : Str} (h1 : ∀ c ∈ n, isNameChar c = true) (hr : NameEnds rest) (hb : ∀ c ∈ rest.head?, isSpace c = false ∧ c ≠ '[' ∧ c ≠ '{') :
    Dead useRe ('\\' :: (n ++ rest)) := by
  have lit : ∀ {w : Str}, (∀ c ∈ w, isNameChar c = true) → Dead (.seq (.lit ('\\' :: w)) Pre.packTail) ('\\' :: (n ++ rest)) := by
    intro w hw
    by_cases hp : '\\' :: w <+: '\\' :: (n ++ rest)
    · obtain ⟨m, rfl⟩ := name_prefix hw hr hp
      have := Dead.after_lit (t := '\\' :: w) (tail_dead (name_head (n := m) (fun c hc => h1 c (by simp [hc])) hb))
      rwa [show ('\\' :: w) ++ (m ++ rest) = '\\' :: (w ++ m ++ rest) from by simp] at this
    · exact Dead.seq (Dead.lit hp)
  refine Dead.alt ?_ ?_
  · intro rev g
    have a1 := lit (w := "usepackage".toList) (by decide) rev g
    have a2 := lit (w := "RequirePackage".toList) (by decide) rev g
    show (((Re.lit "\\usepackage".toList).run ⟨rev, _, g⟩) ++ ((Re.lit "\\RequirePackage".toList).run ⟨rev, _, g⟩)).flatMap Pre.packTail.run = []
    rw [List.flatMap_append]
    exact List.append_eq_nil_iff.2 ⟨a1, a2⟩
  · by_cases hp : "\\use".toList <+: '\\' :: (n ++ rest)
    · obtain ⟨m, rfl⟩ := name_prefix (w := "use".toList) (by decide) hr hp
      have hm : ∀ c ∈ m, isNameChar c = true := fun c hc => h1 c (by simp [hc])
      have hd : Dead (.seq (.plus (.chr isLetter)) Pre.packTail) (m ++ rest) := by
        refine plus_dead (fun c t hc => tail_dead fun d hd => by cases hd; exact letter_other hc) (fun _ _ _ => tail_dead ?_)
        have : ∀ (m : Str), (∀ c ∈ m, isNameChar c = true) → ∀ c ∈ ((m ++ rest).dropWhile isLetter).head?, isSpace c = false ∧ c ≠ '[' ∧ c ≠ '{' := by
          intro m
          induction m with
          | nil =>
            intro _
            cases rest with
            | nil => simp
            | cons x r =>
              have : isLetter x = false := by
                cases hl : isLetter x with
                | false => rfl
                | true =>
                  have := hr x rfl
                  rw [letter_name hl] at this
                  cases this
              simpa [this] using hb
          | cons x m ih =>
            intro hm
            rw [List.cons_append, List.dropWhile_cons]
            split
            · exact ih fun c hc => hm c (by simp [hc])
            · intro c hc; cases hc; exact name_other (hm x (by simp))
        exact this m hm
      have := Dead.after_lit (t := "\\use".toList) hd
      rwa [show "\\use".toList ++ (m ++ rest) = '\\' :: ("use".toList ++ m ++ rest) from by simp] at this
    · exact Dead.seq (Dead.lit hp)

theorem unused_skip {n rest : Str} (h1 : ∀ c ∈ n, isNameChar c = true) (hr : NameEnds rest) (hb : ∀ c ∈ rest.head?, isSpace c = false ∧ c ≠ '[' ∧ c ≠ '{')
    (hu : "use".toList <+: n ∨ "RequirePackage".toList <+: n) (hd : Without defineWords ('\\' :: (n ++ rest))) : collect ('\\' :: (n ++ rest)) = collect rest := by
  have h0 : n ≠ [] := by rintro rfl; rcases hu with ⟨u, hu⟩ | ⟨u, hu⟩ <;> simp at hu
  have hdel : isDelim ('\\' :: (n ++ rest)) = true := by
    cases n with
    | nil => exact absurd rfl h0
    | cons c n => exact h1 c (by simp)
  rw [collect_pass hdel, List.tail_cons, text_skip n]
  · intro hx
    have := h1 _ hx
    revert this; decide
  · unfold turnAt
    rw [(use_dead_blocked h1 hr hb).matchAt [], block_none ?_]
    · simp only [Pre.define_none hd, Bool.false_eq_true, if_false]
    · intro hp
      obtain ⟨m, rfl⟩ := name_prefix (w := "makeatletter".toList) (by decide) hr hp
      rcases hu with ⟨u, hu⟩ | ⟨u, hu⟩ <;> simp at hu

theorem other_none {s : Str} (h : ¬ Contains s "\\makeatother".toList) : atOtherRe.search s = none := by
  unfold Re.search
  rcases Re.searchFrom_spec atOtherRe s [] with ⟨h1, _⟩ | ⟨k, m, hk, h1, h2, _⟩
  · exact h1
  · exfalso
    have hd : ¬ "\\makeatother".toList <+: s.drop k := by
      rintro ⟨t, ht⟩
      refine h ⟨s.take k, t, ?_⟩
      rw [List.append_assoc, ht, List.take_append_drop]
    have := (show Dead atOtherRe (s.drop k) from Dead.seq (Dead.lit hd)).matchAt ((s.take k).reverse ++ [])
    rw [this] at h2; cases h2

theorem opened_block {m rest : Str} (h : (∃ c ∈ m.head?, isWord c = true) ∨ ¬ Contains (m ++ rest) "\\makeatother".toList) :
    block ('\\' :: ("makeatletter".toList ++ m ++ rest)) = none := by
  unfold block
  rcases h with ⟨c, hc, hw⟩ | h
  · cases m with
    | nil => cases hc
    | cons d m =>
      cases hc
      have : Dead atLetterRe ("\\makeatletter".toList ++ (c :: (m ++ rest))) := by
        refine Dead.after_lit ?_
        intro rev g
        simp [Re.run, hw]
      rw [show '\\' :: ("makeatletter".toList ++ c :: m ++ rest) = "\\makeatletter".toList ++ (c :: (m ++ rest)) from by simp, this.matchAt []]
  · cases atLetterRe.matchAt [] ('\\' :: ("makeatletter".toList ++ m ++ rest)) with
    | none => rfl
    | some _ =>
      rw [other_none]
      · rfl
      · rintro ⟨a, b, e⟩
        have e2 : "\\makeatletter".toList ++ (m ++ rest) = a ++ ("\\makeatother".toList ++ b) := by
          rw [← List.append_assoc a, ← e]; simp
        rcases List.append_eq_append_iff.1 e2 with ⟨c, h1, h2⟩ | ⟨c, h1, h2⟩
        · exact h ⟨c, b, by rw [h2]; simp⟩
        · cases c with
          | nil => exact h ⟨[], b, by simpa using h2.symm⟩
          | cons d c =>
            rw [List.cons_append] at h2
            have hd : d = '\\' := by injection h2.symm
            subst hd
            cases a with
            | nil =>
              have h3 : "\\makeatletter".toList ++ (m ++ rest) = "\\makeatother".toList ++ b := by simpa using e2
              simp at h3
            | cons x a =>
              injection h1 with _ h1
              have : '\\' ∈ "makeatletter".toList := by rw [show "makeatletter".toList = a ++ '\\' :: c from h1]; simp
              revert this
              decide

theorem opened_skip {m rest : Str} (h1 : ∀ c ∈ m, isNameChar c = true) (hr : NameEnds rest)
    (h : (∃ c ∈ m.head?, isWord c = true) ∨ ¬ Contains (m ++ rest) "\\makeatother".toList) (hd : Without defineWords ('\\' :: ("makeatletter".toList ++ m ++ rest))) :
    collect ('\\' :: ("makeatletter".toList ++ m ++ rest)) = collect rest := by
  have h2 : ∀ c ∈ "makeatletter".toList ++ m, isNameChar c = true := by
    intro c hc
    rcases List.mem_append.1 hc with hc | hc
    · exact (show ∀ c ∈ "makeatletter".toList, isNameChar c = true by decide) c hc
    · exact h1 c hc
  have hdel : isDelim ('\\' :: ("makeatletter".toList ++ m ++ rest)) = true := h2 'm' (by simp)
  rw [collect_pass hdel, List.tail_cons, text_skip ("makeatletter".toList ++ m)]
  · intro hx
    have := h2 _ hx
    revert this; decide
  · unfold turnAt
    rw [(use_dead (fun h => ?_) (fun h => ?_)).matchAt [], opened_block h]
    · simp only [Pre.define_none hd, Bool.false_eq_true, if_false]
    · obtain ⟨u, hu⟩ := name_prefix (w := "use".toList) (by decide) hr h; simp at hu
    · obtain ⟨u, hu⟩ := name_prefix (w := "RequirePackage".toList) (by decide) hr h; simp at hu

theorem alt_eats_right {a b : Re} {x rest : Str} {g g'} (h0 : Dead a (x ++ rest)) (h : Eats b x rest g g') : Eats (.alt a b) x rest g g' := .right h0 h

theorem use_eats {u : UseText} (h : u.Ok) (rest : Str) : Eats useRe u.written rest [] [(1, u.names)] := by
  obtain ⟨hw, h1, h2, h3, h4, h5, h6⟩ := h
  have he := Pre.packTail_eats (p := ⟨"", u.ws, u.options, u.ws2, u.names⟩) ⟨h1, h2, h3, h4, h5, h6⟩ rest []
  simp only at he
  have hhead : ∀ c ∈ ((u.ws ++ (bracketed u.options ++ (u.ws2 ++ '{' :: (u.names ++ ['}'])))) ++ rest).head?, isLetter c = false := by
    intro c hc
    cases hws : u.ws with
    | cons d t =>
      rw [hws] at hc; simp at hc; subst hc
      have := h1 d (by rw [hws]; simp)
      cases hl : isLetter d with
      | false => rfl
      | true => rw [(letter_other hl).1] at this; cases this
    | nil =>
      rw [hws] at hc
      cases ho : u.options with
      | some o => rw [ho] at hc; simp [bracketed] at hc; subst hc; decide
      | none => rw [ho, h4 ho] at hc; simp [bracketed] at hc; subst hc; decide
  unfold UseText.written useRe
  generalize ht : u.ws ++ (bracketed u.options ++ (u.ws2 ++ '{' :: (u.names ++ ['}']))) = t at he hhead
  rcases hw with hw | hw | ⟨n, hn, hl, hw⟩
  · rw [hw]
    exact Eats.left (Eats.seq (g1 := []) (Eats.left (Eats.lit _ _ _)) he)
  · rw [hw]
    exact Eats.left (Eats.seq (g1 := []) (Eats.right (Dead.lit (by rintro ⟨u, hu⟩; simp at hu)) (Eats.lit _ _ _)) he)
  · rw [hw]
    have hB : Eats (.seq (.lit "\\use".toList) (.seq (.plus (.chr isLetter)) Pre.packTail)) (("\\use".toList ++ n) ++ t) rest [] [(1, u.names)] := by
      rw [List.append_assoc]
      exact Eats.seq (g1 := []) (Eats.lit _ _ _) (Eats.seq (g1 := []) (Eats.plus_chr _ hn hl hhead) he)
    by_cases hp : "package".toList <+: n
    · obtain ⟨m, rfl⟩ := hp
      by_cases hm : m = []
      · subst hm
        exact Eats.left (Eats.seq (x := "\\usepackage".toList) (g1 := []) (Eats.left (Eats.lit _ _ _)) he)
      · refine Eats.right ?_ hB
        have e : ("\\use".toList ++ ("package".toList ++ m)) ++ t ++ rest = "\\usepackage".toList ++ (m ++ (t ++ rest)) := by
          simp
        rw [e]
        have hd : Dead Pre.packTail (m ++ (t ++ rest)) := by
          refine tail_dead ?_
          cases m with
          | nil => exact absurd rfl hm
          | cons c m =>
            intro d hd
            simp at hd; subst hd
            exact letter_other (hl c (by simp))
        intro rev g
        have h1 := (Dead.after_lit (t := "\\usepackage".toList) hd) rev g
        have h2 : (Re.lit "\\RequirePackage".toList).run ⟨rev, "\\usepackage".toList ++ (m ++ (t ++ rest)), g⟩ = [] :=
          (Dead.lit (by rintro ⟨u, hu⟩; simp at hu)) rev g
        show (((Re.lit "\\usepackage".toList).run ⟨rev, _, g⟩) ++ ((Re.lit "\\RequirePackage".toList).run ⟨rev, _, g⟩)).flatMap Pre.packTail.run = []
        rw [h2, List.append_nil]
        exact h1
    · refine Eats.right (Dead.seq (Dead.alt (Dead.lit ?_) (Dead.lit ?_))) hB
      · rintro ⟨v, hv⟩
        have hv : "package".toList ++ v = n ++ (t ++ rest) := by simpa using hv
        rcases Fmt.prefix_split (show "package".toList <+: n ++ (t ++ rest) from ⟨v, hv⟩) with h | ⟨d, r, e, hd⟩
        · exact hp h
        · obtain ⟨w, hw⟩ := hd
          have h1 := hhead d (by rw [← hw]; rfl)
          have h2 : ∀ c ∈ "package".toList, isLetter c = true := by decide
          rw [h2 d (by rw [e]; simp)] at h1
          cases h1
      · rintro ⟨v, hv⟩
        simp at hv

theorem use_start {u : UseText} (h : u.Ok) (rest : Str) : isDelim (u.written ++ rest) = true := by
  unfold UseText.written
  rcases h.1 with hw | hw | ⟨n, _, _, hw⟩ <;> rw [hw] <;> rfl

theorem use_keep {u : UseText} (h : u.Ok) {rest o : Str} (hr : collect rest = .ok o) : collect (u.written ++ rest) = .ok (u.written ++ '\n' :: o) := by
  refine collect_keep (use_start h rest) ?_ hr
  unfold turnAt
  rw [(use_eats h rest).matchAt []]

theorem stops_dead {s : Str} (h : WordStops s) : Eats (.nlook (.chr isWord)) [] s [] [] := by
  intro rev
  have := (Dead.chr isWord h) rev []
  show (if ((Re.chr isWord).run ⟨rev, s, []⟩).isEmpty then ([⟨rev, s, []⟩] : List MSt) else []).head? = _
  rw [this]
  rfl

theorem block_keep {b rest o : Str} (h1 : WordStops b) (h2 : ¬ Contains b "\\makeatother".toList) (h3 : WordStops rest) (hr : collect rest = .ok o) :
    collect (("\\makeatletter".toList ++ b ++ "\\makeatother".toList) ++ rest) = .ok (("\\makeatletter".toList ++ b ++ "\\makeatother".toList) ++ '\n' :: o) := by
  have hb : block (("\\makeatletter".toList ++ b ++ "\\makeatother".toList) ++ rest) = some ("\\makeatletter".toList ++ b ++ "\\makeatother".toList).length := by
    unfold block
    have e1 : Eats atLetterRe ("\\makeatletter".toList ++ []) (b ++ "\\makeatother".toList ++ rest) [] [] := by
      refine Eats.seq (g1 := []) (Eats.lit _ _ _) (stops_dead ?_)
      cases b with
      | nil => intro c hc; simp at hc; subst hc; decide
      | cons x b => exact h1
    have e2 := e1.matchAt []
    rw [List.append_nil, ← List.append_assoc, ← List.append_assoc] at e2
    rw [e2]
    simp only
    have e3 : Eats atOtherRe ("\\makeatother".toList ++ []) rest [] [] := Eats.seq (g1 := []) (Eats.lit _ _ _) (stops_dead h3)
    rw [List.append_nil] at e3
    have e4 : atOtherRe.search (("\\makeatletter".toList ++ b) ++ ("\\makeatother".toList ++ rest)) = some ⟨("\\makeatletter".toList ++ b).reverse, "\\makeatother".toList ++ rest, "\\makeatother".toList.length, []⟩ := by
      unfold Re.search
      rw [searchFrom_skip]
      · have := e3.matchAt (("\\makeatletter".toList ++ b).reverse ++ [])
        rw [show ("\\makeatother".toList ++ rest) = '\\' :: ("makeatother".toList ++ rest) from rfl] at this ⊢
        unfold Re.searchFrom
        rw [this]
        simp
      · intro u v e hv
        refine (Dead.seq (Dead.lit ?_) : Dead atOtherRe _).matchAt _
        refine Pre.word_skip (kw := "makeatother".toList) (u := u) (R := "makeatother".toList ++ rest) (by decide) ?_ hv
        rw [← e]
        rintro ⟨p, q, hpq⟩
        rw [List.append_assoc] at hpq
        rcases List.append_eq_append_iff.1 hpq with ⟨a, h, h'⟩ | ⟨a, h, h'⟩
        · exact h2 ⟨a, q, by rw [h', List.append_assoc]; rfl⟩
        · cases p with
          | nil =>
            rw [List.nil_append] at h
            subst h
            simp at h'
          | cons x p =>
            cases a with
            | nil => exact h2 ⟨[], q, by simpa using h'.symm⟩
            | cons y a =>
              have hy : '\\' = y := (List.cons.inj h').1
              subst hy
              have hm : '\\' ∈ "makeatletter".toList := by
                rw [show "makeatletter".toList = p ++ '\\' :: a from congrArg List.tail h]
                simp
              revert hm; decide
    rw [← List.append_assoc] at e4
    rw [e4]
    simp [Match.stop]
  refine collect_keep rfl ?_ hr
  unfold turnAt
  have hu : Dead useRe (("\\makeatletter".toList ++ b ++ "\\makeatother".toList) ++ rest) := use_dead (by rintro ⟨u, hu⟩; simp at hu) (by rintro ⟨u, hu⟩; simp at hu)
  rw [hu.matchAt [], hb]

/-- Neither word begins with the other. -/
def split2 (a b : Str) : Bool := !a.isPrefixOf b && !b.isPrefixOf a

theorem split2_none {a b X : Str} (h : split2 a b = true) : ¬ b <+: a ++ X := by
  simp only [split2, Bool.and_eq_true, Bool.not_eq_true'] at h
  intro hp
  rcases Fmt.prefix_split hp with h' | ⟨d, r, h', _⟩
  · rw [List.isPrefixOf_iff_prefix.2 h'] at h; exact absurd h.2 (by simp)
  · rw [List.isPrefixOf_iff_prefix.2 ⟨_, h'.symm⟩] at h; exact absurd h.1 (by simp)

theorem define_apart : ∀ w ∈ defineWords, (isDelim w.toList && split2 w.toList "\\use".toList && split2 w.toList "\\RequirePackage".toList && split2 w.toList "\\makeatletter".toList) = true := by
  decide +kernel

theorem delim_append {s : Str} (h : isDelim s = true) (X : Str) : isDelim (s ++ X) = true := by
  unfold isDelim at h
  split at h
  · exact h
  · cases h

theorem can_handle {s : Str} {t : Defn.Tok} {e : Int} (h : handle s = .ok (some t, e)) : canHandle s = true := by
  unfold canHandle
  cases hf : firstKind s order with
  | some _ => rfl
  | none =>
    unfold handle handleN at h
    rw [hf] at h
    simp at h

theorem defn_keep {t rest o : Str} {tok : Defn.Tok} (h : Defines t rest tok) (hr : collect rest = .ok o) : collect (t ++ rest) = .ok (t ++ '\n' :: o) := by
  have hh := Pre.defines_handle h
  obtain ⟨w, hw, x, rfl⟩ := Pre.defines_word h
  have ha := define_apart w hw
  simp only [Bool.and_eq_true] at ha
  obtain ⟨⟨⟨a1, a2⟩, a3⟩, a4⟩ := ha
  refine collect_keep (by rw [List.append_assoc]; exact delim_append a1 _) ?_ hr
  unfold turnAt
  have hu : Dead useRe (w.toList ++ x ++ rest) := by rw [List.append_assoc]; exact use_dead (split2_none a2) (split2_none a3)
  have hb : block (w.toList ++ x ++ rest) = none := block_none (by rw [List.append_assoc]; exact split2_none a4)
  have hl : 0 < ((w.toList ++ x).length : Int) := by
    have : w.toList ≠ [] := by intro h0; rw [h0] at a1; cases a1
    have := List.length_pos_iff.2 this
    simp only [List.length_append]; omega
  rw [hu.matchAt []]
  simp only [hb, can_handle hh, hh, if_true, hl]
  rfl

theorem collect_preamble {s : Str} {ks : List Str} (h : Preamble s ks) : collect s = .ok (ks.flatMap fun k => k ++ ['\n']) := by
  induction h with
  | done => rfl
  | text t rest ht _ ih => rw [text_skip t ht, ih]
  | symbol c rest h1 h2 _ ih => rw [symbol_skip h1 h2, ih]
  | break_ rest h _ ih => rw [break_skip h, ih]
  | cmd n rest h0 h1 h2 h3 h4 h5 h6 _ ih => rw [cmd_skip h0 h1 h2 h3 h4 h5 h6, ih]
  | unused n rest h1 h2 h3 h4 h5 _ ih => rw [unused_skip h1 h2 h3 h4 h5, ih]
  | opened m rest h1 h2 h3 h4 _ ih => rw [opened_skip h1 h2 h3 h4, ih]
  | use u rest hu _ ih => rw [use_keep hu ih]; simp
  | block b rest h1 h2 h3 _ ih => rw [block_keep h1 h2 h3 ih]; simp
  | defn t rest tok h _ ih => rw [defn_keep h ih]; simp

/-- A preamble is not read in two ways: the definitions, one behind the other, are the same. -/
theorem C72_determined {s : Str} {ks ks' : List Str} (h : Preamble s ks) (h' : Preamble s ks') : (ks.flatMap fun k => k ++ ['\n']) = ks'.flatMap fun k => k ++ ['\n'] := by
  have := (collect_preamble h).symm.trans (collect_preamble h')
  injection this

/-! Where the document begins. -/

theorem begin_eats {t : Str} (h : isBeginDocument t) (rest : Str) : Eats beginRe t rest [] [] := by
  obtain ⟨ws, hw, rfl⟩ := h
  exact Eats.seq (g1 := []) (Eats.lit _ _ _) (Eats.seq (g1 := []) (Eats.spaces hw (by simp; decide)) (Eats.lit _ _ _))

theorem begin_dead {s : Str} (h : ∀ t, isBeginDocument t → ¬ t <+: s) : Dead beginRe s := by
  by_cases hb : "\\begin".toList <+: s
  · obtain ⟨x, rfl⟩ := hb
    refine Dead.after_lit ?_
    rw [← List.takeWhile_append_dropWhile (p := isSpace) (l := x)]
    refine Dead.spaces (L2J.takeWhile_all x) ?_ ?_ (Dead.lit ?_)
    · intro c hc
      cases hh : x.dropWhile isSpace with
      | nil => rw [hh] at hc; cases hc
      | cons y l => rw [hh] at hc; cases hc; exact L2J.dropWhile_head hh
    · intro c t hc
      refine Dead.lit ?_
      rintro ⟨u, hu⟩
      simp at hu
      rw [← hu.1] at hc
      revert hc; decide
    · rintro ⟨u, hu⟩
      refine h _ ⟨x.takeWhile isSpace, L2J.takeWhile_all x, rfl⟩ ⟨u, ?_⟩
      conv => rhs; rw [← List.takeWhile_append_dropWhile (p := isSpace) (l := x), ← hu]
      simp
  · exact Dead.seq (Dead.lit hb)

theorem before_spec (content : Str) : ∃ a, BeforeDocument (stripLatexComments content) a ∧ before content = strip a := by
  unfold before
  generalize stripLatexComments content = c
  simp only
  unfold Re.search
  rcases Re.searchFrom_spec beginRe c [] with ⟨h1, h2⟩ | ⟨k, m, hk, h1, h2, h3⟩
  · refine ⟨c, .inl ⟨rfl, ?_⟩, by rw [h1]⟩
    rintro t ht ⟨a, b, rfl⟩
    have := h2 a.length (by simp)
    rw [List.append_assoc, List.drop_left, (begin_eats ht b).matchAt] at this
    cases this
  · have hm : m.rev = (c.take k).reverse ++ [] := by
      unfold Re.matchAt at h2
      split at h2
      · cases h2
      · cases h2; rfl
    have hs : m.start = k := by
      unfold Match.start
      rw [hm]
      simp; omega
    refine ⟨c.take k, .inr ?_, by rw [h1]; simp only [hs]⟩
    have hp : ∃ t, isBeginDocument t ∧ t <+: c.drop k := by
      refine Classical.byContradiction fun hn => ?_
      have := (begin_dead (s := c.drop k) (fun t ht hp => hn ⟨t, ht, hp⟩)).matchAt ((c.take k).reverse ++ [])
      rw [this] at h2; cases h2
    obtain ⟨t, ht, b, hb⟩ := hp
    refine ⟨t, b, ht, by rw [List.append_assoc, hb, List.take_append_drop], ?_⟩
    intro a' t' b' ht' e
    refine Classical.byContradiction fun hn => ?_
    have hl : a'.length < k := by simp at hn; omega
    have := h3 a'.length hl
    have hd : c.drop a'.length = t' ++ b' := by rw [e, List.append_assoc, List.drop_left]
    rw [hd, (begin_eats ht' b').matchAt] at this
    cases this

theorem before_unique {s a a' : Str} (h : BeforeDocument s a) (h' : BeforeDocument s a') : a = a' := by
  rcases h with ⟨e, hn⟩ | ⟨t, b, ht, e, hm⟩
  · rcases h' with ⟨e', _⟩ | ⟨t, b, ht, e', _⟩
    · rw [← e, e']
    · exact absurd ⟨a', b, e'⟩ (hn t ht)
  · rcases h' with ⟨e', hn⟩ | ⟨t', b', ht', e', hm'⟩
    · exact absurd ⟨a, b, e⟩ (hn t ht)
    · have h1 := hm _ _ _ ht' e'
      have h2 := hm' _ _ _ ht e
      have e2 : a ++ (t ++ b) = a' ++ (t' ++ b') := by rw [← List.append_assoc, ← e, e', List.append_assoc]
      exact (List.append_inj e2 (by omega)).1

/-- **C72**: of the text before `\begin{document}` (without comments) and after the class declaration, the uses of packages, the definitions and everything between
`\makeatletter` and `\makeatother` are given, in order and unchanged, each followed by a newline, and nothing else. -/
theorem C72_preamble_partial {content a body : Str} {ks : List Str} (ha : BeforeDocument (stripLatexComments content) a) (hd : Declares (strip a) body) (h : Preamble body ks) :
    getPreamble content = .ok (ks.flatMap fun k => k ++ ['\n']) := by
  obtain ⟨a', ha', hb⟩ := before_spec content
  rw [before_unique ha' ha] at hb
  unfold getPreamble
  rw [hb]
  have : afterClass (strip a) = body := by
    unfold afterClass
    rcases hd with ⟨hn, e⟩ | ⟨pre, p, hp, hw, hok, e⟩
    · rw [Pre.class_none hn, e]
    · obtain ⟨m, h1, _, h3⟩ := Pre.class_found (body := body) hp hw hok
      rw [e, h1]
      simp only [h3]
      rw [← List.append_assoc, List.drop_left]
  rw [this]
  exact collect_preamble h

/-- Whatever is written, what is given consists of pieces of the text between the class declaration and `\begin{document}`, in order and apart from each other, each beginning
with a word that uses a package, begins a block or defines something. -/
inductive _root_.L2J.Spec.Cuttings : Str → List Str → Prop
  | stop (s : Str) : Cuttings s []
  | piece (gap k rest : Str) {ks} : k ≠ [] → (∃ w ∈ "\\use" :: "\\RequirePackage" :: "\\makeatletter" :: defineWords, w.toList <+: k ++ rest) → Cuttings rest ks →
      Cuttings (gap ++ (k ++ rest)) (k :: ks)

theorem pieces_gap {s : Str} {ks : List Str} (h : Cuttings s ks) (g : Str) : Cuttings (g ++ s) ks := by
  cases h with
  | stop => exact .stop _
  | piece gap k rest h1 h2 h3 => rw [← List.append_assoc]; exact .piece _ k rest h1 h2 h3

theorem turn_kept {s : Str} {e : Nat} (h : turn s = .ok (some (true, e))) : ∃ w ∈ "\\use" :: "\\RequirePackage" :: "\\makeatletter" :: defineWords, w.toList <+: s := by
  refine Classical.byContradiction fun hn => ?_
  have hw : ∀ w ∈ "\\use" :: "\\RequirePackage" :: "\\makeatletter" :: defineWords, ¬ w.toList <+: s := fun w hw hp => hn ⟨w, hw, hp⟩
  rw [turn_eq] at h
  cases hx : nextDelim s with
  | none => rw [hx] at h; simp at h
  | some j =>
    rw [hx] at h
    cases j with
    | succ j => simp at h
    | zero =>
      simp only [turnAt, (use_dead (hw _ (by simp)) (hw "\\RequirePackage" (by simp))).matchAt [], block_none (hw "\\makeatletter" (by simp)),
        Pre.define_none (fun w hw' => hw w (by simp [hw'])), Bool.false_eq_true, if_false] at h
      simp at h

theorem loop_pieces : ∀ (n : Nat) (s o : Str), loop n s = .ok o → ∃ ks, Cuttings s ks ∧ o = ks.flatMap fun k => k ++ ['\n']
  | 0, s, o, h => by
    rw [loop] at h; cases h
    exact ⟨[], .stop _, rfl⟩
  | n + 1, s, o, h => by
    rw [loop] at h
    split at h
    · cases h; exact ⟨[], .stop _, rfl⟩
    · rename_i hs
      cases ht : turn s with
      | error e => rw [ht] at h; cases h
      | ok r =>
        rw [ht] at h
        cases r with
        | none => cases h; exact ⟨[], .stop _, rfl⟩
        | some x =>
          obtain ⟨k, e⟩ := x
          simp only at h
          cases hl : loop n (s.drop e) with
          | error x => rw [hl] at h; cases h
          | ok o' =>
            rw [hl] at h
            obtain ⟨ks, h1, h2⟩ := loop_pieces n _ _ hl
            have he := List.take_append_drop e s
            cases k with
            | false =>
              simp at h
              refine ⟨ks, ?_, by rw [← h, h2]⟩
              rw [← he]; exact pieces_gap h1 _
            | true =>
              simp at h
              have h0 := turn_kept ht
              have hp := turn_pos ht
              refine ⟨s.take e :: ks, ?_, by rw [← h, h2]; simp⟩
              have hne : s.take e ≠ [] := by
                intro h0
                rcases List.take_eq_nil_iff.1 h0 with h | h
                · omega
                · exact hs h
              have := Cuttings.piece [] (s.take e) (s.drop e) hne (by rw [he]; exact h0) h1
              rw [List.nil_append, he] at this
              exact this

/-- C72, for every text: what is given consists of pieces of the preamble in order. -/
theorem C72_pieces (content out : Str) (h : getPreamble content = .ok out) :
    ∃ a body ks, BeforeDocument (stripLatexComments content) a ∧ body <:+ strip a ∧ Cuttings body ks ∧ out = ks.flatMap fun k => k ++ ['\n'] := by
  obtain ⟨a, ha, hb⟩ := before_spec content
  unfold getPreamble collect at h
  obtain ⟨ks, h1, h2⟩ := loop_pieces _ _ _ h
  refine ⟨a, _, ks, ha, ?_, h1, h2⟩
  rw [hb]
  unfold afterClass
  split
  · exact List.suffix_refl _
  · exact List.drop_suffix _ _

end L2J.Pream
