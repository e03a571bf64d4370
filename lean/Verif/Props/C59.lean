import Verif.Spec.CodeBlock
import Verif.Lemmas.EnvBlock
import Verif.Props.C58
/-! C59: code. -/
namespace L2J.Code
open Spec

theorem delimAt_hit {kw name d : Str} (hd : IsDelim kw name d) (R : Str) : delimAt kw name (d ++ R) = some d.length := by
  obtain ⟨ws, hws, rfl⟩ := hd
  unfold delimAt
  have e : kw ++ ws ++ '{' :: (name ++ ['}']) ++ R = kw ++ (ws ++ '{' :: (name ++ '}' :: R)) := by simp
  obtain ⟨d1, d2⟩ := Style.dropWhile_ws' ws '{' (name ++ '}' :: R) hws (by decide)
  rw [e, if_pos (by exact List.isPrefixOf_iff_prefix.2 ⟨_, rfl⟩), List.drop_left, d1, d2]
  simp only
  rw [if_pos (by exact List.isPrefixOf_iff_prefix.2 ⟨R, by simp⟩)]
  simp; omega

theorem delimAt_some {kw name s : Str} {n : Nat} (h : delimAt kw name s = some n) : ∃ d R, IsDelim kw name d ∧ s = d ++ R ∧ n = d.length := by
  unfold delimAt at h
  split at h
  · rename_i hs
    obtain ⟨X, rfl⟩ := List.isPrefixOf_iff_prefix.1 hs
    rw [List.drop_left] at h
    split at h
    · rename_i r hr
      split at h
      · rename_i hp
        obtain ⟨R, hR⟩ := List.isPrefixOf_iff_prefix.1 hp
        injection h with h
        refine ⟨kw ++ X.takeWhile isSpace ++ '{' :: (name ++ ['}']), R, ⟨_, fun x hx => List.all_eq_true.1 List.all_takeWhile x hx, rfl⟩, ?_, ?_⟩
        · conv => lhs; rw [← List.takeWhile_append_dropWhile (p := isSpace) (l := X), hr, ← hR]
          simp
        · rw [← h]; simp; omega
      · cases h
    · cases h
  · cases h

theorem delimAt_none {kw name s : Str} (h : delimAt kw name s = none) (d R : Str) (hd : IsDelim kw name d) : s ≠ d ++ R := by
  rintro rfl
  rw [delimAt_hit hd R] at h
  cases h

/-- A delimiter at the end of a text is the first one there if none lies in the text. -/
theorem delimAt_text {name : Str} (hn : '\\' ∉ name) {t e : Str} (ht : NoDelim "\\end".toList name t) (he : IsDelim "\\end".toList name e) (R : Str) :
    ∀ u v, t = u ++ v → v ≠ [] → delimAt "\\end".toList name (v ++ (e ++ R)) = none := by
  intro u v htv hv
  cases hm : delimAt "\\end".toList name (v ++ (e ++ R)) with
  | none => rfl
  | some n =>
    exfalso
    obtain ⟨d, R', hd, hE, _⟩ := delimAt_some hm
    rcases List.append_eq_append_iff.1 hE with ⟨a, h1, h2⟩ | ⟨a, h1, h2⟩
    · -- the delimiter reaches into `e`
      obtain ⟨ws, hws, rfl⟩ := hd
      obtain ⟨ws', _, rfl⟩ := he
      cases a with
      | nil => exact ht u v [] (by simp [htv]) (by rw [List.append_nil] at h1; exact ⟨ws, hws, h1.symm⟩)
      | cons x a =>
        have hx : x = '\\' := by injection h2 with h2 _; exact h2.symm
        subst hx
        cases v with
        | nil => exact hv rfl
        | cons y v =>
          have : '\\' ∈ ("end".toList ++ ws ++ '{' :: (name ++ ['}'])) := by
            have h3 : "end".toList ++ ws ++ '{' :: (name ++ ['}']) = v ++ '\\' :: a := by
              have : '\\' :: ("end".toList ++ ws ++ '{' :: (name ++ ['}'])) = y :: (v ++ '\\' :: a) := h1
              injection this
            rw [h3]; simp
          simp only [List.mem_append, List.mem_cons, List.not_mem_nil, or_false] at this
          rcases this with (h | h) | h | h | h
          · revert h; decide
          · exact absurd (hws _ h) (by decide)
          · revert h; decide
          · exact hn h
          · revert h; decide
    · exact ht u d a (by rw [htv, h1]; simp) hd

theorem upTo_hit {name : Str} (hn : '\\' ∉ name) {e : Str} (he : IsDelim "\\end".toList name e) (R : Str) : ∀ (t : Str), NoDelim "\\end".toList name t →
    upTo name (t ++ (e ++ R)) = some (t, t.length + e.length) := by
  intro t
  induction t with
  | nil =>
    intro _
    have := delimAt_hit he R
    obtain ⟨ws, _, rfl⟩ := he
    rw [List.nil_append]
    have e2 : "\\end".toList ++ ws ++ '{' :: (name ++ ['}']) ++ R = '\\' :: ("end".toList ++ ws ++ '{' :: (name ++ ['}']) ++ R) := rfl
    rw [e2] at this ⊢
    unfold upTo
    rw [this]
    simp
  | cons c t ih =>
    intro ht
    rw [List.cons_append]
    unfold upTo
    have := delimAt_text hn ht he R [] (c :: t) rfl (by simp)
    rw [List.cons_append] at this
    rw [this]
    simp only
    rw [ih (fun u d v h => ht (c :: u) d v (by rw [h]; rfl))]
    simp; omega

theorem upTo_some {name : Str} : ∀ {s t : Str} {n : Nat}, upTo name s = some (t, n) → ∃ e R, IsDelim "\\end".toList name e ∧ s = t ++ (e ++ R) ∧ n = t.length + e.length ∧
    NoDelim "\\end".toList name t
  | [], _, _, h => by cases h
  | c :: s, t, n, h => by
    unfold upTo at h
    split at h
    · rename_i k hk
      injection h with h; injection h with h1 h2; subst h1; subst h2
      obtain ⟨d, R, hd, hs, hl⟩ := delimAt_some hk
      refine ⟨d, R, hd, hs, by simp [hl], ?_⟩
      intro u d' v hE hd'
      have : d' = [] := by
        have := congrArg List.length hE
        simp at this
        exact List.eq_nil_of_length_eq_zero (by omega)
      subst this
      obtain ⟨ws, _, h⟩ := hd'
      simp at h
    · rename_i hk
      rw [Option.map_eq_some_iff] at h
      obtain ⟨⟨t', n'⟩, h1, h2⟩ := h
      injection h2 with h2 h3
      subst h2; subst h3
      obtain ⟨e, R, he, hs, hn, ht⟩ := upTo_some h1
      refine ⟨e, R, he, by simp [hs], by simp [hn]; omega, ?_⟩
      intro u d v hE hd
      cases u with
      | cons y u => simp only [List.cons_append] at hE; injection hE with _ hE; exact ht u d v hE hd
      | nil => exact delimAt_none hk d (v ++ (e ++ R)) hd (by rw [hs, ← List.cons_append, hE]; simp)

theorem noDelim_of_none {name : Str} : ∀ {s : Str}, upTo name s = none → NoDelim "\\end".toList name s
  | [], _ => by
    rintro u d v hE ⟨ws, _, rfl⟩
    have := congrArg List.length hE
    simp at this
  | c :: s, h => by
    unfold upTo at h
    split at h
    · cases h
    · rename_i hk
      rw [Option.map_eq_none_iff] at h
      intro u d v hE hd
      cases u with
      | cons y u => simp only [List.cons_append] at hE; injection hE with _ hE; exact noDelim_of_none h u d v hE hd
      | nil => exact delimAt_none hk d v hd (by rw [hE]; simp)

theorem none_of_noDelim {name s : Str} (h : NoDelim "\\end".toList name s) : upTo name s = none := by
  cases hm : upTo name s with
  | none => rfl
  | some r =>
    obtain ⟨e, R, he, hs, _⟩ := upTo_some (t := r.1) (n := r.2) hm
    exact absurd he (h r.1 e R (by rw [hs]; simp))

theorem begin_other {n m d R : Str} (hd : IsDelim "\\begin".toList n d) (h : ¬ n ++ ['}'] <+: m ++ ['}']) (h2 : ¬ m ++ ['}'] <+: n ++ ['}']) : delimAt "\\begin".toList m (d ++ R) = none := by
  cases hm : delimAt "\\begin".toList m (d ++ R) with
  | none => rfl
  | some k =>
    exfalso
    obtain ⟨d', R', ⟨ws', hws', rfl⟩, hE, _⟩ := delimAt_some hm
    obtain ⟨ws, hws, rfl⟩ := hd
    simp only [List.append_assoc, List.cons_append, List.nil_append] at hE
    have hE := List.append_cancel_left hE
    have t1 := Style.dropWhile_ws' ws '{' (n ++ '}' :: R) hws (by decide)
    have t2 := Style.dropWhile_ws' ws' '{' (m ++ '}' :: R') hws' (by decide)
    rw [hE, t2.1] at t1
    have h3 := t1.1
    injection h3 with _ h3
    have e1 : m ++ ['}'] <+: m ++ '}' :: R' := ⟨R', by simp⟩
    have e2 : n ++ ['}'] <+: m ++ '}' :: R' := ⟨R, by rw [h3]; simp⟩
    rcases List.prefix_or_prefix_of_prefix e1 e2 with hh | hh
    · exact h2 hh
    · exact h hh

theorem begin_kind {n d : Str} (hd : IsDelim "\\begin".toList n d) (R : Str) : verb (d ++ R) = none := by
  obtain ⟨ws, _, rfl⟩ := hd
  unfold verb
  rw [List.append_assoc, List.append_assoc, Style.lit_miss _ _ _ (by decide +kernel), if_neg (by simp)]

theorem verb_kind (X : Str) : verbatim ("\\verb".toList ++ X) = none ∧ listing ("\\verb".toList ++ X) = none := by
  have : ∀ m, delimAt "\\begin".toList m ("\\verb".toList ++ X) = none := by
    intro m
    unfold delimAt
    rw [Style.lit_miss _ _ _ (by decide +kernel), if_neg (by simp)]
  unfold verbatim listing
  rw [this, this]
  exact ⟨rfl, rfl⟩

theorem delimited_cons (c : Char) (t : Str) : delimited (c :: t) = if Style.isLetter c then none else
    if (t.drop (t.takeWhile fun x => x ≠ c && x ≠ '\n').length).head? = some c then some (t.takeWhile fun x => x ≠ c && x ≠ '\n', (t.takeWhile fun x => x ≠ c && x ≠ '\n').length + 2) else none := rfl

theorem delimited_hit {d : Char} {t : Str} (h1 : Style.isLetter d = false) (h2 : d ∉ t) (h3 : '\n' ∉ t) (R : Str) : delimited (d :: (t ++ d :: R)) = some (t, t.length + 2) := by
  rw [delimited_cons, h1]
  have ht : (t ++ d :: R).takeWhile (fun x => x ≠ d && x ≠ '\n') = t := by
    rw [List.takeWhile_append_of_pos (by
      intro x hx
      simp only [Bool.and_eq_true, decide_eq_true_eq]
      exact ⟨fun e => h2 (e ▸ hx), fun e => h3 (e ▸ hx)⟩)]
    simp
  rw [ht, List.drop_left]
  simp

theorem delimited_some {s t : Str} {n : Nat} (h : delimited s = some (t, n)) : ∃ d R, s = d :: (t ++ d :: R) ∧ Style.isLetter d = false ∧ d ∉ t ∧ '\n' ∉ t ∧ n = t.length + 2 := by
  cases s with
  | nil => cases h
  | cons d s =>
    rw [delimited_cons] at h
    split at h
    · cases h
    · rename_i hd
      split at h
      · rename_i hh
        injection h with h; injection h with h1 h2
        rw [h1] at hh
        have hs := List.takeWhile_append_dropWhile (p := fun x => x ≠ d && x ≠ '\n') (l := s)
        have hall : ∀ x ∈ t, (x ≠ d && x ≠ '\n') = true := by rw [← h1]; exact fun x hx => List.all_eq_true.1 List.all_takeWhile x hx
        rw [← Legacy.drop_run, h1] at hs
        cases hd2 : s.drop t.length with
        | nil => rw [hd2] at hh; cases hh
        | cons y R =>
          rw [hd2] at hh hs
          injection hh with hh
          subst hh
          refine ⟨y, R, by rw [← hs], by simpa using hd, fun hm => ?_, fun hm => ?_, by rw [← h2, h1]⟩
          · simpa using hall y hm
          · simpa using hall '\n' hm
      · cases h

theorem bracket_hit (o X : Str) (h : ']' ∉ o) : bracket ('[' :: (o ++ ']' :: X)) = some (o, o.length + 2) := by
  unfold bracket
  have ht : (o ++ ']' :: X).takeWhile (· ≠ ']') = o := by
    rw [List.takeWhile_append_of_pos (by intro x hx; simp only [decide_eq_true_eq]; exact fun e => h (e ▸ hx))]
    simp
  simp only [ht, List.drop_left]
  rfl

theorem bracket_some {s o : Str} {k : Nat} (h : bracket s = some (o, k)) : ∃ X, s = '[' :: (o ++ ']' :: X) ∧ ']' ∉ o ∧ k = o.length + 2 := by
  unfold bracket at h
  split at h
  · rename_i r
    simp only at h
    split at h
    · cases h
    · rename_i hne
      injection h with h; injection h with h1 h2
      have hs := List.takeWhile_append_dropWhile (p := fun x => decide (x ≠ ']')) (l := r)
      have hall : ∀ x ∈ o, decide (x ≠ ']') = true := by rw [← h1]; exact fun x hx => List.all_eq_true.1 List.all_takeWhile x hx
      have hd := Legacy.drop_run (fun x => decide (x ≠ ']')) r
      rw [hd] at hne
      cases hdw : r.dropWhile (fun x => decide (x ≠ ']')) with
      | nil => exact absurd hdw hne
      | cons y X =>
        have hy : y = ']' := by
          have := List.head?_dropWhile_not (fun x => decide (x ≠ ']')) r
          rw [hdw] at this
          simpa using this
        subst hy
        refine ⟨X, by rw [← hs, hdw, h1], fun hm => ?_, by rw [← h2, h1]⟩
        simpa using hall ']' hm
  · cases h

theorem bracket_miss {s : Str} (h : s.head? ≠ some '[') : bracket s = none := by
  unfold bracket
  split
  · exact absurd rfl h
  · rfl

theorem end_head {name e : Str} (he : IsDelim "\\end".toList name e) (R : Str) : (e ++ R).head? = some '\\' := by
  obtain ⟨ws, _, rfl⟩ := he
  rfl

theorem starred_plain {d : Char} (X : Str) (h : d ≠ '*') : starred (d :: X) = delimited (d :: X) := by
  unfold starred
  split
  · rename_i hE; injection hE with hE _; exact absurd hE h
  · rfl

theorem verbatim_noBs : '\\' ∉ "verbatim".toList ∧ '\\' ∉ "lstlisting".toList := by decide +kernel

theorem names_differ : (¬ "verbatim".toList ++ ['}'] <+: "lstlisting".toList ++ ['}']) ∧ ¬ "lstlisting".toList ++ ['}'] <+: "verbatim".toList ++ ['}'] := by decide +kernel

/-- C59: code gives exactly its text, up to blanks around it, and its title; what stands behind is not touched. -/
theorem C59_code (c : CodeText) (h : WrittenCode c) (rest : Str) : ∃ tok, handle (c.written ++ rest) = some (tok, c.written.length) ∧ TokenFor c tok := by
  cases h with
  | verbatim b t e hb ht he =>
    refine ⟨⟨strip t, none, false⟩, ?_, rfl, rfl, rfl⟩
    simp only [List.append_assoc]
    unfold handle verbatim
    rw [delimAt_hit hb]
    simp only [List.drop_left]
    rw [upTo_hit verbatim_noBs.1 he rest t ht]
    simp
  | listing b t e hb ht he hh =>
    refine ⟨⟨strip t, none, false⟩, ?_, rfl, rfl, rfl⟩
    simp only [List.append_assoc]
    unfold handle verbatim
    rw [begin_other hb names_differ.2 names_differ.1]
    simp only
    unfold listing
    rw [delimAt_hit hb]
    simp only [List.drop_left]
    rw [upTo_hit verbatim_noBs.2 he rest t ht, bracket_miss (by
      cases t with
      | nil => rw [List.nil_append, end_head he]; decide
      | cons x t => exact hh)]
    simp
  | options b o t e hb ht he ho =>
    refine ⟨⟨strip t, if o = [] then none else some (strip o), false⟩, ?_, rfl, by simp only; split <;> rfl, rfl⟩
    simp only [List.append_assoc, List.cons_append]
    unfold handle verbatim
    rw [begin_other hb names_differ.2 names_differ.1]
    simp only
    unfold listing
    rw [delimAt_hit hb]
    simp only [List.drop_left]
    rw [bracket_hit o _ ho]
    simp only
    have hd : ('[' :: (o ++ ']' :: (t ++ (e ++ rest)))).drop (o.length + 2) = t ++ (e ++ rest) := by
      rw [show '[' :: (o ++ ']' :: (t ++ (e ++ rest))) = ('[' :: (o ++ [']'])) ++ (t ++ (e ++ rest)) by simp, show o.length + 2 = ('[' :: (o ++ [']'])).length by simp, List.drop_left]
    rw [hd, upTo_hit verbatim_noBs.2 he rest t ht]
    simp; omega
  | verb d t h1 h2 h3 h4 =>
    refine ⟨⟨strip t, none, true⟩, ?_, rfl, rfl, rfl⟩
    simp only [List.append_assoc, List.cons_append, List.nil_append]
    unfold handle
    rw [(verb_kind _).1, (verb_kind _).2]
    simp only
    unfold verb
    rw [if_pos (by exact List.isPrefixOf_iff_prefix.2 ⟨_, rfl⟩), show ("\\verb".toList ++ d :: (t ++ d :: rest)).drop 5 = d :: (t ++ d :: rest) from rfl,
      starred_plain _ h2, delimited_hit h1 h3 h4]
    simp
    omega
  | star d t h1 h2 h3 =>
    refine ⟨⟨strip t, none, true⟩, ?_, rfl, rfl, rfl⟩
    simp only [List.append_assoc, List.cons_append, List.nil_append]
    rw [show "\\verb*".toList ++ d :: (t ++ d :: rest) = "\\verb".toList ++ '*' :: d :: (t ++ d :: rest) from rfl]
    unfold handle
    rw [(verb_kind _).1, (verb_kind _).2]
    simp only
    unfold verb
    rw [if_pos (by exact List.isPrefixOf_iff_prefix.2 ⟨_, rfl⟩), show ("\\verb".toList ++ '*' :: d :: (t ++ d :: rest)).drop 5 = '*' :: d :: (t ++ d :: rest) from rfl]
    unfold starred
    simp only
    rw [delimited_hit h1 h2 h3]
    simp
    omega

/-- C59: an environment without an end is no code. -/
theorem C59_unclosed (name : String) (hn : name ∈ ["verbatim", "lstlisting"]) (b X : Str) (hb : IsDelim "\\begin".toList name.toList b) (hX : NoDelim "\\end".toList name.toList X) :
    handle (b ++ X) = none := by
  have hs : ∀ Y : Str, Y <:+ X → upTo name.toList Y = none := by
    rintro Y ⟨u, rfl⟩
    exact none_of_noDelim fun u' d v hE => hX (u ++ u') d v (by rw [hE]; simp)
  unfold handle
  simp only [List.mem_cons, List.not_mem_nil, or_false] at hn
  rcases hn with rfl | rfl
  · unfold verbatim listing
    rw [delimAt_hit hb, begin_other hb names_differ.1 names_differ.2]
    simp only [List.drop_left]
    rw [hs X (List.suffix_refl _)]
    simp only [Option.map_none]
    exact begin_kind hb X
  · unfold verbatim listing
    rw [begin_other hb names_differ.2 names_differ.1, delimAt_hit hb]
    simp only [List.drop_left]
    rw [hs X (List.suffix_refl _)]
    simp only [Option.map_none]
    cases hbr : bracket X with
    | none => exact begin_kind hb X
    | some r =>
      simp only
      rw [hs _ (List.drop_suffix _ _)]
      exact begin_kind hb X

/-- Where code comes from: an environment up to its first end, perhaps with options, or what stands between two equal characters in a line. -/
inductive _root_.L2J.Spec.CodeFrom : Str → Str → Bool → Prop
  | env (name : String) (b o t e) : name ∈ ["verbatim", "lstlisting"] → IsDelim "\\begin".toList name.toList b → (o = [] ∨ ∃ x, ']' ∉ x ∧ o = '[' :: (x ++ [']'])) →
      NoDelim "\\end".toList name.toList t → IsDelim "\\end".toList name.toList e → CodeFrom (b ++ (o ++ (t ++ e))) t false
  | verb (kw : String) (d t) : kw ∈ ["\\verb", "\\verb*"] → Style.isLetter d = false → d ∉ t → '\n' ∉ t → CodeFrom (kw.toList ++ (d :: (t ++ [d]))) t true

theorem delimited_from {kw : String} (hk : kw ∈ ["\\verb", "\\verb*"]) {X t : Str} {n : Nat} (h : delimited X = some (t, n)) :
    CodeFrom ((kw.toList ++ X).take (kw.toList.length + n)) t true ∧ kw.toList.length + n ≤ (kw.toList ++ X).length := by
  obtain ⟨d, R, rfl, h1, h2, h3, rfl⟩ := delimited_some h
  have e : kw.toList ++ d :: (t ++ d :: R) = (kw.toList ++ (d :: (t ++ [d]))) ++ R := by simp
  have l : kw.toList.length + (t.length + 2) = (kw.toList ++ (d :: (t ++ [d]))).length := by simp
  rw [e, l, List.take_left]
  exact ⟨.verb kw d t hk h1 h2 h3, by simp⟩

theorem env_from {name : String} (hn : name ∈ ["verbatim", "lstlisting"]) {b o t e : Str} (R : Str) (hb : IsDelim "\\begin".toList name.toList b) (ho : o = [] ∨ ∃ x, ']' ∉ x ∧ o = '[' :: (x ++ [']']))
    (ht : NoDelim "\\end".toList name.toList t) (he : IsDelim "\\end".toList name.toList e) {n : Nat} (hl : n = b.length + (o.length + (t.length + e.length))) :
    CodeFrom ((b ++ (o ++ (t ++ (e ++ R)))).take n) t false ∧ n ≤ (b ++ (o ++ (t ++ (e ++ R)))).length := by
  have e1 : b ++ (o ++ (t ++ (e ++ R))) = (b ++ (o ++ (t ++ e))) ++ R := by simp
  have l : n = (b ++ (o ++ (t ++ e))).length := by simp [hl]
  rw [e1, l, List.take_left]
  exact ⟨.env name b o t e hn hb ho ht he, by simp⟩

/-- C59: every token of code stands for the text of code at the start, and exactly this text is used up. -/
theorem C59_sound (s : Str) (tok : Tok) (n : Nat) (h : handle s = some (tok, n)) : ∃ t, CodeFrom (s.take n) t tok.inline ∧ tok.content = strip t ∧ n ≤ s.length := by
  unfold handle at h
  split at h
  · rename_i r hr
    injection h with h; subst h
    unfold verbatim at hr
    split at hr
    · cases hr
    · rename_i k hk
      obtain ⟨b, X, hb, rfl, rfl⟩ := delimAt_some hk
      rw [List.drop_left, Option.map_eq_some_iff] at hr
      obtain ⟨⟨t, m⟩, h1, h2⟩ := hr
      injection h2 with h2 h3
      subst h2; subst h3
      obtain ⟨e, R, he, rfl, rfl, ht⟩ := upTo_some h1
      obtain ⟨r1, r2⟩ := env_from (name := "verbatim") (o := []) (n := b.length + (t.length + e.length)) (by simp) R hb (.inl rfl) ht he (by simp)
      exact ⟨t, r1, rfl, r2⟩
  · split at h
    · rename_i r hr
      injection h with h; subst h
      unfold listing at hr
      split at hr
      · cases hr
      · rename_i k hk
        obtain ⟨b, X, hb, rfl, rfl⟩ := delimAt_some hk
        simp only [List.drop_left] at hr
        have plain : ((upTo "lstlisting".toList X).map fun r => (Tok.mk (strip r.1) none false, b.length + r.2)) = some (tok, n) →
            ∃ t, CodeFrom ((b ++ X).take n) t tok.inline ∧ tok.content = strip t ∧ n ≤ (b ++ X).length := by
          intro hr
          rw [Option.map_eq_some_iff] at hr
          obtain ⟨⟨t, m⟩, h1, h2⟩ := hr
          injection h2 with h2 h3
          subst h2; subst h3
          obtain ⟨e, R, he, rfl, rfl, ht⟩ := upTo_some h1
          obtain ⟨r1, r2⟩ := env_from (name := "lstlisting") (o := []) (n := b.length + (t.length + e.length)) (by simp) R hb (.inl rfl) ht he (by simp)
          exact ⟨t, r1, rfl, r2⟩
        split at hr
        · exact plain hr
        · rename_i o k hbr
          obtain ⟨Y, rfl, ho, rfl⟩ := bracket_some hbr
          split at hr
          · exact plain hr
          · rename_i r h1
            injection hr with hr; injection hr with hr h3
            subst hr; subst h3
            have hd : ('[' :: (o ++ ']' :: Y)).drop (o.length + 2) = Y := by
              rw [show '[' :: (o ++ ']' :: Y) = ('[' :: (o ++ [']'])) ++ Y by simp, show o.length + 2 = ('[' :: (o ++ [']'])).length by simp, List.drop_left]
            rw [hd] at h1
            obtain ⟨e, R, he, rfl, hl, ht⟩ := upTo_some (t := r.1) (n := r.2) h1
            obtain ⟨r1, r2⟩ := env_from (name := "lstlisting") (o := '[' :: (o ++ [']'])) (n := b.length + (o.length + 2) + r.2) (by simp) R hb (.inr ⟨o, ho, rfl⟩) ht he (by rw [hl]; simp; omega)
            simp only [List.append_assoc, List.cons_append, List.nil_append] at r1 r2
            exact ⟨r.1, r1, rfl, r2⟩
    · unfold verb at h
      split at h
      · rename_i hs
        obtain ⟨X, rfl⟩ := List.isPrefixOf_iff_prefix.1 hs
        rw [show ("\\verb".toList ++ X).drop 5 = X from rfl, Option.map_eq_some_iff] at h
        obtain ⟨⟨t, m⟩, h1, h2⟩ := h
        injection h2 with h2 h3
        subst h2; subst h3
        have plain : delimited X = some (t, m) → ∃ t', CodeFrom (("\\verb".toList ++ X).take (5 + m)) t' true ∧ strip t = strip t' ∧ 5 + m ≤ ("\\verb".toList ++ X).length := by
          intro h1
          obtain ⟨r1, r2⟩ := delimited_from (kw := "\\verb") (by simp) h1
          exact ⟨t, r1, rfl, r2⟩
        unfold starred at h1
        split at h1
        · rename_i r _ _
          split at h1
          · rename_i t' n' hd
            injection h1 with h1; injection h1 with h1 h2
            subst h1; subst h2
            obtain ⟨r1, r2⟩ := delimited_from (kw := "\\verb*") (by simp) hd
            rw [show "\\verb*".toList ++ r = "\\verb".toList ++ '*' :: r from rfl, show "\\verb*".toList.length + n' = 5 + (n' + 1) by rw [show "\\verb*".toList.length = 6 from rfl]; omega] at r1 r2
            exact ⟨t', r1, rfl, r2⟩
          · exact plain h1
        · exact plain h1
      · cases h

/-! What does not hold. -/

/-- C59 fails for the blanks at the start of the first line: the indentation of code is lost there only. -/
theorem C59_violated_indent : handle "\\begin{verbatim}\n  if x:\n    y\n\\end{verbatim}".toList = some (⟨"if x:\n    y".toList, none, false⟩, 45) := by decide +kernel

/-- It fails for blanks as code. -/
theorem C59_violated_blank : handle "\\verb| |".toList = some (⟨[], none, true⟩, 8) := by decide +kernel

/-- It fails for options with a bracket in braces: they are cut, and the rest is taken for code. -/
theorem C59_violated_options : handle "\\begin{lstlisting}[language={[LaTeX]TeX}]\nx\n\\end{lstlisting}".toList =
    some (⟨"TeX}]\nx".toList, some "language={[LaTeX".toList, false⟩, 60) := by decide +kernel

/-- It fails for code that starts with a bracket not closed before the end: the listing goes on up to the end of another one. -/
theorem C59_violated_bracket : handle "\\begin{lstlisting}[a\\end{lstlisting} b] \\begin{lstlisting}c\\end{lstlisting}".toList =
    some (⟨"\\begin{lstlisting}c".toList, some "a\\end{lstlisting} b".toList, false⟩, 75) := by decide +kernel

/-- All hypotheses are met. -/
example : WrittenCode ⟨"\\begin {lstlisting}[language=C]\nint x = a[0]; \\end{x}\n\\end{lstlisting}".toList, "\nint x = a[0]; \\end{x}\n".toList, some "language=C".toList, false⟩ := by
  have hno : NoDelim "\\end".toList "lstlisting".toList "\nint x = a[0]; \\end{x}\n".toList := noDelim_of_none (by decide +kernel)
  have := WrittenCode.options "\\begin {lstlisting}".toList "language=C".toList "\nint x = a[0]; \\end{x}\n".toList "\\end{lstlisting}".toList ⟨" ".toList, by decide, by decide +kernel⟩ hno
    ⟨[], by simp, by decide +kernel⟩ (by decide +kernel)
  rwa [if_neg (by decide)] at this

example : WrittenCode ⟨"\\verb|\\end{verbatim} #|".toList, "\\end{verbatim} #".toList, none, true⟩ :=
  .verb '|' "\\end{verbatim} #".toList (by decide) (by decide) (by decide +kernel) (by decide +kernel)

example : handle "\\verb|\\end{verbatim} #| x".toList = some (⟨"\\end{verbatim} #".toList, none, true⟩, 23) := by decide +kernel

example := C59_unclosed "verbatim" (by simp) "\\begin{verbatim}".toList "a \\end{verb}".toList ⟨[], by simp, by decide +kernel⟩ (noDelim_of_none (by decide +kernel))

end L2J.Code
