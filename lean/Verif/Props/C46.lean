import Verif.Spec.Heading
import Verif.Lemmas.Content
import Verif.Props.C01
import Verif.Props.C29
import Verif.Spec.Wrapped
/-! C46: headings. -/
namespace L2J.Content
open L2J.Cmds Spec

/-- Lower case, for ASCII letters. -/
def low (c : Char) : Char := if 'A' ≤ c ∧ c ≤ 'Z' then Char.ofNat (c.toNat + 32) else c

theorem low_lower {x : Char} (h : isLetter x = true) : 'a' ≤ low x ∧ low x ≤ 'z' := by
  unfold low
  split
  · rename_i hx
    have h1 : 65 ≤ x.toNat := hx.1
    have h2 : x.toNat ≤ 90 := hx.2
    have hv : (x.toNat + 32).isValidChar := by left; omega
    have e : (Char.ofNat (x.toNat + 32)).toNat = x.toNat + 32 := by
      unfold Char.ofNat; rw [dif_pos hv]; rfl
    exact ⟨show 97 ≤ (Char.ofNat (x.toNat + 32)).toNat by omega, show (Char.ofNat (x.toNat + 32)).toNat ≤ 122 by omega⟩
  · rename_i hx
    simp only [isLetter, Bool.or_eq_true, Bool.and_eq_true, decide_eq_true_eq] at h
    rcases h with h | h
    · exact h
    · exact absurd h hx

theorem ciChar_low {c x : Char} (hc : 'a' ≤ c ∧ c ≤ 'z') (hx : isLetter x = true) (h : ciChar c x = true) : low x = c := by
  by_cases hl : 'a' ≤ x ∧ x ≤ 'z'
  · have := ciChar_lower hc hl h
    subst this
    unfold low
    rw [if_neg]
    rintro ⟨_, h2⟩
    have h1 : 97 ≤ x.toNat := hl.1
    have h2 : x.toNat ≤ 90 := h2
    omega
  · simp only [isLetter, Bool.or_eq_true, Bool.and_eq_true, decide_eq_true_eq] at hx
    rcases hx with hx | hx
    · exact absurd hx hl
    · have h1 : 65 ≤ x.toNat := hx.1
      have h2 : x.toNat ≤ 90 := hx.2
      have h3 : 97 ≤ c.toNat := hc.1
      unfold low
      rw [if_pos hx]
      simp only [ciChar, Bool.or_eq_true, Bool.and_eq_true, beq_iff_eq, decide_eq_true_eq] at h
      rcases h with (((h | h) | h) | h) | h
      · subst h; omega
      · rw [h.2]; exact Char.ofNat_toNat c
      · rcases h.2 with h | h <;> omega
      · have := h.2; omega
      · have := h.2; omega

theorem ciChar_self {x : Char} (hx : isLetter x = true) : ciChar (low x) x = true := by
  unfold low
  split
  · rename_i h
    have h1 : 65 ≤ x.toNat := h.1
    have h2 : x.toNat ≤ 90 := h.2
    have hv : (x.toNat + 32).isValidChar := by left; omega
    have e : (Char.ofNat (x.toNat + 32)).toNat = x.toNat + 32 := by
      unfold Char.ofNat; rw [dif_pos hv]; rfl
    have hl := low_lower hx
    unfold low at hl
    rw [if_pos h] at hl
    simp [ciChar, e, hl]
  · simp [ciChar]

theorem ciEq_low : ∀ {s u : Str}, Lower s → (∀ c ∈ u, isLetter c = true) → ciEq s u = true → u.map low = s
  | [], [], _, _, _ => rfl
  | c :: cs, x :: xs, hs, hu, h => by
    simp only [ciEq, Bool.and_eq_true] at h
    rw [List.map_cons, ciChar_low (hs c (by simp)) (hu x (by simp)) h.1,
      ciEq_low (fun d hd => hs d (by simp [hd])) (fun d hd => hu d (by simp [hd])) h.2]
  | [], _ :: _, _, _, h => by simp [ciEq] at h
  | _ :: _, [], _, _, h => by simp [ciEq] at h

theorem ciEq_self : ∀ {u : Str}, (∀ c ∈ u, isLetter c = true) → ciEq (u.map low) u = true
  | [], _ => rfl
  | x :: xs, h => by
    rw [List.map_cons, ciEq, ciChar_self (h x (by simp)), ciEq_self fun c hc => h c (by simp [hc])]
    rfl

theorem any_low {l : List Str} {u : Str} (hl : ∀ w ∈ l, Lower w) (hu : ∀ c ∈ u, isLetter c = true) :
    (l.any fun w => ciEq w u) = true ↔ u.map low ∈ l := by
  constructor
  · intro h
    simp only [List.any_eq_true] at h
    obtain ⟨w, hw, h⟩ := h
    rw [ciEq_low (hl w hw) hu h]; exact hw
  · intro h
    exact List.any_eq_true.2 ⟨_, h, ciEq_self hu⟩

theorem refusesB_any {q : Kind × Names × Re} {w : Str} (hl : q.2.1.Low) (hw : ∀ c ∈ w, isLetter c = true)
    (h : refusesB q (w.map low) = true) : Refuses q w := by
  obtain ⟨k, n, tail⟩ := q
  unfold refusesB at h
  unfold Refuses
  cases n with
  | words l =>
    simp only at h ⊢
    split at h
    · rename_i hk
      rw [if_pos hk]
      intro u hu ha
      have := (any_low hl fun c hc => hw c (hu.subset hc)).1 ha
      simp only [Bool.not_eq_true', List.any_eq_false] at h
      exact h _ this (List.isPrefixOf_iff_prefix.2 (hu.map low))
    · rename_i hk
      rw [if_neg hk]
      intro ha
      have := (any_low hl hw).1 ha
      simp [this] at h
  | subs z =>
    simp only [Bool.and_eq_true, decide_eq_true_eq, Bool.not_eq_true'] at h ⊢
    rw [if_neg h.1]
    rintro ⟨a, b, rfl, _, hb⟩
    have := ciEq_low hl (fun c hc => hw c (by simp [hc])) hb
    rw [List.map_append, this] at h
    have h2 : z.isSuffixOf (a.map low ++ z) = true := List.isSuffixOf_iff_suffix.2 (List.suffix_append _ _)
    rw [h2] at h; cases h.2
  | grouped j l =>
    simp only [Bool.and_eq_true, decide_eq_true_eq, Bool.not_eq_true'] at h ⊢
    rw [if_neg h.1]
    intro ha
    have := (any_low hl hw).1 ha
    simp [this] at h

theorem lower_low {w : Str} (h : Lower w) : w.map low = w := by
  have : ∀ c ∈ w, low c = c := by
    intro c hc
    have h1 : 97 ≤ c.toNat := (h c hc).1
    unfold low
    rw [if_neg]
    rintro ⟨_, h2⟩
    have h2 : c.toNat ≤ 90 := h2
    omega
  rw [List.map_congr_left this, List.map_id']

/-- A command, in any case, with its last argument in braces. -/
theorem handle_arg_any (i : Nat) {p : Kind × Names × Re} (hi : patterns[i]? = some p)
    (hk : p.1 ≠ .footnotemark) (hk' : p.1 ≠ .appendix) {w mid body rest : Str} (hl : ∀ c ∈ w, isLetter c = true)
    (hm : ∀ c, (mid ++ '{' :: (body ++ '}' :: rest)).head? = some c → foldLetter c = false)
    (hpre : ((patterns.take i).all fun q => refusesB q (w.map low)) = true) (ha : p.2.1.Accepts w) {rev g}
    (ht : (p.2.2.run ⟨w.reverse ++ ['\\'], mid ++ '{' :: (body ++ '}' :: rest), p.2.1.groups w⟩).head? =
      some ⟨rev, body ++ '}' :: rest, g⟩)
    (hb : Wrappable '{' '}' body) (process : Str → Str) (aliases : Dict Str) :
    handle process aliases ('\\' :: (w ++ (mid ++ '{' :: (body ++ '}' :: rest)))) =
      match createToken aliases p.1 ⟨[], '\\' :: (w ++ (mid ++ '{' :: (body ++ '}' :: rest))), w.length + mid.length + 2, g⟩
        (process body) with
      | none => .raised
      | some (aliases', out) => .ok aliases' out (w.length + mid.length + body.length + 3) := by
  have hw : Word w (mid ++ '{' :: (body ++ '}' :: rest)) := ⟨hl, hm⟩
  have hs : patterns = patterns.take i ++ p :: patterns.drop (i + 1) := by
    rw [List.getElem?_eq_some_iff] at hi
    obtain ⟨hi, e⟩ := hi
    rw [← e, ← List.drop_eq_getElem_cons hi, List.take_append_drop]
  have h := firstPattern_word hs hk hw
    (fun q hq => refusesB_any (patterns_low q (List.mem_of_mem_take hq)) hl (List.all_eq_true.1 hpre q hq)) ha ht
  have e : 1 + w.length + (mid ++ '{' :: (body ++ '}' :: rest)).length - (body ++ '}' :: rest).length = w.length + mid.length + 2 := by
    simp only [List.length_append, List.length_cons]; omega
  rw [e] at h
  unfold handle
  rw [h]
  have ed : ('\\' :: (w ++ (mid ++ '{' :: (body ++ '}' :: rest)))).drop (w.length + mid.length + 2 - 1) =
      '{' :: (body ++ '}' :: rest) := by
    have : w.length + mid.length + 2 - 1 = ('\\' :: (w ++ mid)).length := by simp
    have e2 : '\\' :: (w ++ (mid ++ '{' :: (body ++ '}' :: rest))) = ('\\' :: (w ++ mid)) ++ '{' :: (body ++ '}' :: rest) := by simp
    rw [this, e2, List.drop_left]
  have ex := C01_round_trip [] body rest '{' '}' (by simp) (by decide) (by decide) (by decide) hb.1 hb.2
  rw [List.nil_append] at ex
  obtain ⟨k, n, tail⟩ := p
  cases k <;> first
    | exact absurd rfl hk
    | exact absurd rfl hk'
    | (simp only [handleMatch, Match.stop, List.length_nil, Nat.zero_add]
       rw [ed, ex]
       simp only
       split
       · rename_i h1; rw [h1]
       · rename_i h1; rw [h1]; simp only [Res.ok.injEq, true_and]; simp; omega)

/-- A command with its last argument in braces. -/
theorem handle_arg (i : Nat) {p : Kind × Names × Re} (hi : patterns[i]? = some p)
    (hk : p.1 ≠ .footnotemark) (hk' : p.1 ≠ .appendix) {w mid body rest : Str} (hl : Lower w)
    (hm : ∀ c, (mid ++ '{' :: (body ++ '}' :: rest)).head? = some c → foldLetter c = false)
    (hpre : ((patterns.take i).all fun q => refusesB q w) = true) (ha : p.2.1.Accepts w) {rev g}
    (ht : (p.2.2.run ⟨w.reverse ++ ['\\'], mid ++ '{' :: (body ++ '}' :: rest), p.2.1.groups w⟩).head? =
      some ⟨rev, body ++ '}' :: rest, g⟩)
    (hb : Wrappable '{' '}' body) (process : Str → Str) (aliases : Dict Str) :
    handle process aliases ('\\' :: (w ++ (mid ++ '{' :: (body ++ '}' :: rest)))) =
      match createToken aliases p.1 ⟨[], '\\' :: (w ++ (mid ++ '{' :: (body ++ '}' :: rest))), w.length + mid.length + 2, g⟩
        (process body) with
      | none => .raised
      | some (aliases', out) => .ok aliases' out (w.length + mid.length + body.length + 3) := by
  exact handle_arg_any i hi hk hk' (fun c hc => lower_letter (hl c hc)) hm (by rw [lower_low hl]; exact hpre) ha ht hb process aliases

theorem lower_append {a b : Str} (ha : Lower a) (hb : Lower b) : Lower (a ++ b) := by
  intro c hc
  rcases List.mem_append.1 hc with h | h
  · exact ha c h
  · exact hb c h

theorem subText_lower : ∀ n, Lower (subText n)
  | 0 => by simp [subText, Lower]
  | n + 1 => lower_append (by decide) (subText_lower n)

theorem subText_subs : ∀ n, Subs (subText n)
  | 0 => .nil
  | n + 1 => .cons _ _ (ciEq_refl _) (subText_subs n)

theorem Heading_lower (h : Heading) : Lower h.word := by
  cases h with
  | part => decide
  | chapter => decide
  | «section» n => exact lower_append (subText_lower n) (by decide)
  | paragraph n => exact lower_append (subText_lower n) (by decide)

theorem countSub_none : ∀ (s : Str) (k : Nat), 'u' ∉ s → countSub "sub".toList k s = 0
  | [], _, _ => by simp [countSub]
  | c :: cs, k + 1, h => by simp only [countSub]; exact countSub_none cs k (fun h' => h (by simp [h']))
  | c :: cs, 0, h => by
    have ih := countSub_none cs 0 (fun h' => h (by simp [h']))
    simp only [countSub]
    rw [if_neg, ih]
    intro hp
    rw [List.isPrefixOf_iff_prefix] at hp
    exact h (hp.subset (by decide))

theorem countSub_sub (t : Str) : countSub "sub".toList 0 ("sub".toList ++ t) = countSub "sub".toList 0 t + 1 := by
  show countSub ['s', 'u', 'b'] 0 ('s' :: 'u' :: 'b' :: t) = _
  simp [countSub, List.isPrefixOf]

theorem countSub_subText (t : Str) : ∀ n, countSub "sub".toList 0 (subText n ++ t) = countSub "sub".toList 0 t + n
  | 0 => by simp [subText]
  | n + 1 => by rw [subText, List.append_assoc, countSub_sub, countSub_subText t n]; omega

theorem countSub_slash (t : Str) : countSub "sub".toList 0 ('\\' :: t) = countSub "sub".toList 0 t := by
  show countSub ['s', 'u', 'b'] 0 ('\\' :: t) = countSub ['s', 'u', 'b'] 0 t
  simp [countSub, List.isPrefixOf]

/-- `\*?\s*{`. -/
theorem starBrace_head (star : Bool) (rev ws r : Str) (g) (hws : ∀ x ∈ ws, isSpace x = true) :
    ∃ rev', ((Re.seq starred openBrace).run ⟨rev, starText star ++ ws ++ '{' :: r, g⟩).head? = some ⟨rev', r, g⟩ := by
  cases star with
  | true =>
    refine ⟨'{' :: (ws.reverse ++ '*' :: rev),
      head_seq (s1 := ⟨'*' :: rev, ws ++ '{' :: r, g⟩) (l := [⟨rev, '*' :: (ws ++ '{' :: r), g⟩]) ?_ ?_⟩
    · rw [starred_run]; simp [starText, List.isPrefixOf]
    · rw [openBrace_hit _ _ _ _ hws]; rfl
  | false =>
    refine ⟨'{' :: (ws.reverse ++ rev), head_seq (s1 := ⟨rev, ws ++ '{' :: r, g⟩) (l := []) ?_ ?_⟩
    · rw [starred_run, if_neg]
      · simp [starText]
      · simp only [starText]
        intro h
        rw [List.isPrefixOf_iff_prefix] at h
        have hm : '*' ∈ (if false = true then ['*'] else []) ++ ws ++ '{' :: r := h.subset (by simp)
        obtain ⟨t, ht⟩ := h
        cases ws with
        | nil => simp at ht
        | cons x ws =>
          simp at ht
          have := hws x (by simp)
          rw [← ht.1] at this
          revert this; decide
    · rw [openBrace_hit _ _ _ _ hws]; rfl

theorem start_stops (star : Bool) (ws r : Str) (hws : ∀ x ∈ ws, isSpace x = true) :
    ∀ c, (starText star ++ ws ++ '{' :: r).head? = some c → foldLetter c = false := by
  cases star with
  | true => intro c hc; simp [starText] at hc; subst hc; decide
  | false =>
    rw [starText, if_neg (by simp), List.nil_append]
    exact head_blank hws (fun c hc => space_not_fold hc) (by intro c hc; simp at hc; subst hc; decide)

/-- All names of the pattern end in another letter. -/
def endsOther (x : Char) (q : Kind × Names × Re) : Bool :=
  q.1 ≠ .footnotemark && match q.2.1 with
    | .words l => l.all fun z => z.getLast? != some x
    | .subs z => z.getLast?.isSome && z.getLast? != some x
    | .grouped _ l => l.all fun z => z.getLast? != some x

theorem refusesB_last {x : Char} {q : Kind × Names × Re} (h : endsOther x q = true) {w : Str} (hw : w.getLast? = some x) :
    refusesB q w = true := by
  obtain ⟨k, n, tail⟩ := q
  simp only [endsOther, Bool.and_eq_true, decide_eq_true_eq] at h
  have hnot : ∀ l : List Str, (l.all fun z => z.getLast? != some x) = true → l.contains w = false := by
    intro l hl
    rw [Bool.eq_false_iff]
    intro hc
    rw [List.contains_iff_mem] at hc
    have := List.all_eq_true.1 hl w hc
    simp [hw] at this
  cases n with
  | words l => simp only [refusesB, h.1, if_false, hnot l h.2]; rfl
  | subs z =>
    simp only [Bool.and_eq_true] at h
    simp only [refusesB, Bool.and_eq_true, decide_eq_true_eq, Bool.not_eq_true']
    refine ⟨h.1, ?_⟩
    rw [Bool.eq_false_iff]
    intro hc
    rw [List.isSuffixOf_iff_suffix] at hc
    obtain ⟨a, ha⟩ := hc
    rw [← ha, List.getLast?_append] at hw
    obtain ⟨h1, h2, h3⟩ := h
    cases hz : z.getLast? with
    | none => rw [hz] at h2; cases h2
    | some y =>
      rw [hz] at hw h3
      simp at hw h3
      exact h3 hw
  | grouped j l =>
    simp only [refusesB, Bool.and_eq_true, decide_eq_true_eq, hnot l h.2]
    exact ⟨h.1, rfl⟩

theorem no_char {p : Char → Bool} {x : Char} {s : Str} (h : ∀ c ∈ s, p c = true) (hx : p x = false) : x ∉ s := by
  intro hm
  have := h x hm
  rw [hx] at this; cases this

theorem star_not_lower {w : Str} (h : Lower w) : '*' ∉ w := by
  intro hm
  have := h _ hm
  revert this; decide

/-- The text of the match: numbered unless there is a star. -/
theorem numbered_iff (key pre ws : Str) (star : Bool) (hpre : '*' ∉ pre) (hkey : '*' ∉ key) (hws : ∀ x ∈ ws, isSpace x = true) :
    (findSub (key ++ ['*']) (pre ++ key ++ (starText star ++ ws ++ ['{']))).isNone = !star := by
  have hn : key ++ ['*'] ≠ [] := by simp
  have hc := findSub_contains (key ++ ['*']) hn (pre ++ key ++ (starText star ++ ws ++ ['{']))
  cases star with
  | true =>
    have : (findSub (key ++ ['*']) (pre ++ key ++ (starText true ++ ws ++ ['{']))).isSome = true :=
      hc.2 ⟨pre, ws ++ ['{'], by simp [starText]⟩
    cases hf : findSub (key ++ ['*']) (pre ++ key ++ (starText true ++ ws ++ ['{'])) with
    | none => rw [hf] at this; cases this
    | some v => rfl
  | false =>
    cases hf : findSub (key ++ ['*']) (pre ++ key ++ (starText false ++ ws ++ ['{'])) with
    | none => rfl
    | some v =>
      rw [hf] at hc
      obtain ⟨a, b, hab⟩ := hc.1 rfl
      have hm : '*' ∈ pre ++ key ++ (starText false ++ ws ++ ['{']) := by rw [hab]; simp
      simp only [starText, List.mem_append] at hm
      simp [hpre, hkey, no_char hws (show isSpace '*' = false by decide)] at hm

theorem heading_text (w mid r : Str) (g) : (⟨[], '\\' :: (w ++ (mid ++ '{' :: r)), w.length + mid.length + 2, g⟩ : Match).text =
    '\\' :: (w ++ (mid ++ ['{'])) := by
  unfold Match.text
  have : w.length + mid.length + 2 = ('\\' :: (w ++ (mid ++ ['{']))).length := by simp; omega
  rw [this]
  have e : '\\' :: (w ++ (mid ++ '{' :: r)) = ('\\' :: (w ++ (mid ++ ['{']))) ++ r := by simp
  rw [e, List.take_left]

theorem lower_no_u {ws : Str} {star : Bool} (hws : ∀ x ∈ ws, isSpace x = true) : 'u' ∉ starText star ++ ws ++ ['{'] := by
  intro h
  simp only [List.mem_append] at h
  rcases h with (h | h) | h
  · cases star <;> simp [starText] at h
  · exact no_char hws (show isSpace 'u' = false by decide) h
  · simp at h

theorem ciEqs_self {l : List Str} {w : Str} (h : w ∈ l) : (l.any fun z => ciEq z w) = true :=
  List.any_eq_true.2 ⟨w, h, ciEq_refl w⟩

theorem createToken_part (aliases : Dict Str) (m : Match) (text : Str) : createToken aliases .part m text =
    some (aliases, .tok ⟨"section".toList, .absent, some (strip text),
      some (countSub "sub".toList 0 m.text + 0), some (findSub ("part".toList ++ ['*']) m.text).isNone, none, none⟩) := rfl

theorem createToken_chapter (aliases : Dict Str) (m : Match) (text : Str) : createToken aliases .chapter m text =
    some (aliases, .tok ⟨"section".toList, .absent, some (strip text),
      some (countSub "sub".toList 0 m.text + 1), some (findSub ("chapter".toList ++ ['*']) m.text).isNone, none, none⟩) := rfl

theorem createToken_section (aliases : Dict Str) (m : Match) (text : Str) : createToken aliases .section m text =
    some (aliases, .tok ⟨"section".toList, .absent, some (strip text),
      some (countSub "sub".toList 0 m.text + 1), some (findSub ("section".toList ++ ['*']) m.text).isNone, none, none⟩) := rfl

/-- **C46**: a heading command, starred or not, with any number of `sub`s, any blanks before the brace and any title whose braces
match gives the token with the title, the level and the numbering that the command asks for, and the text behind the closing brace is
next. -/
theorem C46_heading (process : Str → Str) (aliases : Dict Str) (h : Heading) (star : Bool) (ws body rest : Str)
    (hws : ∀ x ∈ ws, isSpace x = true) (hb : Wrappable '{' '}' body) :
    handle process aliases ('\\' :: (h.word ++ (starText star ++ ws ++ '{' :: (body ++ '}' :: rest)))) =
      .ok aliases (.tok (h.token star (strip (process body))))
        ('\\' :: (h.word ++ (starText star ++ ws ++ '{' :: (body ++ ['}'])))).length := by
  have hlen : ('\\' :: (h.word ++ (starText star ++ ws ++ '{' :: (body ++ ['}'])))).length =
      h.word.length + (starText star ++ ws).length + body.length + 3 := by simp; omega
  have hst := start_stops star ws (body ++ '}' :: rest) hws
  have hl := Heading_lower h
  have hu := lower_no_u (star := star) hws
  rw [hlen]
  cases h with
  | part =>
    obtain ⟨rev, ht⟩ := starBrace_head star ("part".toList.reverse ++ ['\\']) ws (body ++ '}' :: rest) [] hws
    have key := handle_arg 2
      (p := (.part, .words ["part".toList], .seq starred openBrace)) rfl (by decide) (by decide) hl hst (by decide +kernel) (ciEqs_self (by decide)) ht hb
      process aliases
    rw [key]
    have hn := numbered_iff "part".toList ['\\'] ws star (by decide) (by decide) hws
    have hc : countSub "sub".toList 0 ('\\' :: ("part".toList ++ (starText star ++ ws ++ ['{']))) = 0 := by
      rw [countSub_slash]
      exact countSub_none _ _ (by intro hm; rcases List.mem_append.1 hm with hm | hm; revert hm; decide; exact hu hm)
    rw [createToken_part, heading_text, Heading.word, hc]
    have e : '\\' :: ("part".toList ++ (starText star ++ ws ++ ['{'])) = ['\\'] ++ "part".toList ++ (starText star ++ ws ++ ['{']) := rfl
    rw [e, hn]
    rfl
  | chapter =>
    obtain ⟨rev, ht⟩ := starBrace_head star ("chapter".toList.reverse ++ ['\\']) ws (body ++ '}' :: rest) [] hws
    have key := handle_arg 3
      (p := (.chapter, .words ["chapter".toList], .seq starred openBrace)) rfl (by decide) (by decide) hl hst (by decide +kernel) (ciEqs_self (by decide)) ht hb
      process aliases
    rw [key]
    have hn := numbered_iff "chapter".toList ['\\'] ws star (by decide) (by decide) hws
    have hc : countSub "sub".toList 0 ('\\' :: ("chapter".toList ++ (starText star ++ ws ++ ['{']))) = 0 := by
      rw [countSub_slash]
      exact countSub_none _ _ (by intro hm; rcases List.mem_append.1 hm with hm | hm; revert hm; decide; exact hu hm)
    rw [createToken_chapter, heading_text, Heading.word, hc]
    have e : '\\' :: ("chapter".toList ++ (starText star ++ ws ++ ['{'])) = ['\\'] ++ "chapter".toList ++ (starText star ++ ws ++ ['{']) := rfl
    rw [e, hn]
    rfl
  | «section» n =>
    obtain ⟨rev, ht⟩ := starBrace_head star ((Heading.section n).word.reverse ++ ['\\']) ws (body ++ '}' :: rest) [] hws
    have key := handle_arg 1
      (p := (.section, .subs "section".toList, .seq starred openBrace)) rfl (by decide) (by decide) hl hst
      (List.all_eq_true.2 fun q hq => refusesB_last (x := 'n')
        (List.all_eq_true.1 (by decide +kernel) q hq) (by rw [Heading.word, List.getLast?_append]; rfl))
      ⟨subText n, _, rfl, subText_subs n, ciEq_refl _⟩ ht hb
      process aliases
    rw [key]
    have hn := numbered_iff "section".toList ('\\' :: subText n) ws star
      (by intro hm; rcases List.mem_cons.1 hm with hm | hm; revert hm; decide; exact star_not_lower (subText_lower n) hm) (by decide) hws
    have hc : countSub "sub".toList 0 ('\\' :: ((subText n ++ "section".toList) ++ (starText star ++ ws ++ ['{']))) = n := by
      rw [countSub_slash, List.append_assoc, countSub_subText, countSub_none, Nat.zero_add]
      intro hm; rcases List.mem_append.1 hm with hm | hm; revert hm; decide; exact hu hm
    rw [createToken_section, heading_text, Heading.word, hc]
    have e : '\\' :: ((subText n ++ "section".toList) ++ (starText star ++ ws ++ ['{'])) =
      ('\\' :: subText n) ++ "section".toList ++ (starText star ++ ws ++ ['{']) := by simp
    rw [e, hn]
    rfl
  | paragraph n =>
    obtain ⟨rev, ht⟩ := starBrace_head star ((Heading.paragraph n).word.reverse ++ ['\\']) ws (body ++ '}' :: rest) [] hws
    have key := handle_arg 4
      (p := (.paragraph, .subs "paragraph".toList, .seq starred openBrace)) rfl (by decide) (by decide) hl hst
      (List.all_eq_true.2 fun q hq => refusesB_last (x := 'h')
        (List.all_eq_true.1 (by decide +kernel) q hq) (by rw [Heading.word, List.getLast?_append]; rfl))
      ⟨subText n, _, rfl, subText_subs n, ciEq_refl _⟩ ht hb
      process aliases
    rw [key]
    have hc : countSub "sub".toList 0 ('\\' :: ((subText n ++ "paragraph".toList) ++ (starText star ++ ws ++ ['{']))) = n := by
      rw [countSub_slash, List.append_assoc, countSub_subText, countSub_none, Nat.zero_add]
      intro hm; rcases List.mem_append.1 hm with hm | hm; revert hm; decide; exact hu hm
    simp only [createToken, heading_text, Heading.word, hc]
    rfl

/-- No name of the pattern ends like this. -/
def endsApart (s : Str) (q : Kind × Names × Re) : Bool :=
  match q.2.1 with
  | .words l => if q.1 = .footnotemark then l.all fun z => z.head? == some 'f' else l.all fun z => !s.isSuffixOf z
  | .subs z => q.1 ≠ .footnotemark && !z.isSuffixOf s && !s.isSuffixOf z
  | .grouped _ l => q.1 ≠ .footnotemark && l.all fun z => !s.isSuffixOf z

theorem suffix_total {a b w : Str} (ha : a <:+ w) (hb : b <:+ w) : a <:+ b ∨ b <:+ a :=
  List.suffix_or_suffix_of_suffix ha hb

theorem refusesB_suffix {s : Str} {q : Kind × Names × Re} (h : endsApart s q = true) {w : Str} (hw : s <:+ w)
    (hf : w.head? ≠ some 'f') (hne : w ≠ []) : refusesB q w = true := by
  obtain ⟨k, n, tail⟩ := q
  have hnot : ∀ l : List Str, (l.all fun z => !s.isSuffixOf z) = true → l.contains w = false := by
    intro l hl
    rw [Bool.eq_false_iff]
    intro hc
    rw [List.contains_iff_mem] at hc
    have := List.all_eq_true.1 hl w hc
    rw [List.isSuffixOf_iff_suffix.2 hw] at this
    cases this
  cases n with
  | words l =>
    simp only [endsApart] at h
    simp only [refusesB]
    split
    · rename_i hk
      rw [if_pos hk] at h
      rw [Bool.not_eq_true', List.any_eq_false]
      intro z hz hp
      have := List.all_eq_true.1 h z hz
      rw [List.isPrefixOf_iff_prefix] at hp
      obtain ⟨t, rfl⟩ := hp
      cases z with
      | nil => simp at this
      | cons x z => simp at this hf; exact hf this
    · rename_i hk
      rw [if_neg hk] at h
      rw [hnot l h]; rfl
  | subs z =>
    simp only [endsApart, Bool.and_eq_true, decide_eq_true_eq, Bool.not_eq_true'] at h
    simp only [refusesB, Bool.and_eq_true, decide_eq_true_eq, Bool.not_eq_true']
    refine ⟨h.1.1, ?_⟩
    rw [Bool.eq_false_iff]
    intro hc
    rw [List.isSuffixOf_iff_suffix] at hc
    rcases suffix_total hc hw with h1 | h1
    · rw [List.isSuffixOf_iff_suffix.2 h1] at h; cases h.1.2
    · rw [List.isSuffixOf_iff_suffix.2 h1] at h; cases h.2
  | grouped j l =>
    simp only [endsApart, Bool.and_eq_true, decide_eq_true_eq] at h
    simp only [refusesB, Bool.and_eq_true, decide_eq_true_eq, hnot l h.2]
    exact ⟨h.1, rfl⟩

theorem starBrace_bracket (star : Bool) (rev ws r : Str) (g) (hws : ∀ x ∈ ws, isSpace x = true) :
    (Re.seq starred openBrace).run ⟨rev, starText star ++ ws ++ '[' :: r, g⟩ = [] := by
  have hm : ∀ rev, openBrace.run ⟨rev, ws ++ '[' :: r, g⟩ = [] := by
    intro rev
    rw [openBrace_run]
    have hd : (ws ++ '[' :: r).dropWhile isSpace = '[' :: r := by
      rw [List.dropWhile_append_of_pos hws]
      simp [show isSpace '[' = false by decide]
    rw [hd]; simp [List.isPrefixOf]
  rw [seq_run, starred_run]
  cases star with
  | true =>
    have : openBrace.run ⟨rev, '*' :: (ws ++ '[' :: r), g⟩ = [] := openBrace_miss _ _ _ _ (by decide) (by decide)
    simp [starText, List.isPrefixOf, hm, this]
  | false =>
    have hn : ['*'].isPrefixOf (ws ++ '[' :: r) = false := by
      rw [Bool.eq_false_iff]
      intro h
      rw [List.isPrefixOf_iff_prefix] at h
      obtain ⟨t, ht⟩ := h
      cases ws with
      | nil => simp at ht
      | cons x ws =>
        simp at ht
        have := hws x (by simp)
        rw [← ht.1] at this
        revert this; decide
    simp [starText, hn, hm]

/-- The pattern for a heading. -/
def headKind : Heading → Kind
  | .part => .part | .chapter => .chapter | .section _ => .section | .paragraph _ => .paragraph

/-- The name without the `sub`s. -/
def headBase : Heading → Str
  | .part => "part".toList | .chapter => "chapter".toList | .section _ => "section".toList | .paragraph _ => "paragraph".toList

theorem headBase_suffix (h : Heading) : headBase h <:+ h.word := by
  cases h with
  | part => exact List.suffix_refl _
  | chapter => exact List.suffix_refl _
  | «section» n => exact List.suffix_append _ _
  | paragraph n => exact List.suffix_append _ _

theorem heading_head (h : Heading) : h.word.head? ≠ some 'f' ∧ h.word ≠ [] := by
  have hsub : ∀ n t, t ≠ [] → t.head? ≠ some 'f' → (subText n ++ t).head? ≠ some 'f' ∧ subText n ++ t ≠ [] := by
    intro n t h1 h2
    cases n with
    | zero => exact ⟨by simpa [subText] using h2, by simpa [subText] using h1⟩
    | succ n => exact ⟨by simp [subText], by simp [subText]⟩
  cases h with
  | part => decide
  | chapter => decide
  | «section» n => exact hsub n _ (by decide) (by decide)
  | paragraph n => exact hsub n _ (by decide) (by decide)

theorem apart_table : ∀ b ∈ [(Kind.part, "part".toList), (.chapter, "chapter".toList), (.section, "section".toList),
    (.paragraph, "paragraph".toList)], ∀ q ∈ patterns, q.1 = b.1 ∨ endsApart b.2 q = true := by
  decide +kernel

theorem tail_table : ∀ p ∈ patterns, p.1 ∈ [Kind.part, .chapter, .section, .paragraph] → p.2.2 = .seq starred openBrace := by
  unfold patterns
  simp only [List.forall_mem_cons]
  refine ⟨?_, ?_, ?_, ?_, ?_, ?_, ?_, ?_, ?_, ?_, ?_, ?_, ?_, ?_, ?_, ?_, ?_, ?_, ?_, ?_, ?_, ?_, ?_, ?_, ?_, ?_, ?_, ?_, ?_,
    fun p hp => absurd hp (List.not_mem_nil)⟩ <;>
    first | exact fun h => absurd h (by decide) | exact fun _ => trivial

/-- **C46 is false with a short title**: a heading with an optional argument is not recognised at all, whatever the optional
argument and the title are. -/
theorem C46_violated_short_title (h : Heading) (star : Bool) (ws r : Str) (hws : ∀ x ∈ ws, isSpace x = true) :
    canHandle ('\\' :: (h.word ++ (starText star ++ ws ++ '[' :: r))) = false := by
  have hst : ∀ c, (starText star ++ ws ++ '[' :: r).head? = some c → foldLetter c = false := by
    cases star with
    | true => intro c hc; simp [starText] at hc; subst hc; decide
    | false =>
      rw [starText, if_neg (by simp), List.nil_append]
      exact head_blank hws (fun c hc => space_not_fold hc) (by intro c hc; simp at hc; subst hc; decide)
  have hw : Word h.word (starText star ++ ws ++ '[' :: r) := word_of (Heading_lower h) hst
  have all : ∀ p ∈ patterns, (patternRe p).matchAt [] ('\\' :: (h.word ++ (starText star ++ ws ++ '[' :: r))) = none := by
    intro p hp
    have hb : (headKind h, headBase h) ∈ [(Kind.part, "part".toList), (.chapter, "chapter".toList), (.section, "section".toList),
        (.paragraph, "paragraph".toList)] := by
      cases h with
      | part => exact List.mem_cons_self
      | chapter => exact List.mem_cons_of_mem _ List.mem_cons_self
      | «section» n => exact List.mem_cons_of_mem _ (List.mem_cons_of_mem _ List.mem_cons_self)
      | paragraph n => exact List.mem_cons_of_mem _ (List.mem_cons_of_mem _ (List.mem_cons_of_mem _ List.mem_cons_self))
    rcases apart_table _ hb p hp with hk | hk
    · have hk2 : p.1 ∈ [Kind.part, .chapter, .section, .paragraph] := by rw [hk]; cases h <;> simp [headKind]
      have hne : p.1 ≠ .footnotemark := by rw [hk]; cases h <;> simp [headKind]
      have hpw := pattern_word p (patterns_low p hp) (patterns_noLetter p hp hne) hw
      by_cases ha : p.2.1.Accepts h.word
      · rw [hpw.1 ha, tail_table p hp hk2, starBrace_bracket star _ ws r _ hws]; rfl
      · exact hpw.2 ha
    · exact refuses_none hp hw (refusesB_sound (patterns_low p hp) (Heading_lower h)
        (refusesB_suffix hk (headBase_suffix h) (heading_head h).1 (heading_head h).2))
  have := firstPattern_refuse patterns [] all
  rw [List.append_nil] at this
  unfold canHandle
  rw [this]
  rfl

/-- **C46 is false in upper case**: commands are recognised in any case, but the level and the star are read in lower case only. LaTeX
knows no `\SubSection`, but a document may define one of its own. -/
theorem C46_violated_case : handle id [] "\\SubSection*{A}".toList =
    .ok [] (.tok ⟨"section".toList, .absent, some "A".toList, some 1, some true, none, none⟩) 15 := by
  decide +kernel

example : handle id [] "\\subsubsection* {On $x_{1}$ and {braces}} text".toList =
    .ok [] (.tok ⟨"section".toList, .absent, some "On $x_{1}$ and {braces}".toList, some 3, some false, none, none⟩) 41 := by
  decide +kernel

example : (Heading.section 2).word = "subsubsection".toList ∧ Wrappable '{' '}' "On $x_{1}$ and {braces}".toList := by
  constructor
  · decide +kernel
  · decide +kernel

example : canHandle "\\section[Short]{A long title}".toList = false := by decide +kernel

end L2J.Content
