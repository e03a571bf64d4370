import Verif.Model.Args
import Verif.Lemmas.Level
namespace L2J
open Spec

theorem extract_iff (t : Str) (o c : Char) (content : Str) (e : Nat) :
    extractNestedContent t o c = some (content, e) ↔
      ∃ s, LeadingSpace t s ∧ IsBlock t o c s e ∧ content = slice t (s + 1) (e - 1) := by
  unfold extractNestedContent
  cases h : findMatchingDelimiter t o c 0 with
  | none =>
    simp only [reduceCtorEq, false_iff]
    rintro ⟨s, h1, h2, _⟩
    have := (findMatchingDelimiter_zero_iff t o c s e).2 ⟨h1, h2⟩
    rw [h] at this; cases this
  | some p =>
    obtain ⟨s, e'⟩ := p
    have hs := (findMatchingDelimiter_zero_iff t o c s e').1 h
    simp only [Option.some.injEq, Prod.mk.injEq]
    constructor
    · rintro ⟨rfl, rfl⟩
      exact ⟨s, hs.1, hs.2, rfl⟩
    · rintro ⟨s', h1, h2, h3⟩
      have : s' = s := leadingSpace_unique h1 hs.1
      subst this
      have : e = e' := block_unique h2 hs.2
      subst this
      exact ⟨h3.symm, rfl⟩

theorem extract_none_iff (t : Str) (o c : Char) :
    extractNestedContent t o c = none ↔ ¬ ∃ s e, LeadingSpace t s ∧ IsBlock t o c s e := by
  constructor
  · rintro h ⟨s, e, h1, h2⟩
    have := (extract_iff t o c _ e).2 ⟨s, h1, h2, rfl⟩
    rw [h] at this; cases this
  · intro h
    cases he : extractNestedContent t o c with
    | none => rfl
    | some p =>
      obtain ⟨s, h1, h2, _⟩ := (extract_iff t o c p.1 p.2).1 he
      exact absurd ⟨s, p.2, h1, h2⟩ h

/-- Blocks of a suffix are blocks of the whole text. -/
theorem isBlock_drop_iff (t : Str) (o c : Char) (k s e : Nat) (hk : escapedAt t k = false)
    (hkl : k ≤ t.length) :
    IsBlock (t.drop k) o c s e ↔ IsBlock t o c (k + s) (k + e) := by
  constructor
  · intro h
    refine ⟨?_, ?_, ?_, ?_, ?_⟩
    · rw [← liveAt_drop t o k hk]; exact h.opener
    · have := h.lt; omega
    · have := h.le; simp at this; omega
    · have := h.closed; rw [level_drop t o c k hk, level_drop t o c k hk] at this; omega
    · intro j hj hje
      have := h.inside (j - k) (by omega) (by omega)
      rw [level_drop t o c k hk, level_drop t o c k hk] at this
      rw [show k + (j - k) = j by omega] at this
      omega
  · intro h
    refine ⟨?_, ?_, ?_, ?_, ?_⟩
    · rw [liveAt_drop t o k hk]; exact h.opener
    · have := h.lt; omega
    · have := h.le; simp; omega
    · have := h.closed; rw [level_drop t o c k hk, level_drop t o c k hk]; omega
    · intro j hj hje
      have := h.inside (k + j) (by omega) (by omega)
      rw [level_drop t o c k hk, level_drop t o c k hk]
      omega

theorem leadingSpace_drop_iff (t : Str) (k s : Nat) :
    LeadingSpace (t.drop k) s ↔ SpaceTo t k (k + s) := by
  unfold LeadingSpace SpaceTo
  simp only [List.getElem?_drop]
  constructor
  · rintro ⟨h1, h2⟩
    refine ⟨by omega, fun j hj hjs => ?_, h2⟩
    have := h1 (j - k) (by omega)
    rwa [show k + (j - k) = j by omega] at this
  · rintro ⟨_, h1, h2⟩
    exact ⟨fun j hj => h1 (k + j) (by omega) (by omega), h2⟩

theorem spaceTo_unique {t : Str} {p s s' : Nat} (h : SpaceTo t p s) (h' : SpaceTo t p s') : s = s' := by
  obtain ⟨a, rfl⟩ : ∃ a, s = p + a := ⟨s - p, by have := h.1; omega⟩
  obtain ⟨b, rfl⟩ : ∃ b, s' = p + b := ⟨s' - p, by have := h'.1; omega⟩
  rw [leadingSpace_unique ((leadingSpace_drop_iff t p a).2 h) ((leadingSpace_drop_iff t p b).2 h')]

theorem slice_drop (t : Str) (k a b : Nat) : slice (t.drop k) a b = slice t (k + a) (k + b) := by
  unfold slice
  rw [List.take_drop, List.drop_drop]

theorem escapedAt_spaceTo {t : Str} {p s : Nat} (hp : escapedAt t p = false) (h : SpaceTo t p s) :
    escapedAt t s = false := by
  by_cases hs : s = p
  · subst hs; exact hp
  · obtain ⟨n, rfl⟩ : ∃ n, s = n + 1 := ⟨s - 1, by have := h.1; omega⟩
    obtain ⟨x, hx, hsp⟩ := h.2.1 n (by have := h.1; omega) (by omega)
    exact escapedAt_succ_of_ne hx (isSpace_ne_backslash hsp)

/-- Extraction on a suffix, in absolute positions. -/
theorem extract_drop_iff (t : Str) (o c : Char) (k : Nat) (hk : escapedAt t k = false)
    (hkl : k ≤ t.length) (content : Str) (e : Nat) :
    extractNestedContent (t.drop k) o c = some (content, e) ↔
      ∃ s, SpaceTo t k s ∧ IsBlock t o c s (k + e) ∧ content = slice t (s + 1) (k + e - 1) := by
  rw [extract_iff]
  constructor
  · rintro ⟨s, h1, h2, h3⟩
    have hlen := block_len h2
    refine ⟨k + s, (leadingSpace_drop_iff t k s).1 h1, (isBlock_drop_iff t o c k s e hk hkl).1 h2, ?_⟩
    rw [h3, slice_drop]
    congr 1; omega
  · rintro ⟨s, h1, h2, h3⟩
    obtain ⟨a, rfl⟩ : ∃ a, s = k + a := ⟨s - k, by have := h1.1; omega⟩
    have h4 := (isBlock_drop_iff t o c k a e hk hkl).2 h2
    have hlen := block_len h4
    refine ⟨a, (leadingSpace_drop_iff t k a).2 h1, h4, ?_⟩
    rw [h3, slice_drop]
    congr 1; omega

theorem extract_drop_none_iff (t : Str) (o c : Char) (k : Nat) (hk : escapedAt t k = false)
    (hkl : k ≤ t.length) :
    extractNestedContent (t.drop k) o c = none ↔ NoBlockFrom t o c k := by
  constructor
  · rintro h ⟨s, e, h1, h2⟩
    have : k ≤ e := by have := h1.1; have := h2.lt; omega
    have h3 := (extract_drop_iff t o c k hk hkl (slice t (s + 1) (k + (e - k) - 1)) (e - k)).2
      ⟨s, h1, by rwa [show k + (e - k) = e by omega], rfl⟩
    rw [h] at h3; cases h3
  · intro h
    cases he : extractNestedContent (t.drop k) o c with
    | none => rfl
    | some p =>
      obtain ⟨s, h1, h2, _⟩ := (extract_drop_iff t o c k hk hkl p.1 p.2).1 he
      exact absurd ⟨s, _, h1, h2⟩ h

theorem spaceTo_takeWhile (t : Str) (p : Nat) :
    SpaceTo t p (p + ((t.drop p).takeWhile isSpace).length) :=
  (leadingSpace_drop_iff t p _).1 (leadingSpace_takeWhile _)

theorem dropWhile_eq_drop (t : Str) : t.dropWhile isSpace = t.drop (t.takeWhile isSpace).length := by
  conv => rhs; rw [← List.takeWhile_append_dropWhile (p := isSpace) (l := t)]
  have : List.takeWhile isSpace (List.takeWhile isSpace t ++ List.dropWhile isSpace t) = List.takeWhile isSpace t := by
    rw [List.takeWhile_append_dropWhile]
  rw [this, List.drop_left]

theorem takeWhile_len_le (t : Str) (p : Nat) (hp : p ≤ t.length) :
    p + ((t.drop p).takeWhile isSpace).length ≤ t.length := by
  have : ((t.drop p).takeWhile isSpace).length ≤ (t.drop p).length :=
    (List.takeWhile_sublist _).length_le
  simp at this; omega

theorem spaceTo_self_of {t : Str} {p s : Nat} (h : SpaceTo t p s) : SpaceTo t s s :=
  ⟨Nat.le_refl _, fun j h1 h2 => by omega, h.2.2⟩

theorem noBlockFrom_iff_skip {t : Str} {o c : Char} {p s : Nat} (h : SpaceTo t p s) :
    NoBlockFrom t o c s ↔ NoBlockFrom t o c p := by
  unfold NoBlockFrom
  constructor
  · rintro hn ⟨s', e, h1, h2⟩
    have : s' = s := spaceTo_unique h1 h
    subst this
    exact hn ⟨s', e, spaceTo_self_of h, h2⟩
  · rintro hn ⟨s', e, h1, h2⟩
    have : s' = s := spaceTo_unique h1 (spaceTo_self_of h)
    subst this
    exact hn ⟨s', e, h, h2⟩

theorem block_end_unescaped {t : Str} {o c : Char} {s e : Nat} (hc : c ≠ '\\')
    (h : IsBlock t o c s e) : escapedAt t e = false := by
  have hl := block_len h
  have h1 := liveAt_get (block_closer h)
  have := escapedAt_succ_of_ne h1.1 hc
  rwa [show e - 1 + 1 = e by omega] at this

theorem seqBlocksLoop_spec (t : Str) (o c : Char) (hc : c ≠ '\\') : ∀ (n p last : Nat),
    escapedAt t p = false → p ≤ t.length → 
    ∃ q, (seqBlocksLoop o c n (t.drop p) p last).1.length ≤ n ∧
      Blocks t o c p (seqBlocksLoop o c n (t.drop p) p last).1 q ∧
      ((seqBlocksLoop o c n (t.drop p) p last).1.length < n → NoBlockFrom t o c q) ∧
      (seqBlocksLoop o c n (t.drop p) p last).2 =
        (if (seqBlocksLoop o c n (t.drop p) p last).1 = [] then last else q) ∧ q ≤ t.length
  | 0, p, last, hp, hpl => by
    refine ⟨p, by simp [seqBlocksLoop], ?_, by simp [seqBlocksLoop], by simp [seqBlocksLoop], hpl⟩
    simp only [seqBlocksLoop]; exact .nil p
  | n + 1, p, last, hp, hpl => by
    have hsp := spaceTo_takeWhile t p
    have hsl := takeWhile_len_le t p hpl
    unfold seqBlocksLoop
    simp only [dropWhile_eq_drop, List.drop_drop]
    generalize hs : p + ((t.drop p).takeWhile isSpace).length = s at *
    have hse := escapedAt_spaceTo hp hsp
    cases he : extractNestedContent (t.drop s) o c with
    | none =>
      have := (extract_drop_none_iff t o c s hse hsl).1 he
      refine ⟨p, by simp, .nil p, fun _ => (noBlockFrom_iff_skip hsp).1 this, by simp, hpl⟩
    | some r =>
      obtain ⟨content, e⟩ := r
      obtain ⟨s', h1, h2, h3⟩ := (extract_drop_iff t o c s hse hsl content e).1 he
      have : s' = s := spaceTo_unique h1 (spaceTo_self_of hsp)
      subst this
      simp only []
      obtain ⟨q, i1, i2, i3, i4, i5⟩ := seqBlocksLoop_spec t o c hc n (s' + e) (s' + e)
        (block_end_unescaped hc h2) h2.le
      refine ⟨q, by simp; omega, ?_, ?_, ?_, i5⟩
      · subst h3
        exact .cons p s' (s' + e) q _ hsp h2 i2
      · intro hlt; exact i3 (by simp at hlt; omega)
      · rw [i4]
        by_cases hnil : (seqBlocksLoop o c n (t.drop (s' + e)) (s' + e) (s' + e)).1 = []
        · rw [hnil] at i2
          rw [if_pos hnil]
          cases i2
          simp
        · simp [hnil]

theorem Spec.Blocks.le {t : Str} {o c : Char} {p q : Nat} {bs : List Str} (h : Blocks t o c p bs q) :
    p + 2 * bs.length ≤ q := by
  induction h with
  | nil => simp
  | cons p s e q bs h1 h2 _ ih =>
    have := h1.1; have := block_len h2; simp; omega

theorem Spec.Blocks.le_length {t : Str} {o c : Char} {p q : Nat} {bs : List Str} (h : Blocks t o c p bs q)
    (hp : p ≤ t.length) : q ≤ t.length := by
  induction h with
  | nil => exact hp
  | cons p s e q bs h1 h2 _ ih => exact ih h2.le

theorem Spec.Blocks.unique {t : Str} {o c : Char} {p q : Nat} {bs : List Str} (h : Blocks t o c p bs q) :
    ∀ {n bs' q'}, Blocks t o c p bs' q' → bs.length ≤ n → bs'.length ≤ n →
      (bs.length < n → NoBlockFrom t o c q) → (bs'.length < n → NoBlockFrom t o c q') →
      bs = bs' ∧ q = q' := by
  induction h with
  | nil p =>
    intro n bs' q' h' _ hl' hn hn'
    cases h' with
    | nil => exact ⟨rfl, rfl⟩
    | cons p s e q bs h1 h2 h3 =>
      simp at hl'
      exact absurd ⟨s, e, h1, h2⟩ (hn (by simp; omega))
  | cons p s e q bs h1 h2 h3 ih =>
    intro n bs' q' h' hl hl' hn hn'
    cases h' with
    | nil =>
      simp at hl
      exact absurd ⟨s, e, h1, h2⟩ (hn' (by simp; omega))
    | cons _ s' e' _ bs' h1' h2' h3' =>
      have : s' = s := spaceTo_unique h1' h1
      subst this
      have : e' = e := block_unique h2' h2
      subst this
      simp only [List.length_cons] at *
      obtain ⟨n, rfl⟩ : ∃ m, n = m + 1 := ⟨n - 1, by omega⟩
      obtain ⟨a, b⟩ := ih (n := n) h3' (by omega) (by omega) (fun h => hn (by omega)) (fun h => hn' (by omega))
      exact ⟨by rw [a], b⟩

theorem delimArgsLoop_spec (t : Str) : ∀ (pat : Str) (p pos : Nat),
    (∀ d, d ∈ pat → d = '{' ∨ d = '[') →
    escapedAt t p = false → pos ≤ t.length → p ≤ pos →
    (∀ j, p ≤ j → j < pos → ∃ x, t[j]? = some x ∧ isSpace x = true) →
    ∃ q, ArgSeq t pat p (delimArgsLoop t pat pos p).1 q ∧
      q ≤ (delimArgsLoop t pat pos p).2 ∧ (delimArgsLoop t pat pos p).2 ≤ t.length ∧
      (∀ j, q ≤ j → j < (delimArgsLoop t pat pos p).2 → ∃ x, t[j]? = some x ∧ isSpace x = true) ∧
      ('{' ∉ pat → (delimArgsLoop t pat pos p).2 = q)
  | [], p, pos, _, hp, hpl, hpp, hsp => by
    refine ⟨p, .done p, Nat.le_refl _, by simp [delimArgsLoop]; omega, ?_, fun _ => rfl⟩
    intro j h1 h2; simp [delimArgsLoop] at h2; omega
  | d :: ds, p, pos, hpat, hp, hpl, hpp, hsp0 => by
    have hs0 := spaceTo_takeWhile t pos
    have hsl := takeWhile_len_le t pos hpl
    unfold delimArgsLoop
    generalize hs : pos + ((t.drop pos).takeWhile isSpace).length = s at *
    have hsp : SpaceTo t p s := by
      refine ⟨by have := hs0.1; omega, fun j h1 h2 => ?_, hs0.2.2⟩
      by_cases hj : j < pos
      · exact hsp0 j h1 hj
      · exact hs0.2.1 j (by omega) h2
    have hse := escapedAt_spaceTo hp hsp
    have hget : t[s]? = (t.drop s)[0]? := by simp
    have hd := hpat d (by simp)
    have hds : ∀ d, d ∈ ds → d = '{' ∨ d = '[' := fun d h => hpat d (by simp [h])
    simp only []
    have trivialStop : t[s]? ≠ some '{' → t[s]? ≠ some '[' →
        ∃ q, ArgSeq t (d :: ds) p [] q ∧ q ≤ p ∧ p ≤ t.length ∧
          (∀ j, q ≤ j → j < p → ∃ x, t[j]? = some x ∧ isSpace x = true) ∧
          ('{' ∉ d :: ds → p = q) := by
      intro h1 h2
      exact ⟨p, .stop d ds p s hsp h1 h2, Nat.le_refl _, by omega, fun j h1 h2 => by omega, fun _ => rfl⟩
    cases hr : t.drop s with
    | nil =>
      simp only []
      exact trivialStop (by simp [hget, hr]) (by simp [hget, hr])
    | cons x rest =>
      rw [hr] at hget
      simp only [List.getElem?_cons_zero] at hget
      simp only []
      split
      · rename_i hx
        simp at hx
        exact trivialStop (by simp [hget, hx]) (by simp [hget, hx])
      · rename_i hx
        have hx' : x = '{' ∨ x = '[' := by
          simp only [Bool.and_eq_true, bne_iff_ne, ne_eq, not_and, Decidable.not_not] at hx
          by_cases h : x = '{'
          · exact .inl h
          · exact .inr (hx h)
        rw [← hr]
        have hopenorclose : t[s]? = some '{' ∨ t[s]? = some '[' := by
          rw [hget]; rcases hx' with h | h <;> simp [h]
        split
        · rename_i hd1
          have hd1 : d = '{' := by simpa using hd1
          subst hd1
          cases he : extractNestedContent (t.drop s) '{' '}' with
          | none =>
            simp only []
            have hn := (noBlockFrom_iff_skip hsp).1 ((extract_drop_none_iff t '{' '}' s hse hsl).1 he)
            exact ⟨p, .missing ds p hn, hsp.1, hsl, hsp.2.1, fun h => by simp at h⟩
          | some r =>
            obtain ⟨content, e⟩ := r
            obtain ⟨s', h1, h2, h3⟩ := (extract_drop_iff t '{' '}' s hse hsl content e).1 he
            have : s' = s := spaceTo_unique h1 (spaceTo_self_of hsp)
            subst this
            simp only []
            obtain ⟨q, i1, i2, i3, i4, i5⟩ := delimArgsLoop_spec t ds (s' + e) (s' + e) hds
              (block_end_unescaped (by decide) h2) h2.le (Nat.le_refl _) (fun j h1 h2 => by omega)
            refine ⟨q, ?_, i2, i3, i4, fun h => by simp at h⟩
            rw [h3]
            exact .req ds p s' (s' + e) _ q hsp h2 i1
        · rename_i hd1
          have hd2 : d = '[' := by rcases hd with h | h; · simp [h] at hd1
                                   · exact h
          subst hd2
          simp only [BEq.rfl, if_true]
          cases he : extractNestedContent (t.drop s) '[' ']' with
          | none =>
            simp only []
            have hn := (noBlockFrom_iff_skip hsp).1 ((extract_drop_none_iff t '[' ']' s hse hsl).1 he)
            obtain ⟨q, i1, i2, i3, i4, i5⟩ := delimArgsLoop_spec t ds p s hds hp hsl hsp.1 hsp.2.1
            exact ⟨q, .absent ds p s _ q hsp hopenorclose hn i1, i2, i3, i4,
              fun h => i5 (by simp at h; exact h)⟩
          | some r =>
            obtain ⟨content, e⟩ := r
            obtain ⟨s', h1, h2, h3⟩ := (extract_drop_iff t '[' ']' s hse hsl content e).1 he
            have : s' = s := spaceTo_unique h1 (spaceTo_self_of hsp)
            subst this
            simp only []
            obtain ⟨q, i1, i2, i3, i4, i5⟩ := delimArgsLoop_spec t ds (s' + e) (s' + e) hds
              (block_end_unescaped (by decide) h2) h2.le (Nat.le_refl _) (fun j h1 h2 => by omega)
            refine ⟨q, ?_, i2, i3, i4, fun h => i5 (by simp at h; exact h)⟩
            rw [h3]
            exact .opt ds p s' (s' + e) _ q hsp h2 i1

/-- `find_delimiter_end`'s loop against `TopDelimAt`. -/
theorem findDelimEndLoop_iff (d : Str) (hd : d ≠ []) (hd1 : d.head? ≠ some '{') (hd2 : d.head? ≠ some '}')
    (start : Nat) (rest : Str) : ∀ (rev : Str) (depth e : Nat), start ≤ rev.length →
    braceDepth (rev.reverse ++ rest) start (rev.length - start) = depth →
    (findDelimEndLoop d rev depth rest = some e ↔
      ∃ i, rev.length ≤ i ∧ TopDelimAt (rev.reverse ++ rest) d start i ∧ e = i + d.length ∧
        ∀ j, rev.length ≤ j → j < i → ¬ TopDelimAt (rev.reverse ++ rest) d start j) := by
  induction rest with
  | nil =>
    intro rev depth e hst hdep
    simp only [findDelimEndLoop, reduceCtorEq, false_iff, List.append_nil]
    rintro ⟨i, h1, h2, _⟩
    have h3 := h2.2.1
    rw [List.drop_eq_nil_of_le (by simpa using h1)] at h3
    exact hd (by simpa using h3)
  | cons x rest ih =>
    intro rev depth e hst hdep
    have hdrop : (rev.reverse ++ x :: rest).drop rev.length = x :: rest := by
      have : rev.reverse.length = rev.length := by simp
      rw [← this, List.drop_left]
    have key : ∀ depth', ¬ TopDelimAt (rev.reverse ++ x :: rest) d start rev.length →
        braceDepth (rev.reverse ++ x :: rest) start (rev.length - start + 1) = depth' →
        (findDelimEndLoop d (x :: rev) depth' rest = some e ↔
          ∃ i, rev.length ≤ i ∧ TopDelimAt (rev.reverse ++ x :: rest) d start i ∧ e = i + d.length ∧
            ∀ j, rev.length ≤ j → j < i → ¬ TopDelimAt (rev.reverse ++ x :: rest) d start j) := by
      intro depth' hnot hdep'
      have := ih (x :: rev) depth' e (by simp; omega) (by
        simp only [List.reverse_cons, List.append_assoc, List.singleton_append, List.length_cons]
        rw [show rev.length + 1 - start = rev.length - start + 1 by omega]; exact hdep')
      simp only [List.reverse_cons, List.append_assoc, List.singleton_append, List.length_cons] at this
      rw [this]
      constructor
      · rintro ⟨i, h1, h2, h3, h4⟩
        refine ⟨i, by omega, h2, h3, fun j hj hji => ?_⟩
        by_cases hj' : j = rev.length
        · subst hj'; exact hnot
        · exact h4 j (by omega) hji
      · rintro ⟨i, h1, h2, h3, h4⟩
        have : i ≠ rev.length := by rintro rfl; exact hnot h2
        exact ⟨i, by omega, h2, h3, fun j hj hji => h4 j (by omega) hji⟩
    have hbd : braceDepth (rev.reverse ++ x :: rest) start (rev.length - start + 1) =
        if x == '{' && !isEscaped rev then depth + 1
        else if x == '}' && !isEscaped rev then depth - 1 else depth := by
      simp only [braceDepth]
      rw [show start + (rev.length - start) = rev.length by omega, liveAt_zip, liveAt_zip, hdep]
    have hnb : x = '{' ∨ x = '}' → ¬ TopDelimAt (rev.reverse ++ x :: rest) d start rev.length := by
      rintro hx ⟨_, h2, _⟩
      rw [hdrop] at h2
      cases d with
      | nil => exact hd rfl
      | cons y ys =>
        have := List.cons_prefix_cons.1 h2
        rcases hx with hx | hx
        · exact hd1 (by simp [this.1, hx])
        · exact hd2 (by simp [this.1, hx])
    unfold findDelimEndLoop
    split
    · rename_i hx
      rw [if_pos hx] at hbd
      have : x = '{' := by simp at hx; exact hx.1
      exact key (depth + 1) (hnb (.inl this)) hbd
    · rename_i hx
      rw [if_neg hx] at hbd
      split
      · rename_i hc
        rw [if_pos hc] at hbd
        have : x = '}' := by simp at hc; exact hc.1
        exact key (depth - 1) (hnb (.inr this)) hbd
      · rename_i hc
        rw [if_neg hc] at hbd
        have htop : TopDelimAt (rev.reverse ++ x :: rest) d start rev.length ↔
            (startsWith (x :: rest) d && !isEscaped rev && depth == 0) = true := by
          unfold TopDelimAt startsWith
          rw [escapedAt_zip, hdep, hdrop]
          simp [hst, and_assoc]
        split
        · rename_i ht
          have ht' := htop.2 ht
          constructor
          · intro h
            injection h with h
            exact ⟨rev.length, Nat.le_refl _, ht', h.symm, fun j h1 h2 => by omega⟩
          · rintro ⟨i, h1, h2, h3, h4⟩
            have : i = rev.length := by
              by_cases hi : i = rev.length
              · exact hi
              · exact absurd ht' (h4 rev.length (Nat.le_refl _) (by omega))
            subst this
            rw [h3]
        · rename_i ht
          exact key depth (fun h => ht (htop.1 h)) hbd

end L2J
