import Verif.Lemmas.Whitespace
import Verif.Props.C23
import Verif.Props.C24
import Verif.Props.C29
/-! C33: whitespace normalisation. -/
namespace L2J
open Spec

/-- Skipping over the characters of an occurrence. -/
theorem replaceAux_skip (old new : Str) : ∀ a b : Str, replaceAux old new a.length (a ++ b) = replaceAux old new 0 b
  | [], b => rfl
  | c :: a, b => by simp [replaceAux, replaceAux_skip old new a b]

theorem replaceAux_hit (old new b : Str) (h : old ≠ []) : replaceAux old new 0 (old ++ b) = new ++ replaceAux old new 0 b := by
  cases old with
  | nil => exact absurd rfl h
  | cons c cs =>
    rw [List.cons_append]
    conv => lhs; unfold replaceAux
    rw [if_pos (by rw [List.isPrefixOf_iff_prefix]; exact ⟨b, by simp⟩)]
    simp [replaceAux_skip]

theorem replaceAux_miss (old new : Str) (c : Char) (cs : Str) (h : ¬ old <+: c :: cs) :
    replaceAux old new 0 (c :: cs) = c :: replaceAux old new 0 cs := by
  conv => lhs; unfold replaceAux
  rw [if_neg (by rwa [List.isPrefixOf_iff_prefix])]

/-- The marker occurs in no text whose continuation starts with a blank or with the marker itself. -/
theorem replace_word : ∀ (w b : Str), (¬ Contains w paraMarker) → (∀ c, b.head? = some c → c = ' ' ∨ c = '<') →
    replaceAux paraMarker ['\n'] 0 (w ++ b) = w ++ replaceAux paraMarker ['\n'] 0 b
  | [], b, _, _ => rfl
  | c :: w, b, h, hb => by
    rw [List.cons_append, replaceAux_miss, replace_word w b ?_ hb]
    · rfl
    · rintro ⟨x, y, rfl⟩; exact h ⟨c :: x, y, rfl⟩
    · rintro ⟨t, ht⟩
      rw [← List.cons_append] at ht
      rcases List.append_eq_append_iff.1 ht with ⟨u, h1, h2⟩ | ⟨u, h1, h2⟩
      · exact h ⟨[], u, by simpa using h1⟩
      · cases u with
        | nil => exact h ⟨[], [], by simpa using h1.symm⟩
        | cons d u =>
          have hd := hb d (by rw [h2]; rfl)
          have hm : paraMarker = '<' :: "PARA_BREAK>".toList := by decide
          rw [hm] at h1
          simp only [List.cons_append, List.cons.injEq] at h1
          have : d ∈ "PARA_BREAK>".toList := by rw [h1.2]; simp
          rcases hd with rfl | rfl
          · exact absurd this (by decide)
          · exact absurd this (by decide)

theorem paraMarker_head : paraMarker = '<' :: "PARA_BREAK>".toList := by decide

theorem gap123_head (g b : Str) (hg : g ≠ []) : ∀ c, (gap123 g ++ b).head? = some c → c = ' ' ∨ c = '<' := by
  intro c hc
  unfold gap123 at hc
  rw [if_neg hg] at hc
  split at hc
  · rw [paraMarker_head] at hc; simp at hc; exact Or.inr hc.symm
  · simp at hc; exact Or.inl hc.symm

theorem replace_gap (g b : Str) :
    replaceAux paraMarker ['\n'] 0 (gap123 g ++ b) = sepOf g ++ replaceAux paraMarker ['\n'] 0 b := by
  unfold gap123 sepOf
  by_cases h : g = []
  · simp [h]
  · rw [if_neg h, if_neg h]
    split
    · exact replaceAux_hit _ _ _ paraMarker_ne
    · rw [List.singleton_append, replaceAux_miss]
      · rfl
      · rw [paraMarker_head]
        rintro ⟨t, ht⟩
        simp at ht

theorem replace_pieces : ∀ (ps : List (Str × Str)) (tail : Str), (∀ p ∈ ps, ¬ Contains p.2 paraMarker) →
    (∀ p ∈ ps.drop 1, p.1 ≠ []) →
    replaceAux paraMarker ['\n'] 0 (wsText (ps.map fun p => (gap123 p.1, p.2)) (gap123 tail)) = normalOf ps tail
  | [], tail, _, _ => by
    have := replace_gap tail []
    simpa [wsText, normalOf, replaceAux] using this
  | (g, w) :: ps, tail, hm, hg => by
    have e : wsText (((g, w) :: ps).map fun p => (gap123 p.1, p.2)) (gap123 tail) =
        gap123 g ++ (w ++ wsText (ps.map fun p => (gap123 p.1, p.2)) (gap123 tail)) := by simp [wsText]
    rw [e, replace_gap, replace_word w _ (hm (g, w) (by simp)), replace_pieces ps tail (fun p hp => hm p (by simp [hp]))]
    · simp [normalOf]
    · intro p hp; exact hg p (by simpa using List.mem_of_mem_drop hp)
    · intro c hc
      cases ps with
      | nil =>
        simp only [wsText, List.map_nil, List.flatMap_nil, List.nil_append] at hc
        by_cases ht : tail = []
        · subst ht; simp [gap123] at hc
        · exact gap123_head tail [] ht c (by simpa using hc)
      | cons q ps =>
        refine gap123_head q.1 (q.2 ++ wsText (ps.map fun p => (gap123 p.1, p.2)) (gap123 tail)) (hg q (by simp)) c ?_
        simpa [wsText] using hc

theorem Spec.WsPieces.loose : ∀ {ps : List (Str × Str)}, WsPieces ps → Loose ps
  | [], _ => by intro p hp; simp at hp
  | (g, w) :: ps, h => by
    obtain ⟨h1, h2, h3, h4⟩ := h
    intro p hp
    rcases List.mem_cons.1 hp with rfl | hp
    · refine ⟨fun c hc => (wsB_iff c).2 (h1 c hc), h2.1, fun c hc => ?_⟩
      have := h2.2 c hc
      rw [← wsB_iff] at this
      simpa using this
    · exact WsPieces.loose h4 p hp

theorem Spec.WsPieces.gaps : ∀ {ps : List (Str × Str)}, WsPieces ps → ∀ p ∈ ps.drop 1, p.1 ≠ []
  | [], _, p, hp => by simp at hp
  | (g, w) :: ps, h, p, hp => h.2.2.1 p (by simpa using hp)

theorem contains_flatMap {ps : List (Str × Str)} {p : Str × Str} (hp : p ∈ ps) (tail : Str) {m : Str} (h : Contains p.2 m) :
    Contains (wsText ps tail) m := by
  obtain ⟨a, b, rfl⟩ := List.append_of_mem hp
  obtain ⟨x, y, hx⟩ := h
  exact ⟨(a.flatMap fun p => p.1 ++ p.2) ++ p.1 ++ x, y ++ (b.flatMap fun p => p.1 ++ p.2) ++ tail, by simp [wsText, hx]⟩

/-- C33, what is computed: for every text that does not contain the internal marker, each gap between words becomes
one space, or one newline if it contains a blank line; then the ends are trimmed. -/
theorem C33_normal_form_partial (ps : List (Str × Str)) (tail : Str) (h : WsPieces ps) (ht : ∀ c ∈ tail, Ws c)
    (hm : ¬ Contains (wsText ps tail) "<PARA_BREAK>".toList) :
    normalizeWs (wsText ps tail) = strip (normalOf ps tail) := by
  unfold normalizeWs
  simp only
  rw [steps123 ps tail h.loose (fun c hc => (wsB_iff c).2 (ht c hc))]
  unfold replace
  rw [replace_pieces ps tail (fun p hp hc => hm (contains_flatMap hp tail hc)) h.gaps]

/-- Every text is made of such pieces. -/
theorem C33_every_text (t : Str) : ∃ ps tail, WsPieces ps ∧ (∀ c ∈ tail, Ws c) ∧ t = wsText ps tail := by
  suffices H : ∀ n (t : Str), t.length ≤ n → ∃ ps tail, WsPieces ps ∧ (∀ c ∈ tail, Ws c) ∧ t = wsText ps tail ∧
      (∀ c, t.head? = some c → Ws c → ∀ p ∈ ps.take 1, p.1 ≠ []) by
    obtain ⟨ps, tail, h1, h2, h3, _⟩ := H t.length t (Nat.le_refl _)
    exact ⟨ps, tail, h1, h2, h3⟩
  intro n
  induction n with
  | zero =>
    intro t ht
    have : t = [] := List.length_eq_zero_iff.1 (by omega)
    subst this
    exact ⟨[], [], trivial, by simp, rfl, by simp⟩
  | succ n ih =>
    intro t ht
    have hgap : ∀ c ∈ t.takeWhile wsB, Ws c := fun c hc => (wsB_iff c).1 (takeWhile_all t c hc)
    cases hd : t.dropWhile wsB with
    | nil =>
      have ht0 : t = t.takeWhile wsB := by
        conv => lhs; rw [← List.takeWhile_append_dropWhile (p := wsB) (l := t)]
        rw [hd]; simp
      exact ⟨[], t, trivial, fun c hc => hgap c (ht0 ▸ hc), by simp [wsText], by simp⟩
    | cons x r =>
      have hx := dropWhile_head hd
      let nw : Char → Bool := fun c => !wsB c
      have hlen : ((x :: r).dropWhile nw).length ≤ n := by
        have h1 := dropWhile_length wsB t
        have h2 := dropWhile_length nw r
        have : (x :: r).dropWhile nw = r.dropWhile nw := by simp [nw, hx]
        rw [this]
        rw [hd] at h1
        simp at h1
        omega
      obtain ⟨ps, tail, h1, h2, h3, h4⟩ := ih _ hlen
      refine ⟨(t.takeWhile wsB, (x :: r).takeWhile nw) :: ps, tail, ⟨hgap, ⟨by simp [nw, hx], ?_⟩, ?_, h1⟩, h2, ?_, ?_⟩
      · intro c hc
        have := takeWhile_all (p := nw) (x :: r) c hc
        rw [← wsB_iff]
        simpa [nw] using this
      · -- the gaps that follow are not empty
        intro p hp
        cases hr : (x :: r).dropWhile nw with
        | nil =>
          rw [hr] at h3
          have : ps = [] := by
            cases ps with
            | nil => rfl
            | cons q qs =>
              have := h1.2.1.1
              simp [wsText] at h3
              exact absurd h3.2.1 this
          subst this; simp at hp
        | cons y s =>
          have hy := dropWhile_head hr
          have hws : Ws y := by rw [← wsB_iff]; simpa [nw] using hy
          cases ps with
          | nil => simp at hp
          | cons q qs =>
            rcases List.mem_cons.1 hp with rfl | hp
            · exact h4 y (by rw [hr]; rfl) hws p (by simp)
            · exact h1.2.2.1 p hp
      · have e : t = t.takeWhile wsB ++ ((x :: r).takeWhile nw ++ (x :: r).dropWhile nw) := by
          rw [List.takeWhile_append_dropWhile, ← hd, List.takeWhile_append_dropWhile]
        conv => lhs; rw [e, h3]
        simp [wsText]
      · intro c hc hws p hp
        simp at hp
        subst hp
        cases t with
        | nil => simp at hc
        | cons a t =>
          simp at hc; subst hc
          simp [(wsB_iff a).2 hws]


theorem strip_decomp (s : Str) : ∃ a b, (∀ c ∈ a, isSpace c = true) ∧ (∀ c ∈ b, isSpace c = true) ∧ s = a ++ (strip s ++ b) := by
  obtain ⟨ws, h1, h2⟩ := rstrip_eq (lstrip s)
  refine ⟨s.takeWhile isSpace, ws, takeWhile_all s, h1, ?_⟩
  show s = s.takeWhile isSpace ++ (rstrip (lstrip s) ++ ws)
  rw [← h2]
  exact (List.takeWhile_append_dropWhile (p := isSpace) (l := s)).symm

theorem rstrip_last (s : Str) (c : Char) (h : (rstrip s).getLast? = some c) : isSpace c = false := by
  unfold rstrip at h
  rw [List.getLast?_reverse] at h
  cases hd : s.reverse.dropWhile isSpace with
  | nil => rw [hd] at h; simp at h
  | cons x r => rw [hd] at h; simp at h; subst h; exact dropWhile_head hd

/-- Neither end of a trimmed text is whitespace. -/
theorem strip_ends (s : Str) (c : Char) : ((strip s).head? = some c → isSpace c = false) ∧
    ((strip s).getLast? = some c → isSpace c = false) := by
  refine ⟨fun h => ?_, rstrip_last _ c⟩
  obtain ⟨ws, h1, h2⟩ := rstrip_eq (lstrip s)
  have : (lstrip s).head? = some c := by
    rw [h2]
    change (rstrip (lstrip s)).head? = some c at h
    rw [List.head?_append, h]; rfl
  unfold lstrip at this
  cases hd : s.dropWhile isSpace with
  | nil => rw [hd] at this; simp at this
  | cons x r => rw [hd] at this; simp at this; subst this; exact dropWhile_head hd

theorem filter_none {l : Str} {p : Char → Bool} (h : ∀ c ∈ l, p c = false) : l.filter p = [] := by
  rw [List.filter_eq_nil_iff]; intro c hc; simp [h c hc]

theorem ws_isSpace {c : Char} (h : Ws c) : isSpace c = true := by
  rcases h with rfl | rfl | rfl <;> decide

theorem sepOf_ws (g : Str) : ∀ c ∈ sepOf g, Ws c := by
  intro c hc
  unfold sepOf at hc
  split at hc
  · simp at hc
  · split at hc
    · simp at hc; exact Or.inr (Or.inr hc)
    · simp at hc; exact Or.inl hc

/-- C33: no character other than whitespace is added, lost or moved. -/
theorem C33_same_words_partial (t : Str) (hm : ¬ Contains t "<PARA_BREAK>".toList) :
    (normalizeWs t).filter (fun c => !isSpace c) = t.filter (fun c => !isSpace c) := by
  obtain ⟨ps, tail, h1, h2, rfl⟩ := C33_every_text t
  rw [C33_normal_form_partial ps tail h1 h2 hm]
  have hstrip : ∀ s : Str, (strip s).filter (fun c => !isSpace c) = s.filter (fun c => !isSpace c) := by
    intro s
    obtain ⟨a, b, ha, hb, e⟩ := strip_decomp s
    conv => rhs; rw [e]
    rw [List.filter_append, List.filter_append, filter_none (l := a) (by intro c hc; simp [ha c hc]),
      filter_none (l := b) (by intro c hc; simp [hb c hc])]
    simp
  rw [hstrip]
  unfold normalOf wsText
  rw [List.filter_append, List.filter_append, filter_none (l := sepOf tail) (by intro c hc; simp [ws_isSpace (sepOf_ws _ c hc)]),
    filter_none (l := tail) (by intro c hc; simp [ws_isSpace (h2 c hc)])]
  congr 1
  have hl := h1.loose
  clear h1 hm
  induction ps with
  | nil => rfl
  | cons p ps ih =>
    simp only [List.flatMap_cons, List.filter_append]
    rw [ih (fun q hq => hl q (by simp [hq])), filter_none (l := sepOf p.1) (by intro c hc; simp [ws_isSpace (sepOf_ws _ c hc)]),
      filter_none (l := p.1) (by intro c hc; simp [ws_isSpace ((wsB_iff c).1 ((hl p (by simp)).1 c hc))])]

theorem noDouble_infix {a s b : Str} (h : NoDoubleWs (a ++ (s ++ b))) : NoDoubleWs s := by
  intro x c d y e
  exact h (a ++ x) c d (y ++ b) (by rw [e]; simp)

/-- No double whitespace, with a following text that may start with whitespace. -/
theorem noDouble_word : ∀ (w b : Str), w ≠ [] → (∀ c ∈ w, ¬ Ws c) → NoDoubleWs b → NoDoubleWs (w ++ b)
  | [], _, h, _, _ => absurd rfl h
  | c :: w, b, _, hw, hb => by
    intro a x y z e
    cases a with
    | nil =>
      simp at e
      obtain ⟨rfl, _⟩ := e
      exact fun h => hw c (by simp) h.1
    | cons d a =>
      simp only [List.cons_append, List.cons.injEq] at e
      by_cases hw0 : w = []
      · subst hw0; exact hb a x y z (by simpa using e.2)
      · exact noDouble_word w b hw0 (fun c hc => hw c (by simp [hc])) hb a x y z e.2

theorem noDouble_sep (g w b : Str) (hw : w ≠ []) (hw2 : ∀ c ∈ w, ¬ Ws c) (h : NoDoubleWs (w ++ b)) :
    NoDoubleWs (sepOf g ++ (w ++ b)) := by
  unfold sepOf
  cases w with
  | nil => exact absurd rfl hw
  | cons c w =>
    have key : ∀ s : Char, NoDoubleWs (s :: (c :: w ++ b)) := by
      intro s a x y z e
      cases a with
      | nil =>
        simp at e
        obtain ⟨_, rfl, _⟩ := e
        exact fun h => hw2 c (by simp) h.2
      | cons d a =>
        simp only [List.cons_append, List.cons.injEq] at e
        exact h a x y z e.2
    split
    · exact h
    · split
      · exact key _
      · exact key _

theorem noDouble_normalOf : ∀ (ps : List (Str × Str)) (tail : Str), Loose ps → NoDoubleWs (normalOf ps tail)
  | [], tail, _ => by
    intro a x y z e
    have hlen : (normalOf [] tail).length ≤ 1 := by
      simp only [normalOf, sepOf, List.flatMap_nil, List.nil_append]
      split
      · simp
      · split <;> simp
    rw [e] at hlen
    simp at hlen
    omega
  | (g, w) :: ps, tail, h => by
    have ih := noDouble_normalOf ps tail (fun p hp => h p (by simp [hp]))
    obtain ⟨_, h2, h3⟩ := h (g, w) (by simp)
    have h3' : ∀ c ∈ w, ¬ Ws c := by
      intro c hc; rw [← wsB_iff]; simp [h3 c hc]
    have e : normalOf ((g, w) :: ps) tail = sepOf g ++ (w ++ normalOf ps tail) := by simp [normalOf]
    rw [e]
    exact noDouble_sep g w _ h2 h3' (noDouble_word w _ h2 h3' ih)

/-- C33: the result has no two neighbouring blanks and no blank at either end. -/
theorem C33_no_double_blank_partial (t : Str) (hm : ¬ Contains t "<PARA_BREAK>".toList) :
    NoDoubleWs (normalizeWs t) ∧ '\t' ∉ normalizeWs t := by
  obtain ⟨ps, tail, h1, h2, rfl⟩ := C33_every_text t
  rw [C33_normal_form_partial ps tail h1 h2 hm]
  obtain ⟨a, b, ha, hb, e⟩ := strip_decomp (normalOf ps tail)
  have h := noDouble_normalOf ps tail h1.loose
  refine ⟨by rw [e] at h; exact noDouble_infix h, fun hc => ?_⟩
  have hmem : '\t' ∈ normalOf ps tail := by rw [e]; simp [hc]
  have hsep : ∀ g, '\t' ∉ sepOf g := by
    intro g
    unfold sepOf
    split
    · simp
    · split <;> decide
  unfold normalOf at hmem
  rcases List.mem_append.1 hmem with hmem | hmem
  · obtain ⟨p, hp, hx⟩ := List.mem_flatMap.1 hmem
    rcases List.mem_append.1 hx with hx | hx
    · exact hsep _ hx
    · have := (h1.loose p hp).2.2 _ hx
      revert this; decide
  · exact hsep _ hmem

/-- C33: the result is trimmed, for every text. -/
theorem C33_trimmed (t : Str) (c : Char) :
    ((normalizeWs t).head? = some c → isSpace c = false) ∧ ((normalizeWs t).getLast? = some c → isSpace c = false) :=
  strip_ends _ c

theorem contains_split {a b m : Str} {c : Char} (hc : c ∉ m) (h : Contains (a ++ c :: b) m) : Contains a m ∨ Contains b m := by
  obtain ⟨x, y, e⟩ := h
  rw [List.append_assoc] at e
  rcases List.append_eq_append_iff.1 e with ⟨u, h1, h2⟩ | ⟨u, h1, h2⟩
  · -- x = a ++ u, c :: b = u ++ (m ++ y)
    cases u with
    | nil =>
      simp at h2
      cases m with
      | nil => exact Or.inl ⟨[], a, by simp⟩
      | cons d m => simp at h2; exact absurd h2.1 (by rintro rfl; simp at hc)
    | cons d u =>
      simp at h2
      exact Or.inr ⟨u, y, by rw [h2.2]; simp⟩
  · -- a = x ++ u, m ++ y = u ++ c :: b
    rcases List.append_eq_append_iff.1 h2 with ⟨v, k1, k2⟩ | ⟨v, k1, k2⟩
    · subst k1; exact Or.inl ⟨x, v, by rw [h1]; simp⟩
    · cases v with
      | nil => simp at k1; subst k1; exact Or.inl ⟨x, [], by rw [h1]; simp⟩
      | cons d v =>
        simp at k2
        exact absurd (by rw [k1, ← k2.1]; simp) hc

theorem contains_mono {s m a b : Str} (h : Contains s m) : Contains (a ++ (s ++ b)) m := by
  obtain ⟨x, y, rfl⟩ := h; exact ⟨a ++ x, y ++ b, by simp⟩

/-- A text without blanks that occurs in the normalised text occurs in one of the words. -/
theorem contains_normalOf (m : Str) (hm : ∀ c ∈ m, ¬ Ws c) (hne : m ≠ []) : ∀ (ps : List (Str × Str)) (tail w : Str),
    (∀ p ∈ ps, p.1 ≠ []) → Contains (w ++ normalOf ps tail) m → Contains w m ∨ ∃ p ∈ ps, Contains p.2 m := by
  have hsep : ∀ g, g ≠ [] → ∃ c, sepOf g = [c] ∧ c ∉ m := by
    intro g hg
    unfold sepOf
    rw [if_neg hg]
    split
    · exact ⟨_, rfl, fun hc => hm _ hc (Or.inr (Or.inr rfl))⟩
    · exact ⟨_, rfl, fun hc => hm _ hc (Or.inl rfl)⟩
  have hnil : ¬ Contains [] m := by
    rintro ⟨a, b, h⟩
    have := congrArg List.length h
    simp at this
    exact hne (List.length_eq_zero_iff.1 (by omega))
  intro ps
  induction ps with
  | nil =>
    intro tail w _ h
    by_cases ht : tail = []
    · subst ht; simp [normalOf, sepOf] at h; exact Or.inl h
    · obtain ⟨c, hc, hcm⟩ := hsep tail ht
      simp only [normalOf, List.flatMap_nil, List.nil_append, hc] at h
      rcases contains_split hcm h with h | h
      · exact Or.inl h
      · exact absurd h hnil
  | cons p ps ih =>
    intro tail w hg h
    obtain ⟨c, hc, hcm⟩ := hsep p.1 (hg p (by simp))
    have e : normalOf (p :: ps) tail = c :: (p.2 ++ normalOf ps tail) := by simp [normalOf, hc]
    rw [e] at h
    rcases contains_split hcm h with h | h
    · exact Or.inl h
    · rcases ih tail p.2 (fun q hq => hg q (by simp [hq])) h with h | ⟨q, hq, h⟩
      · exact Or.inr ⟨p, by simp, h⟩
      · exact Or.inr ⟨q, by simp [hq], h⟩

theorem normalOf_short (f : Char → Char) (hf : ∀ c, f c = if c = '\n' then ' ' else c) : ∀ (ps : List (Str × Str)) (tail : Str),
    Loose ps → (∀ c ∈ tail, wsB c = true) → NoDoubleWs (wsText ps tail) → '\t' ∉ wsText ps tail →
    normalOf ps tail = (wsText ps tail).map f := by
  have hgap : ∀ g b : Str, (∀ c ∈ g, wsB c = true) → NoDoubleWs (g ++ b) → '\t' ∉ g → sepOf g = g.map f := by
    intro g b hg hd ht
    match g with
    | [] => rfl
    | [c] =>
      have hc := hg c (by simp)
      rw [wsB_iff] at hc
      rcases hc with rfl | rfl | rfl
      · simp [sepOf, hf]
      · simp at ht
      · simp [sepOf, hf]
    | c :: d :: g =>
      exact absurd ⟨(wsB_iff c).1 (hg c (by simp)), (wsB_iff d).1 (hg d (by simp))⟩ (hd [] c d (g ++ b) rfl)
  intro ps
  induction ps with
  | nil =>
    intro tail _ ht hd htab
    have := hgap tail [] ht (by simpa [wsText] using hd) (by simpa [wsText] using htab)
    simpa [normalOf, wsText] using this
  | cons p ps ih =>
    intro tail hl ht hd htab
    obtain ⟨h1, h2, h3⟩ := hl p (by simp)
    have e : wsText (p :: ps) tail = p.1 ++ (p.2 ++ wsText ps tail) := by simp [wsText]
    have e2 : normalOf (p :: ps) tail = sepOf p.1 ++ (p.2 ++ normalOf ps tail) := by simp [normalOf]
    rw [e] at hd htab ⊢
    rw [e2, hgap p.1 _ h1 hd (fun h => htab (by simp [h])),
      ih tail (fun q hq => hl q (by simp [hq])) ht ?_ (fun h => htab (by simp [h]))]
    · have hw : p.2.map f = p.2 := by
        conv => rhs; rw [← List.map_id p.2]
        apply List.map_congr_left
        intro c hc
        have := h3 c hc
        rw [hf, if_neg]
        · rfl
        · rintro rfl; revert this; decide
      rw [List.map_append, List.map_append, hw]
    · have := hd
      rw [← List.append_assoc] at this
      have h := noDouble_infix (a := p.1 ++ p.2) (s := wsText ps tail) (b := []) (by simpa using this)
      exact h

/-- C33: normalising twice only turns the paragraph breaks into spaces. -/
theorem C33_idempotent_partial (t : Str) (hm : ¬ Contains t "<PARA_BREAK>".toList) :
    normalizeWs (normalizeWs t) = (normalizeWs t).map fun c => if c = '\n' then ' ' else c := by
  have hd := C33_no_double_blank_partial t hm
  have hends := C33_trimmed t
  have hno : ¬ Contains (normalizeWs t) "<PARA_BREAK>".toList := by
    obtain ⟨ps, tail, h1, h2, rfl⟩ := C33_every_text t
    rw [C33_normal_form_partial ps tail h1 h2 hm]
    intro hc
    obtain ⟨a, b, _, _, e⟩ := strip_decomp (normalOf ps tail)
    have h3 : Contains (normalOf ps tail) "<PARA_BREAK>".toList := by rw [e]; exact contains_mono hc
    have hws : ∀ c ∈ "<PARA_BREAK>".toList, ¬ Ws c := by
      intro c hc
      rw [← wsB_iff]
      simp [paraMarker_noWs c hc]
    have hne : "<PARA_BREAK>".toList ≠ [] := paraMarker_ne
    have hnil : ∀ w : Str, w = [] → ¬ Contains w "<PARA_BREAK>".toList := by
      rintro w rfl ⟨a, b, h⟩
      have := congrArg List.length h
      simp only [List.length_append, List.length_nil] at this
      exact hne (List.length_eq_zero_iff.1 (by omega))
    cases ps with
    | nil =>
      rcases contains_normalOf _ hws hne [] tail [] (by simp) (by simpa using h3) with h | ⟨p, hp, _⟩
      · exact hnil [] rfl h
      · simp at hp
    | cons p ps =>
      have e2 : normalOf (p :: ps) tail = sepOf p.1 ++ (p.2 ++ normalOf ps tail) := by simp [normalOf]
      rw [e2] at h3
      have h4 : Contains (p.2 ++ normalOf ps tail) "<PARA_BREAK>".toList := by
        unfold sepOf at h3
        split at h3
        · exact h3
        · split at h3
          · rcases contains_split (a := []) (fun h => hws _ h (Or.inr (Or.inr rfl))) h3 with h | h
            · exact absurd h (hnil [] rfl)
            · exact h
          · rcases contains_split (a := []) (fun h => hws _ h (Or.inl rfl)) h3 with h | h
            · exact absurd h (hnil [] rfl)
            · exact h
      rcases contains_normalOf _ hws hne ps tail p.2 h1.2.2.1 h4 with h | ⟨q, hq, h⟩
      · exact hm (contains_flatMap (p := p) (by simp) tail h)
      · exact hm (contains_flatMap (p := q) (by simp [hq]) tail h)
  generalize normalizeWs t = u at hd hends hno ⊢
  obtain ⟨ps, tail, h1, h2, rfl⟩ := C33_every_text u
  rw [C33_normal_form_partial ps tail h1 h2 hno,
    normalOf_short (fun c => if c = '\n' then ' ' else c) (fun _ => rfl) ps tail h1.loose (fun c hc => (wsB_iff c).2 (h2 c hc)) hd.1 hd.2]
  have := strip_core [] [] ((wsText ps tail).map fun c => if c = '\n' then ' ' else c) (by simp) (by simp) ?_ ?_
  · simpa using this
  · intro c hc
    rw [List.head?_map] at hc
    cases hh : (wsText ps tail).head? with
    | none => rw [hh] at hc; simp at hc
    | some d =>
      rw [hh] at hc
      have := (hends d).1 hh
      simp at hc
      split at hc
      · subst_vars; revert this; decide
      · subst hc; exact this
  · intro c hc
    rw [List.getLast?_map] at hc
    cases hh : (wsText ps tail).getLast? with
    | none => rw [hh] at hc; simp at hc
    | some d =>
      rw [hh] at hc
      have := (hends d).2 hh
      simp at hc
      split at hc
      · subst_vars; revert this; decide
      · subst hc; exact this

/-- C33 violated: in a text containing the internal marker between two words the marker is lost and a paragraph break
appears although there is none: for all words `u`, `v` that do not complete the marker. -/
theorem C33_violated_marker (u v : Str) (hu : ∀ c ∈ u, isSpace c = false ∧ c ≠ '<') (hv : ∀ c ∈ v, isSpace c = false ∧ c ≠ '<')
    (hu0 : u ≠ []) (hv0 : v ≠ []) :
    normalizeWs (u ++ "<PARA_BREAK>".toList ++ v) = u ++ '\n' :: v := by
  have hws : ∀ c, isSpace c = false → wsB c = false := by
    intro c h
    cases hw : wsB c
    · rfl
    · rw [wsB_iff] at hw; rw [ws_isSpace hw] at h; cases h
  have hl : Loose [([], u ++ paraMarker ++ v)] := by
    intro p hp
    simp at hp; subst hp
    refine ⟨by simp, by simp [hu0], ?_⟩
    intro c hc
    simp at hc
    rcases hc with hc | hc | hc
    · exact hws c (hu c hc).1
    · exact paraMarker_noWs c hc
    · exact hws c (hv c hc).1
  have h := steps123 [([], u ++ paraMarker ++ v)] [] hl (by simp)
  have e : wsText [([], u ++ paraMarker ++ v)] [] = u ++ paraMarker ++ v := by simp [wsText]
  have e2 : wsText ([([], u ++ paraMarker ++ v)].map fun p => (gap123 p.1, p.2)) (gap123 []) = u ++ (paraMarker ++ (v ++ [])) := by
    simp [wsText, gap123]
  have hnc : ∀ w : Str, (∀ c ∈ w, isSpace c = false ∧ c ≠ '<') → ¬ Contains w paraMarker := by
    rintro w hw ⟨a, b, rfl⟩
    exact (hw '<' (by rw [paraMarker_head]; simp)).2 rfl
  unfold normalizeWs
  simp only
  rw [e, e2] at h
  change strip (replace (blanksRe.sub _ (nlRe.sub _ (paraRe.sub _ (u ++ paraMarker ++ v)))) _ _) = _
  rw [h]
  unfold replace
  rw [replace_word u _ (hnc u hu) (by intro c hc; rw [paraMarker_head] at hc; simp at hc; exact Or.inr hc.symm),
    replaceAux_hit _ _ _ paraMarker_ne, replace_word v [] (hnc v hv) (by simp)]
  have := strip_core [] [] (u ++ '\n' :: v) (by simp) (by simp) ?_ ?_
  · simpa [replaceAux] using this
  · intro c hc
    cases u with
    | nil => exact absurd rfl hu0
    | cons x u => simp at hc; subst hc; exact (hu x (by simp)).1
  · intro c hc
    rw [List.getLast?_append, List.getLast?_cons] at hc
    cases v with
    | nil => exact absurd rfl hv0
    | cons x v =>
      have : c ∈ x :: v := by
        have h5 : (some ((x :: v).getLast?.getD '\n')).or u.getLast? = some c := hc
        rw [List.getLast?_eq_some_getLast (by simp)] at h5
        simp at h5
        rw [← h5]; exact List.getLast_mem _
      exact (hv c this).1

/-! A non-trivial text with a paragraph break, tabs, a lone newline and trailing blanks. -/
example : WsPieces [(" \n".toList, "a".toList), ("\t ".toList, "b".toList), (" \n \n".toList, "c".toList), ("\n ".toList, "d".toList)] ∧
    normalizeWs " \na\t b \n \nc\n d \t".toList = "a b\nc d".toList := by
  refine ⟨?_, by decide +kernel⟩
  simp [WsPieces, Ws]

example : ¬ Contains " \na\t b \n \nc\n d \t".toList "<PARA_BREAK>".toList := by
  rw [← findSub_contains _ (by decide)]; decide

end L2J
