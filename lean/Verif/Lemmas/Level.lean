import Verif.Lemmas.Delim
namespace L2J
open Spec

theorem escapedAt_take (t : Str) (m : Nat) : ∀ j, j ≤ m → escapedAt (t.take m) j = escapedAt t j
  | 0, _ => rfl
  | j + 1, h => by
    simp only [escapedAt, escapedAt_take t m j (by omega)]
    rw [List.getElem?_take_of_lt (by omega)]

theorem liveAt_take (t : Str) (d : Char) (m j : Nat) (h : j < m) :
    liveAt (t.take m) d j = liveAt t d j := by
  unfold liveAt
  rw [escapedAt_take t m j (by omega), List.getElem?_take_of_lt h]

theorem level_take (t : Str) (o c : Char) (m : Nat) :
    ∀ j, j ≤ m → level (t.take m) o c j = level t o c j
  | 0, _ => rfl
  | j + 1, h => by
    simp only [level, level_take t o c m j (by omega), liveAt_take t _ m j (by omega)]

theorem escapedAt_drop (t : Str) (k : Nat) (hk : escapedAt t k = false) :
    ∀ j, escapedAt (t.drop k) j = escapedAt t (k + j)
  | 0 => by simp [escapedAt, hk]
  | j + 1 => by
    rw [← Nat.add_assoc]
    simp only [escapedAt, escapedAt_drop t k hk j, List.getElem?_drop]

theorem liveAt_drop (t : Str) (d : Char) (k : Nat) (hk : escapedAt t k = false) (j : Nat) :
    liveAt (t.drop k) d j = liveAt t d (k + j) := by
  unfold liveAt
  rw [escapedAt_drop t k hk j, List.getElem?_drop]

theorem level_drop (t : Str) (o c : Char) (k : Nat) (hk : escapedAt t k = false) :
    ∀ j, level (t.drop k) o c j = level t o c (k + j) - level t o c k
  | 0 => by simp [level]
  | j + 1 => by
    rw [← Nat.add_assoc]
    simp only [level, level_drop t o c k hk j, liveAt_drop t _ k hk j]
    omega

theorem level_step (t : Str) (o c : Char) (i : Nat) :
    level t o c (i + 1) ≤ level t o c i + 1 ∧ level t o c i - 1 ≤ level t o c (i + 1) := by
  simp only [level]
  split
  · omega
  · split <;> omega

/-- After the end of the text nothing changes. -/
theorem liveAt_lt {t : Str} {d : Char} {i : Nat} (h : liveAt t d i = true) : i < t.length := by
  unfold liveAt at h
  simp at h
  have := h.1
  by_cases hlt : i < t.length
  · exact hlt
  · simp [List.getElem?_eq_none (Nat.le_of_not_lt hlt)] at this

theorem liveAt_get {t : Str} {d : Char} {i : Nat} (h : liveAt t d i = true) :
    t[i]? = some d ∧ escapedAt t i = false := by
  unfold liveAt at h; simpa using h

/-- Not escaped just after a non-backslash. -/
theorem escapedAt_succ_of_ne {t : Str} {i : Nat} {x : Char} (h : t[i]? = some x) (hx : x ≠ '\\') :
    escapedAt t (i + 1) = false := by
  simp [escapedAt, h, hx]

theorem isSpace_ne_backslash {x : Char} (h : isSpace x = true) : x ≠ '\\' := by
  intro hx; subst hx; revert h; decide

theorem escapedAt_of_leadingSpace {t : Str} {s : Nat} (h : LeadingSpace t s) :
    escapedAt t s = false := by
  cases s with
  | zero => rfl
  | succ n =>
    obtain ⟨x, hx, hs⟩ := h.1 n (by omega)
    exact escapedAt_succ_of_ne hx (isSpace_ne_backslash hs)

theorem leadingSpace_unique {t : Str} {s s' : Nat} (h : LeadingSpace t s) (h' : LeadingSpace t s') :
    s = s' := by
  rcases Nat.lt_trichotomy s s' with hlt | heq | hlt
  · obtain ⟨x, hx, hs⟩ := h'.1 s hlt
    have := h.2 x hx; simp_all
  · exact heq
  · obtain ⟨x, hx, hs⟩ := h.1 s' hlt
    have := h'.2 x hx; simp_all

theorem leadingSpace_takeWhile (t : Str) : LeadingSpace t (t.takeWhile isSpace).length := by
  constructor
  · intro j hj
    have h1 : (t.takeWhile isSpace)[j]? = some (t.takeWhile isSpace)[j] := by simp [hj]
    refine ⟨(t.takeWhile isSpace)[j], ?_, ?_⟩
    · rw [← h1]
      conv => lhs; rw [← List.takeWhile_append_dropWhile (p := isSpace) (l := t)]
      rw [List.getElem?_append_left hj]
    · have := List.all_takeWhile (l := t) (p := isSpace)
      exact (List.all_eq_true.1 this) _ (List.getElem_mem hj)
  · intro x hx
    have h1 : (t.takeWhile isSpace ++ t.dropWhile isSpace)[(t.takeWhile isSpace).length]? = some x := by
      rw [List.takeWhile_append_dropWhile]; exact hx
    rw [List.getElem?_append_right (Nat.le_refl _)] at h1
    simp only [Nat.sub_self] at h1
    replace hx := h1
    cases hd : t.dropWhile isSpace with
    | nil => simp [hd] at hx
    | cons y ys =>
      have := List.head?_dropWhile_not isSpace t
      simp [hd] at this hx
      subst hx; exact this

theorem block_unique {t : Str} {o c : Char} {s e e' : Nat} (h : IsBlock t o c s e)
    (h' : IsBlock t o c s e') : e = e' := by
  rcases Nat.lt_trichotomy e e' with hlt | heq | hlt
  · have := h'.inside e h.lt hlt; have := h.closed; omega
  · exact heq
  · have := h.inside e' h'.lt hlt; have := h'.closed; omega

theorem block_open {t : Str} {o c : Char} {s e : Nat} (h : IsBlock t o c s e) :
    level t o c (s + 1) = level t o c s + 1 := by
  simp [level, h.opener]

theorem block_len {t : Str} {o c : Char} {s e : Nat} (h : IsBlock t o c s e) : s + 2 ≤ e := by
  have h1 := block_open h
  have h2 := h.lt
  have h3 := h.closed
  by_cases he : e = s + 1
  · subst he; omega
  · omega

theorem block_before_end {t : Str} {o c : Char} {s e : Nat} (h : IsBlock t o c s e) :
    level t o c (e - 1) = level t o c s + 1 := by
  have hlen := block_len h
  have h1 := level_step t o c (e - 1)
  have h2 := h.inside (e - 1) (by omega) (by omega)
  have h3 : e - 1 + 1 = e := by omega
  rw [h3] at h1
  have := h.closed
  omega

theorem block_closer {t : Str} {o c : Char} {s e : Nat} (h : IsBlock t o c s e) :
    liveAt t c (e - 1) = true := by
  have hlen := block_len h
  have h1 := block_before_end h
  have h2 := h.closed
  have h3 : e = (e - 1) + 1 := by omega
  rw [h3] at h2
  simp only [level] at h2
  by_cases ho : liveAt t o (e - 1) = true
  · rw [if_pos ho] at h2; omega
  · by_cases hc : liveAt t c (e - 1) = true
    · exact hc
    · rw [if_neg ho, if_neg hc] at h2; omega

theorem zip_split (t : Str) : (t.takeWhile isSpace) ++ t.dropWhile isSpace = t :=
  List.takeWhile_append_dropWhile

/-- Characterisation of `find_matching_delimiter(text, o, c)` (start = 0). -/
theorem findMatchingDelimiter_zero_iff (t : Str) (o c : Char) (s e : Nat) :
    findMatchingDelimiter t o c 0 = some (s, e) ↔ LeadingSpace t s ∧ IsBlock t o c s e := by
  unfold findMatchingDelimiter
  simp only [List.take_zero, List.reverse_nil, List.drop_zero, skipSpace_spec, List.append_nil]
  have hls := leadingSpace_takeWhile t
  have hesc := escapedAt_of_leadingSpace hls
  have hsplit := zip_split t
  generalize hn : t.takeWhile isSpace = ws at *
  generalize hr : t.dropWhile isSpace = rest at *
  cases rest with
  | nil =>
    simp only [reduceCtorEq, false_iff]
    rintro ⟨h1, h2⟩
    have := leadingSpace_unique h1 hls
    have := liveAt_lt h2.opener
    have : t.length = ws.length := by rw [← hsplit]; simp
    omega
  | cons x rest =>
    have ht : t = (ws.reverse).reverse ++ x :: rest := by simp [hsplit]
    have hlen : ws.reverse.length = ws.length := by simp
    have hx : t[ws.length]? = some x := by rw [← hsplit]; simp
    simp only [bne_iff_ne, ne_eq, ite_not]
    have hesc' : isEscaped ws.reverse = false := by
      rw [← escapedAt_zip ws.reverse (x :: rest), ← ht, hlen, hesc]
    split
    · rename_i hxo
      subst hxo
      have hlive : liveAt t x ws.length = true := by simp [liveAt, hx, hesc]
      unfold findMatchLoop
      simp only [hesc', BEq.rfl, Bool.not_false, Bool.and_self, if_true, Nat.zero_add]
      have key := fun e => findMatchLoop_iff x c rest (x :: ws.reverse) 1 (level t x c ws.length) e (by omega)
        (by
          have h1 : (x :: ws.reverse).reverse ++ rest = t := by rw [ht]; simp
          rw [h1]
          simp only [List.length_cons, hlen, level, hlive, if_true]; simp)
      have h1 : (x :: ws.reverse).reverse ++ rest = t := by rw [ht]; simp
      simp only [h1, List.length_cons, hlen] at key
      rw [Option.map_eq_some_iff]
      constructor
      · rintro ⟨e', he', heq⟩
        injection heq with ha hb
        rw [hlen] at ha
        subst ha; subst hb
        obtain ⟨k1, k2, k3, k4⟩ := (key e').1 he'
        refine ⟨hls, hlive, by omega, k2, k3, fun j hj hje => ?_⟩
        by_cases hj' : j = ws.length + 1
        · subst hj'; simp only [level, hlive, if_true]; omega
        · exact k4 j (by omega) hje
      · rintro ⟨hls', hb⟩
        have hs := leadingSpace_unique hls' hls
        subst hs
        have h2 := block_len hb
        refine ⟨e, (key e).2 ⟨by omega, hb.le, hb.closed, fun j hj hje => hb.inside j (by omega) hje⟩, by rw [hlen]⟩
    · rename_i hxo
      simp only [reduceCtorEq, false_iff]
      rintro ⟨hls', hb⟩
      have hs := leadingSpace_unique hls' hls
      subst hs
      have := (liveAt_get hb.opener).1
      rw [hx] at this
      injection this with this
      exact hxo this

theorem slice_length (t : Str) (a b : Nat) : (slice t a b).length = min b t.length - a := by
  simp [slice]

/-- The inside of a block, taken on its own, is balanced. -/
theorem block_content_balanced {t : Str} {o c : Char} {s e : Nat} (ho : o ≠ '\\')
    (h : IsBlock t o c s e) : Balanced (slice t (s + 1) (e - 1)) o c := by
  have hlen := block_len h
  have hle := h.le
  have hesc : escapedAt (t.take (e - 1)) (s + 1) = false := by
    rw [escapedAt_take _ _ _ (by omega)]
    exact escapedAt_succ_of_ne (liveAt_get h.opener).1 ho
  have hlevel : ∀ j, j ≤ e - 1 - (s + 1) →
      level (slice t (s + 1) (e - 1)) o c j = level t o c (s + 1 + j) - level t o c (s + 1) := by
    intro j hj
    unfold slice
    rw [level_drop _ o c _ hesc, level_take _ _ _ _ _ (by omega), level_take _ _ _ _ _ (by omega)]
  have hl : (slice t (s + 1) (e - 1)).length = e - 1 - (s + 1) := by
    rw [slice_length]; omega
  have hopen := block_open h
  constructor
  · intro j hj
    rw [hl] at hj
    rw [hlevel j hj]
    have := h.inside (s + 1 + j) (by omega) (by omega)
    omega
  · rw [hl, hlevel _ (Nat.le_refl _)]
    have h2 : s + 1 + (e - 1 - (s + 1)) = e - 1 := by omega
    rw [h2, block_before_end h]
    omega

theorem escapedAt_append_left (a b : Str) : ∀ j, j ≤ a.length → escapedAt (a ++ b) j = escapedAt a j := by
  intro j hj
  have := escapedAt_take (a ++ b) a.length j hj
  simpa using this.symm

theorem level_append_left (a b : Str) (o c : Char) (j : Nat) (hj : j ≤ a.length) :
    level (a ++ b) o c j = level a o c j := by
  have := level_take (a ++ b) o c a.length j hj
  simpa using this.symm

theorem level_append_right (a b : Str) (o c : Char) (ha : escapedAt a a.length = false) (j : Nat) :
    level (a ++ b) o c (a.length + j) = level a o c a.length + level b o c j := by
  have h1 : escapedAt (a ++ b) a.length = false := by
    rw [escapedAt_append_left a b _ (Nat.le_refl _), ha]
  have := level_drop (a ++ b) o c a.length h1 j
  simp only [List.drop_left] at this
  rw [level_append_left a b o c _ (Nat.le_refl _)] at this
  omega

theorem escapedAt_append_right (a b : Str) (ha : escapedAt a a.length = false) (j : Nat) :
    escapedAt (a ++ b) (a.length + j) = escapedAt b j := by
  have h1 : escapedAt (a ++ b) a.length = false := by
    rw [escapedAt_append_left a b _ (Nat.le_refl _), ha]
  have := escapedAt_drop (a ++ b) a.length h1 j
  simpa using this.symm

/-- A balanced text wrapped in delimiters is a block wherever it stands. -/
theorem wrap_isBlock (pre content post : Str) (o c : Char) (ho : o ≠ '\\') (hoc : o ≠ c)
    (hpre : escapedAt pre pre.length = false) (hb : Balanced content o c)
    (hesc : escapedAt content content.length = false) :
    IsBlock (pre ++ o :: (content ++ c :: post)) o c pre.length (pre.length + content.length + 2) := by
  have hlev : ∀ j, level (pre ++ o :: (content ++ c :: post)) o c (pre.length + j)
      = level pre o c pre.length + level (o :: (content ++ c :: post)) o c j :=
    level_append_right _ _ _ _ hpre
  have e1 : escapedAt [o] [o].length = false := by simp [escapedAt, ho]
  have hlev1 : ∀ j, level (o :: (content ++ c :: post)) o c (1 + j) = 1 + level (content ++ c :: post) o c j := by
    intro j
    have := level_append_right [o] (content ++ c :: post) o c e1 j
    simpa [level, liveAt, escapedAt] using this
  have hlev2 : ∀ j, j ≤ content.length → level (content ++ c :: post) o c j = level content o c j :=
    fun j hj => level_append_left _ _ _ _ _ hj
  have hlev3 : level (content ++ c :: post) o c (content.length + 1) = -1 := by
    rw [level_append_right _ _ _ _ hesc, hb.2]
    simp [level, liveAt, escapedAt, Ne.symm hoc]
  have hp0 := hlev 0
  simp only [Nat.add_zero, level, Int.add_zero] at hp0
  refine ⟨?_, by omega, by simp; omega, ?_, ?_⟩
  · have := escapedAt_append_left pre (o :: (content ++ c :: post)) pre.length (Nat.le_refl _)
    simp [liveAt, this, hpre]
  · rw [show pre.length + content.length + 2 = pre.length + (1 + (content.length + 1)) by omega, hlev,
      hlev1, hlev3]
    omega
  · intro j hj hje
    obtain ⟨k, rfl⟩ : ∃ k, j = pre.length + (1 + k) := ⟨j - pre.length - 1, by omega⟩
    rw [hlev, hlev1, hlev2 k (by omega)]
    have := hb.1 k (by omega)
    omega

end L2J
