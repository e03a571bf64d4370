import Verif.Props.C65c
/-! C65: which words reach which handler. -/
namespace L2J.Psr
open Cmds Defn L2J.Spec
open Pre (hitAt firstHit escapable not_word headCore takeWhile_prefix without_word Without.sub)

/-- No word of a list begins with this word, up to where its letters end. -/
def clearOf (ws : List String) (w : Str) : Bool := ws.all fun v => (v.toList.head? == some '\\') && !((headCore v.toList).isPrefixOf ('\\' :: w))

theorem clear_spec {ws : List String} {w rest : Str} (h : clearOf ws w = true) (hr : NameEnds rest) : Without ws ('\\' :: (w ++ rest)) := by
  have h := List.all_eq_true.1 h
  refine without_word (w := '\\' :: w) (fun v hv => ?_) rfl hr (fun v hv hp => ?_)
  · have := h v hv
    simp only [Bool.and_eq_true, beq_iff_eq] at this
    exact this.1
  · have := h v hv
    rw [List.isPrefixOf_iff_prefix.2 hp] at this
    simp at this

theorem kind_mem (k : Legacy.Kind) : k ∈ [Legacy.Kind.font, .size, .color] := by cases k <;> decide

/-- No switch. -/
def noSwitch (w : Str) : Bool := ([Legacy.Kind.font, .size, .color].all fun k => (switchTable k).all fun e => w != e.1.toList.takeWhile isLetter) && w != "color".toList && w != "normalcolor".toList

theorem takeWhile_app {p : Char → Bool} : ∀ (n : Str) {r : Str}, (∀ c ∈ r.head?, p c = false) → (n ++ r).takeWhile p = n.takeWhile p
  | [], r, h => by
    cases r with
    | nil => rfl
    | cons c r => rw [List.nil_append, List.takeWhile_cons, if_neg (by rw [h c rfl]; simp)]; rfl
  | c :: n, r, h => by
    rw [List.cons_append, List.takeWhile_cons, List.takeWhile_cons, takeWhile_app n h]

theorem takeWhile_id {p : Char → Bool} : ∀ {w : Str}, (∀ c ∈ w, p c = true) → w.takeWhile p = w
  | [], _ => rfl
  | c :: w, h => by rw [List.takeWhile_cons, if_pos (h c (by simp)), takeWhile_id fun c hc => h c (by simp [hc])]

theorem name_letter {rest : Str} (h : NameEnds rest) : ∀ c ∈ rest.head?, isLetter c = false := fun c hc => by
  cases hh : isLetter c with
  | false => rfl
  | true => have := h c hc; rw [letter_name c hh] at this; cases this

theorem noSwitch_spec {w rest : Str} (h : noSwitch w = true) (hw : ∀ c ∈ w, isLetter c = true) (hr : NameEnds rest) (k : Legacy.Kind) : ¬ SwitchAt k ('\\' :: (w ++ rest)) := by
  simp only [noSwitch, Bool.and_eq_true, List.all_eq_true, bne_iff_ne, ne_eq] at h
  obtain ⟨⟨h1, h2⟩, h3⟩ := h
  have key : ∀ {n r : Str}, (∀ c ∈ r.head?, isLetter c = false) → w ++ rest = n ++ r → w = n.takeWhile isLetter := by
    intro n r hx e
    have := congrArg (List.takeWhile isLetter) e
    rwa [takeWhile_app _ (name_letter hr), takeWhile_app _ hx, takeWhile_id hw] at this
  have sp : ∀ {ws x : Str} {c : Char}, (∀ d ∈ ws, isSpace d = true) → isLetter c = false → ∀ d ∈ (ws ++ c :: x).head?, isLetter d = false := by
    intro ws x c hws hc d hd
    cases ws with
    | nil => simp at hd; rw [← hd]; exact hc
    | cons a ws =>
      simp at hd
      subst hd
      exact Style.space_letter (hws _ (by simp))
  intro hs
  generalize hx : ('\\' :: (w ++ rest)) = s at hs
  cases hs with
  | name r he hn =>
    rename_i n st
    rw [List.cons.injEq] at hx
    exact h1 k (kind_mem k) _ he (key hn hx.2)
  | color hc =>
    cases hc with
    | plain ws r hws => exact h2 (key (n := "color".toList) (sp hws (show isLetter '{' = false by decide)) (by simpa using hx))
    | model ws m ws' r hws _ _ _ => exact h2 (key (n := "color".toList) (sp hws (show isLetter '[' = false by decide)) (by simpa using hx))
    | normal r hr' => exact h3 (key (n := "normalcolor".toList) (fun c hc => by
        cases hh : isLetter c with
        | false => rfl
        | true => have := hr' c hc; rw [letter_word c hh] at this; cases this) (by simpa using hx))

/-- The word reaches the handlers. -/
def passes (w : Str) : Bool := !w.isEmpty && w.all isLetter && clearOf (defineWords ++ effectWords ++ condWords) w && !("csname".toList.isPrefixOf w) && noSwitch w

theorem passes_spec {h : List (Def × Bool)} {w rest : Str} (hp : passes w = true) (hr : NameEnds rest) (hu : ∀ x ∈ h, ¬ Meant x.1 w) : Passed h w rest := by
  simp only [passes, Bool.and_eq_true, Bool.not_eq_true', List.all_eq_true] at hp
  obtain ⟨⟨⟨⟨h1, h2⟩, h3⟩, h4⟩, h5⟩ := hp
  have hne : w ≠ [] := by rintro rfl; cases h1
  refine ⟨.inl ⟨hne, h2, hr⟩, fun c hc hm => ?_, clear_spec h3 hr, fun hx => ?_, hu, noSwitch_spec h5 h2 hr⟩
  · have : isLetter c = true := h2 c (List.mem_of_head? hc)
    revert this
    revert hm c
    exact fun c _ hm => (by decide : ∀ c ∈ "$%&_#{}~".toList, isLetter c ≠ true) c hm
  · have := takeWhile_prefix (p := isNameChar) hx hr
    rw [show "csname".toList.takeWhile isNameChar = "csname".toList from by decide, ← List.isPrefixOf_iff_prefix, h4] at this
    cases this

theorem lower_name {c : Char} (h1 : isNameChar c = false) (h2 : oddLetter c = false) : lowerChar c = c := by
  have h3 : isLetter c = false := by
    cases hh : isLetter c with
    | false => rfl
    | true => rw [letter_name c hh] at h1; cases h1
  unfold lowerChar
  simp only [oddLetter, Bool.or_eq_false_iff, beq_eq_false_iff_ne] at h2
  rw [if_neg, if_neg (by rintro (h | h); exact h2.1.1.1 h; exact h2.1.1.2 h), if_neg h2.1.2, if_neg h2.2]
  intro h
  unfold isLetter at h3
  simp [h] at h3

/-- The word is not for the first five handlers. -/
def notFirsts (w : Str) : Bool :=
  !w.isEmpty && w.all isLetter && clearOf (packageHeads ++ ["\\verb", "\\item", "\\begin"]) w && clearOf authorHeads (w.map lowerChar)

theorem notFirsts_spec {w rest : Str} (h : notFirsts w = true) (hr : NameEnds rest) (ho : ∀ c ∈ rest.head?, oddLetter c = false) : NotFirst ('\\' :: (w ++ rest)) := by
  simp only [notFirsts, Bool.and_eq_true, Bool.not_eq_true', List.all_eq_true] at h
  obtain ⟨⟨⟨h1, h2⟩, h3⟩, h4⟩ := h
  have h3 := clear_spec h3 hr
  have hb : ¬ "\\begin".toList <+: '\\' :: (w ++ rest) := not_word h3 (by decide +kernel)
  refine ⟨Without.sub h3 fun v hv => List.mem_append_left _ hv, ?_, ?_, Without.sub h3 fun v hv => List.mem_append_right _ ?_, hb⟩
  · unfold NoAuthor
    have := clear_spec (rest := rest.map lowerChar) h4 (fun c hc => by
      rw [List.head?_map] at hc
      cases hh : rest.head? with
      | none => rw [hh] at hc; cases hc
      | some d =>
        rw [hh] at hc
        simp at hc
        rw [← hc, lower_name (hr d (by rw [hh]; rfl)) (ho d (by rw [hh]; rfl))]
        exact hr d (by rw [hh]; rfl))
    rw [List.map_cons, List.map_append]
    exact this
  · cases w with
    | nil => cases h1
    | cons c w =>
      have hc := h2 c (by simp)
      rintro (⟨t, ht⟩ | ⟨t, ht⟩ | ⟨t, ht⟩ | ⟨n, _, u, star, _, t, ht⟩)
      · simp at ht
      · simp at ht; rw [← ht.1] at hc; exact absurd hc (by decide)
      · simp at ht; rw [← ht.1] at hc; exact absurd hc (by decide)
      · refine hb ?_
        rw [← ht]; unfold tag; rw [List.append_assoc]; exact ⟨_, rfl⟩
  · simp only [List.mem_cons, List.not_mem_nil, or_false] at hv ⊢
    rcases hv with h | h
    · exact .inl h
    · exact .inr (.inl h)

/-- The word is not for the handlers from tables to styles. -/
def notMiddles (w : Str) : Bool := clearOf (blockHeads ++ styleHeads ++ ["\\begin"]) w && styleTable.all fun e => w != e.1.toList

theorem notMiddles_spec {w rest : Str} (h : notMiddles w = true) (hr : NameEnds rest) (hp : ¬ Contains rest ("\\end".toList ++ w)) : NotMiddle w rest := by
  simp only [notMiddles, Bool.and_eq_true, List.all_eq_true, bne_iff_ne, ne_eq] at h
  have h3 := clear_spec h.1 hr
  exact ⟨Without.sub h3 fun v hv => by simp [hv], not_word h3 (by decide +kernel), hp, Without.sub h3 fun v hv => by simp [hv], h.2⟩

/-- The word is not for the handler of commands with content. -/
def notContents (w : Str) : Bool :=
  contentWords.all (fun v => w.map lowerChar != v.toList) && !("footnotemark".toList.isPrefixOf (w.map lowerChar)) && !("section".toList.isSuffixOf (w.map lowerChar)) &&
    !("paragraph".toList.isSuffixOf (w.map lowerChar)) && w.all fun c => !oddLetter c

theorem notContents_spec {w rest : Str} (h : notContents w = true) (ho : ∀ c ∈ rest.head?, oddLetter c = false) : NotContent w rest := by
  simp only [notContents, Bool.and_eq_true, List.all_eq_true, bne_iff_ne, ne_eq, Bool.not_eq_true'] at h
  obtain ⟨⟨⟨⟨h1, h2⟩, h3⟩, h4⟩, h5⟩ := h
  refine ⟨h1, fun hp => ?_, ⟨fun hp => ?_, fun hp => ?_⟩, h5, ho⟩
  · rw [List.isPrefixOf_iff_prefix.2 hp] at h2; cases h2
  · rw [List.isSuffixOf_iff_suffix.2 hp] at h3; cases h3
  · rw [List.isSuffixOf_iff_suffix.2 hp] at h4; cases h4

end L2J.Psr
