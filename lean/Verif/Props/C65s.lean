import Verif.Props.C65q
/-! C65: the parser as a whole; layout commands. -/
namespace L2J.Psr
open Cmds Defn L2J.Spec
open Pre (not_word Without.sub)

/-- The layout commands. -/
def layoutWords : List String :=
  silentWords ++ lineWords ++ blankWords ++ flatWords.map (·.1) ++ flatWords1.map (·.1) ++ groupWords ++ groupsWords.map (·.1) ++ ["\\vspace", "\\hspace"] ++ lengthWords

/-- Layout commands that another handler is asked about before. -/
def _root_.L2J.Spec.oddLayout : List String := ["\\@title", "\\c@page", "\\@tempboxa", "\\@plus", "\\@minus", "\\phantomsection", "\\@addtoreset", "\\fboxsep", "\\itemindent"]

/-- Layout commands whose names are no words. -/
def signWords : List String := ["\\,", "\\;", "\\:"]

/-- Signs for layout and for accents. -/
def signs : List Char := [',', ';', ':', '\'', '`', '"', '^', '=', '.']

def laidOut (v : String) : Bool :=
  oddLayout.contains v || signWords.contains v || (v.toList.head? == some '\\' && passes v.toList.tail && notFirsts v.toList.tail && notContents v.toList.tail && notMiddles v.toList.tail)

theorem layout_table : layoutWords.all laidOut = true := by decide +kernel

/-- The name of a layout command. -/
theorem layout_name {t rest out : Str} (h : Layout t rest out) : ∃ v x, v ∈ layoutWords ∧ t = v.toList ++ x ∧ NameEnds (x ++ rest) := by
  cases h with
  | silent w _ hw hr => exact ⟨w, [], by simp [layoutWords, hw], by simp, Spec.WordEnds.name hr⟩
  | line w _ hw hr => exact ⟨w, [], by simp [layoutWords, hw], by simp, Spec.WordEnds.name hr⟩
  | blank w _ hw hr => exact ⟨w, [], by simp [layoutWords, hw], by simp, hr⟩
  | flat w l _ hw h1 h2 =>
    exact ⟨w, _, by simp only [layoutWords, List.mem_append, List.mem_map]; exact .inl (.inl (.inl (.inl (.inl (.inr ⟨_, hw, rfl⟩))))), rfl,
      Fmt.wrapAll_head (P := fun c => isNameChar c = false) h1 space_name (by decide) (Pre.flat_ne rfl (Fmt.flatWords_pos (w, l.length) (List.mem_append_left _ hw)))⟩
  | flat1 w l _ hw h1 h2 =>
    exact ⟨w, _, by simp only [layoutWords, List.mem_append, List.mem_map]; exact .inl (.inl (.inl (.inl (.inr ⟨_, hw, rfl⟩)))), rfl,
      Fmt.wrapAll_head (P := fun c => isNameChar c = false) h1 space_name (by decide) (Pre.flat_ne rfl (Fmt.flatWords_pos (w, l.length) (List.mem_append_right _ hw)))⟩
  | group w ws body _ hw hws hb =>
    exact ⟨w, _, by simp [layoutWords, hw], rfl, by rw [show (ws ++ '{' :: (body ++ ['}'])) ++ rest = ws ++ '{' :: (body ++ '}' :: rest) by simp]; exact head_blank hws space_name (by simp; decide)⟩
  | groups w l _ hw hl =>
    exact ⟨w, _, by simp only [layoutWords, List.mem_append, List.mem_map]; exact .inl (.inl (.inr ⟨_, hw, rfl⟩)), rfl,
      Fmt.wrapAll_head (P := fun c => isNameChar c = false) (fun e he => (hl e he).1) space_name (by decide) (Pre.flat_ne rfl (Pre.groups_pos (w, l.length) hw))⟩
  | vspace st ws x _ hst hws hx =>
    exact ⟨"\\vspace", _, by decide +kernel, rfl, by rw [List.append_assoc, List.append_assoc]; exact Fmt.star_name hst hws (by intro c hc; simp at hc; subst hc; decide)⟩
  | hspace st ws x _ hst hws h0 hx =>
    exact ⟨"\\hspace", _, by decide +kernel, rfl, by rw [List.append_assoc, List.append_assoc]; exact Fmt.star_name hst hws (by intro c hc; simp at hc; subst hc; decide)⟩
  | length w ws x _ hw hws hx hr =>
    have hn : ∀ c ∈ (x.written ++ rest).head?, isSpace c = false ∧ isNameChar c = false ∧ c ≠ '=' := by
      unfold LengthText.written; rw [List.append_assoc]; exact Fmt.num_first hx.1 _
    exact ⟨w, _, by simp [layoutWords, hw], rfl, by rw [List.append_assoc]; exact head_blank hws space_name fun c hc => (hn c hc).2.1⟩

theorem sign_words : ∀ c ∈ signs, secondNot c (defineWords ++ effectWords ++ condWords) = true ∧ secondNot c packageHeads = true ∧ secondNot c authorHeads = true ∧
    secondNot c ["\\verb", "\\item", "\\begin"] = true ∧ secondNot c blockHeads = true ∧ secondNot c styleHeads = true := by decide +kernel

theorem sign_facts : ∀ c ∈ signs, lowerChar c = c ∧ isNameChar c = false ∧ c ∉ "$%&_#{}~".toList ∧ isLetter c = false ∧ c ≠ '[' ∧ c ≠ '(' ∧ c ≠ 'b' ∧ Eqn.pairChar c = false ∧ Style.isLetter c = false ∧ c ≠ 'c' := by
  decide +kernel

theorem sign_content : ∀ c ∈ signs, (∀ v ∈ contentWords, [c].map lowerChar ≠ v.toList) ∧ ¬ "footnotemark".toList <+: [c].map lowerChar ∧
    (¬ "section".toList <:+ [c].map lowerChar ∧ ¬ "paragraph".toList <:+ [c].map lowerChar) ∧ ∀ d ∈ [c], oddLetter d = false := by decide +kernel

theorem sign_first {c : Char} (hc : c ∈ signs) (t : Str) : NotFirst ('\\' :: c :: t) := by
  obtain ⟨_, h2, h3, h4, _, _⟩ := sign_words c hc
  obtain ⟨f1, _, _, _, f5, f6, f7, _⟩ := sign_facts c hc
  refine ⟨without_second h2, ?_, ?_, Without.sub (without_second h4) fun v hv => by simp at hv ⊢; rcases hv with h | h <;> simp [h], not_word (without_second h4) (by decide +kernel)⟩
  · unfold NoAuthor
    rw [List.map_cons, List.map_cons, f1, show lowerChar '\\' = '\\' by decide]
    exact without_second h3
  · rintro (⟨u, hu⟩ | ⟨u, hu⟩ | ⟨u, hu⟩ | ⟨n, _, w, star, _, u, hu⟩)
    · simp at hu
    · simp at hu; exact f5 hu.1.symm
    · simp at hu; exact f6 hu.1.symm
    · simp [tag] at hu; exact f7 hu.1.symm

/-- A sign comes to the handlers of layout and accents. -/
theorem reach_sign {V X} {cfg : Cfg V X} (ho : SomeOrder cfg.order) (hl : Letters cfg.cmds) (p : Parse V X) (n : Nat) {h} {st : St V X} (k : Known cfg h st) (toks : List Tok) (space : Bool) {c : Char} {t : Str}
    (hc : c ∈ signs) (hu : ∀ y ∈ h, ¬ Meant y.1 [c]) (hod : ∀ c ∈ t.head?, oddLetter c = false) :
    actAt cfg p n .default st toks space ('\\' :: ([c] ++ t)) = actHandlers cfg p n .default st toks space ('\\' :: ([c] ++ t)) ∧
      handlers cfg p n st toks ('\\' :: ([c] ++ t)) = orElse (formatting cfg p st toks ('\\' :: ([c] ++ t))) (diacritics cfg p st toks ('\\' :: ([c] ++ t))) := by
  obtain ⟨s1, s2, s3, s4, s5, s6⟩ := sign_words c hc
  obtain ⟨f1, f2, f3, f4, f5, f6, f7, f8, f9, f10⟩ := sign_facts c hc
  have hw : Ends [c] t := .inr ⟨c, rfl, f2⟩
  have hpass : Passed h [c] t := by
    refine ⟨.inr ⟨c, rfl, f2⟩, fun d hd => by cases hd; exact f3, without_second s1, ?_, hu, ?_⟩
    · rintro ⟨u, hu⟩; simp at hu; exact f10 hu.1.symm
    · intro k hk
      obtain ⟨d, u, e, hd⟩ := switch_slash hk
      simp at e
      rw [← e.1, f4] at hd; cases hd
  have hcont : NotContent [c] t := ⟨(sign_content c hc).1, (sign_content c hc).2.1, (sign_content c hc).2.2.1, (sign_content c hc).2.2.2, hod⟩
  refine ⟨actAt_passed hl p n .default k toks space hpass, ?_⟩
  have hb : Without blockHeads ('\\' :: ([c] ++ t)) := without_second s5
  have hbg : ¬ "\\begin".toList <+: '\\' :: ([c] ++ t) := (sign_first hc _).env
  have h3 : Style.styledName ('\\' :: ([c] ++ t)) = none := Style.styledName_miss [] (c :: t) rfl (by decide +kernel) (by intro d hd; simp at hd; subst hd; exact f9)
  have h4 : Eqn.matchPair ('\\' :: ([c] ++ t)) = none := by
    unfold Eqn.matchPair
    simp only [List.singleton_append, List.takeWhile_cons, f8]
    rfl
  rw [handlers_first cfg ho p n st toks (show NotFirst ('\\' :: ([c] ++ t)) from sign_first hc _), content_none cfg p st toks hw hcont, orElse_none, table_none (not_word hb (by decide +kernel)) hbg, environment_none cfg p st toks hb hbg h4,
    forLoop_none st toks hb, style_none cfg p st toks (show Without styleHeads ('\\' :: ([c] ++ t)) from without_second s6) h3]
  rfl

/-- A layout command comes to its handler. -/
theorem reach_layout {V X} {cfg : Cfg V X} (ho : SomeOrder cfg.order) (hl : Letters cfg.cmds) (p : Parse V X) (n : Nat) {h} {st : St V X} (k : Known cfg h st) (toks : List Tok) (space : Bool) {w x rest out : Str}
    (hlay : Layout ('\\' :: (w ++ x)) rest out) (hw : Ends w (x ++ rest)) (hodd : ∀ v ∈ oddLayout, '\\' :: w ≠ v.toList) (hu : ∀ y ∈ h, ¬ Meant y.1 w)
    (hp : ¬ Contains (x ++ rest) ("\\end".toList ++ w)) (hod : ∀ c ∈ (x ++ rest).head?, oddLetter c = false) :
    actAt cfg p n .default st toks space ('\\' :: (w ++ (x ++ rest))) = actHandlers cfg p n .default st toks space ('\\' :: (w ++ (x ++ rest))) ∧
      handlers cfg p n st toks ('\\' :: (w ++ (x ++ rest))) = orElse (formatting cfg p st toks ('\\' :: (w ++ (x ++ rest)))) (diacritics cfg p st toks ('\\' :: (w ++ (x ++ rest)))) := by
  obtain ⟨v, y, hv, he, hy⟩ := layout_name hlay
  have htab := List.all_eq_true.1 layout_table v hv
  unfold laidOut at htab
  simp only [Bool.or_eq_true, List.contains_iff_mem] at htab
  rcases htab with (ho' | hs) | ht
  · -- excluded
    exfalso
    have key : ∀ v ∈ oddLayout, v.toList.head? = some '\\' ∧ v.toList.tail ≠ [] ∧ ∀ c ∈ v.toList.tail, isNameChar c = true := by decide +kernel
    obtain ⟨k1, k2, k3⟩ := key v ho'
    cases hvl : v.toList with
    | nil => rw [hvl] at k1; cases k1
    | cons a u =>
      rw [hvl] at k1 k2 k3 he
      obtain rfl : a = '\\' := by simpa using k1
      have he' : w ++ x = u ++ y := by simpa using he
      have : w = u := exact_name hw ⟨k2, k3⟩ (by rw [← List.append_assoc, he', List.append_assoc]) (not_letter_of_name hy)
      exact hodd v ho' (by rw [hvl, this])
  · have key : ∀ v ∈ signWords, ∃ c ∈ signs, v.toList = ['\\', c] := by decide +kernel
    obtain ⟨c, hc, hvc⟩ := key v hs
    rw [hvc] at he
    have f4 := (sign_facts c hc).2.2.2.1
    have he' : w ++ x = c :: y := by simpa using he
    have hwc : w = [c] := by
      rcases hw with ⟨h1, h2, _⟩ | ⟨d, rfl, _⟩
      · cases w with
        | nil => exact absurd rfl h1
        | cons a w => simp at he'; have := h2 a (by simp); rw [he'.1, f4] at this; cases this
      · simp at he'; rw [he'.1]
    subst hwc
    exact reach_sign ho hl p n k toks space hc hu hod
  · simp only [Bool.and_eq_true, beq_iff_eq] at ht
    obtain ⟨⟨⟨⟨t0, t1⟩, t2⟩, t3⟩, t4⟩ := ht
    cases hvl : v.toList with
    | nil => rw [hvl] at t0; cases t0
    | cons a u =>
      rw [hvl] at t0 t1 t2 t3 t4 he
      simp only [List.tail_cons] at t1 t2 t3 t4
      obtain rfl : a = '\\' := by simpa using t0
      have he' : w ++ x = u ++ y := by simpa using he
      have hlet : u ≠ [] ∧ ∀ c ∈ u, isLetter c = true := by
        unfold passes at t1
        simp only [Bool.and_eq_true] at t1
        exact ⟨fun e => by simp [e] at t1, fun c hc => List.all_eq_true.1 t1.1.1.1.2 c hc⟩
      obtain rfl : w = u := exact_name hw ⟨hlet.1, fun c hc => letter_name c (hlet.2 c hc)⟩ (by rw [← List.append_assoc, he', List.append_assoc]) (not_letter_of_name hy)
      obtain rfl : x = y := by simpa using he'
      refine ⟨actAt_passed hl p n .default k toks space (passes_spec t1 hy hu), ?_⟩
      rw [handlers_first cfg ho p n st toks (notFirsts_spec t2 hy hod), content_none cfg p st toks hw (notContents_spec t3 hod), orElse_none,
        handlers_middle cfg p st toks hlet.2 hy (notMiddles_spec t4 hy hp)]

theorem Acts.layout {V X} {cfg : Cfg V X} (ho : SomeOrder cfg.order) (hl : Letters cfg.cmds) {h} {st : St V X} (k : Known cfg h st) {toks toks' : List Tok} (space : Bool) {w x rest out : Str} {n : Nat}
    (hlay : Layout ('\\' :: (w ++ x)) rest out) (hw : Ends w (x ++ rest)) (hodd : ∀ v ∈ oddLayout, '\\' :: w ≠ v.toList) (hu : ∀ y ∈ h, ¬ Meant y.1 w)
    (hp : ¬ Contains (x ++ rest) ("\\end".toList ++ w)) (hod : ∀ c ∈ (x ++ rest).head?, oddLetter c = false) (had : AddsText false st.next out toks toks' n) :
    Acts cfg st toks space ('\\' :: (w ++ (x ++ rest))) { st with next := n } ⟨toks', endsBlank space ('\\' :: (w ++ x)), rest⟩ := by
  refine ⟨0, fun m _ => ?_⟩
  obtain ⟨h1, h2⟩ := reach_layout ho hl (parse cfg m) m k toks space hlay hw hodd hu hp hod
  rw [h1]
  unfold actHandlers
  rw [h2]
  obtain ⟨_, o, h3, h4, h5⟩ := Pre.layout_step (preCfg cfg) hlay
  have h3 : Fmt.handle cfg.fmt ('\\' :: (w ++ (x ++ rest))) = .ok ⟨o, ('\\' :: (w ++ x)).length, false⟩ := by
    rw [show '\\' :: (w ++ (x ++ rest)) = '\\' :: (w ++ x) ++ rest by simp]; exact h3
  have hcan : Fmt.canHandle ('\\' :: (w ++ (x ++ rest))) = true := by
    unfold Fmt.canHandle
    unfold Fmt.handle Fmt.handleWith at h3
    cases hf : Fmt.firstEntry ('\\' :: (w ++ (x ++ rest))) Fmt.entries with
    | none => rw [hf] at h3; simp at h3
    | some a => rfl
  have hfmt : formatting cfg (parse cfg m) st toks ('\\' :: (w ++ (x ++ rest))) = some (.ok { st with next := n } (toks', (('\\' :: (w ++ x)).length : Nat))) := by
    unfold formatting
    rw [hcan, if_pos rfl, h3]
    simp only [Bool.false_eq_true, if_false]
    rcases h5 with ⟨rfl, hne⟩ | ⟨rfl, rfl⟩
    · cases had with
      | empty => exact absurd rfl hne
      | text _ _ _ _ ha =>
        simp only
        unfold single
        rw [show processTok cfg (parse cfg m) false st.fresh (newTok st "text".toList (.str out) []) toks = .ok st.fresh toks' from ?_]
        · rfl
        show processTok cfg (parse cfg m) false st.fresh (.mk st.next "text".toList (.str out) [] none) toks = _
        rw [process_plain cfg _ _ (.mk st.next "text".toList (.str out) [] none) toks (show "text".toList ∉ ownTypes by decide)]
        unfold add
        rw [adds_spec ha]
    · cases had with
      | empty => rfl
      | text _ _ _ hne _ => exact absurd rfl hne
  rw [hfmt]
  simp only [orElse, Res.bind]
  rw [show '\\' :: (w ++ (x ++ rest)) = ('\\' :: (w ++ x)) ++ rest by simp, move_ok _ _ _ _ _ rfl]

end L2J.Psr
