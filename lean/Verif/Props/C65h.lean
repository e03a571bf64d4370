import Verif.Props.C65g
/-! C65: line breaks, groups and text. -/
namespace L2J.Psr
open Cmds Defn L2J.Spec
open Pre (not_word Without.sub)

/-- The words have no second backslash. -/
def oneSlash (ws : List String) : Bool := ws.all fun v => match v.toList with | '\\' :: c :: _ => c != '\\' | _ => false

theorem two_without {ws : List String} (h : oneSlash ws = true) (t : Str) : Without ws ('\\' :: '\\' :: t) := by
  intro v hv hp
  have := List.all_eq_true.1 h v hv
  split at this
  · rename_i c r e
    rw [e] at hp
    obtain ⟨u, hu⟩ := hp
    simp at hu
    simp [hu.1] at this
  · cases this

theorem slash_words : oneSlash (defineWords ++ effectWords ++ condWords) = true ∧ oneSlash packageHeads = true ∧ oneSlash authorHeads = true ∧ oneSlash ["\\verb", "\\item", "\\begin"] = true ∧
    oneSlash blockHeads = true ∧ oneSlash styleHeads = true ∧ oneSlash lastHeads = true ∧ oneSlash openWords = true ∧ oneSlash spaceWords = true := by
  refine ⟨?_, ?_, ?_, ?_, ?_, ?_, ?_, ?_, ?_⟩ <;> decide +kernel

theorem switch_heads : ∀ k ∈ [Legacy.Kind.font, .size, .color], ∀ e ∈ switchTable k, e.1.toList.head? ≠ some '\\' ∧ e.1.toList ≠ [] := by decide +kernel

theorem two_switch (t : Str) (k : Legacy.Kind) : ¬ SwitchAt k ('\\' :: '\\' :: t) := by
  intro h
  generalize hs : '\\' :: '\\' :: t = s at h
  cases h with
  | name r hm hr =>
    rename_i n style
    have := switch_heads k (kind_mem k) _ hm
    simp only at this
    simp at hs
    cases hn : n.toList with
    | nil => exact this.2 hn
    | cons c n' => rw [hn] at hs this; simp at hs this; exact this hs.1.symm
  | color hc =>
    cases hc with
    | plain ws r _ => simp at hs
    | model ws m ws' r _ _ _ _ => simp at hs
    | normal r _ => simp at hs

theorem two_passed {h : List (Def × Bool)} (t : Str) (hu : ∀ x ∈ h, ¬ Meant x.1 ['\\']) : Passed h ['\\'] t :=
  ⟨.inr ⟨'\\', by decide, rfl⟩, by simp, two_without slash_words.1 t, fun ⟨u, hu⟩ => by simp at hu, hu, two_switch t⟩

theorem two_first (t : Str) : NotFirst ('\\' :: '\\' :: t) := by
  refine ⟨two_without slash_words.2.1 t, ?_, ?_, Without.sub (two_without slash_words.2.2.2.1 t) fun v hv => by simp at hv ⊢; rcases hv with h | h <;> simp [h],
    not_word (two_without slash_words.2.2.2.1 t) (by decide +kernel)⟩
  · show Without authorHeads (List.map lowerChar ('\\' :: '\\' :: t))
    exact two_without slash_words.2.2.1 _
  · rintro (⟨u, hu⟩ | ⟨u, hu⟩ | ⟨u, hu⟩ | ⟨n, _, w, star, _, u, hu⟩)
    · simp at hu
    · simp at hu
    · simp at hu
    · simp [tag] at hu

theorem two_layout (t : Str) : NotLayout ['\\'] t := by
  have heads : ∀ v ∈ anyCaseWords, v.toList.head? ≠ some '\\' ∧ v.toList ≠ [] := by decide +kernel
  refine ⟨⟨fun hm => absurd hm (by decide +kernel), two_without slash_words.2.2.2.2.2.2.2.1 [], fun v hv hp => ?_, by decide +kernel, by simp⟩, two_without slash_words.2.2.2.2.2.2.2.2 [], by simp⟩
  obtain ⟨h1, h2⟩ := heads v hv
  cases hn : v.toList with
  | nil => exact h2 hn
  | cons c n' =>
    rw [hn] at hp h1
    obtain ⟨u, hu⟩ := hp
    simp at hu h1
    exact h1 (by rw [hu.1]; decide)

theorem two_content (t : Str) (ho : ∀ c ∈ t.head?, oddLetter c = false) : NotContent ['\\'] t :=
  ⟨by decide +kernel, by decide +kernel, by decide +kernel, by decide, ho⟩

theorem two_handlers {V X} (cfg : Cfg V X) (ho : SomeOrder cfg.order) (p : Parse V X) (n : Nat) (st : St V X) (toks : List Tok) (t : Str) (hod : ∀ c ∈ t.head?, oddLetter c = false) :
    handlers cfg p n st toks ('\\' :: '\\' :: t) = none := by
  have he : Ends ['\\'] t := .inr ⟨'\\', by decide, rfl⟩
  have h1 : content cfg p st toks ('\\' :: '\\' :: t) = none := content_none (w := ['\\']) (rest := t) cfg p st toks he (two_content t hod)
  have h2 : formatting cfg p st toks ('\\' :: '\\' :: t) = none := formatting_none (w := ['\\']) (rest := t) cfg p st toks he (two_layout t)
  have hb := two_without slash_words.2.2.2.2.1 t
  have hbg : ¬ "\\begin".toList <+: '\\' :: '\\' :: t := (two_first t).env
  have h3 : Style.styledName ('\\' :: '\\' :: t) = none := Style.styledName_miss [] ('\\' :: t) rfl (by decide +kernel) (by intro c hc; simp at hc; subst hc; decide)
  have h4 : diacritics cfg p st toks ('\\' :: '\\' :: t) = none := by
    have keys : ∀ k ∈ accentMarks ++ accentNames1 ++ accentDot ++ accentNames2, k.head? ≠ some '\\' ∧ k ≠ [] := by decide +kernel
    have nk : ∀ k ∈ accentMarks ++ accentNames1 ++ accentDot ++ accentNames2, ¬ '\\' :: k <+: '\\' :: '\\' :: t := by
      intro k hk ⟨u, hu⟩
      obtain ⟨k1, k2⟩ := keys k hk
      cases k with
      | nil => exact k2 rfl
      | cons c k => simp at hu k1; exact k1 hu.1
    unfold diacritics
    rw [firstAccent_none]
    intro a ha
    unfold accents at ha
    simp only [List.mem_append, List.mem_map] at ha
    rcases ha with ((⟨k, hk, rfl⟩ | ⟨k, hk, rfl⟩) | ⟨k, hk, rfl⟩) | ⟨k, hk, rfl⟩
    · exact (show Dead (markRe k) _ from Dead.seq (Dead.lit (nk k (by simp [hk])))).matchAt []
    · exact (show Dead (nameAccentRe k) _ from Dead.seq (Dead.lit (nk k (by simp [hk])))).matchAt []
    · exact (show Dead (markRe k) _ from Dead.seq (Dead.lit (nk k (by simp [hk])))).matchAt []
    · exact (show Dead (nameAccentRe k) _ from Dead.seq (Dead.lit (nk k (by simp [hk])))).matchAt []
  rw [handlers_first cfg ho p n st toks (two_first t), h1, h2, h4, orElse_none, table_none (not_word hb (by decide +kernel)) hbg, environment_none cfg p st toks hb hbg rfl,
    forLoop_none st toks hb, style_none cfg p st toks (two_without slash_words.2.2.2.2.2.1 t) h3]
  rfl

/-- What may stand between `\\` and the text: nothing, or a distance. -/
inductive _root_.L2J.Spec.Distance : Str → Str → Prop
  | none (rest : Str) : (¬ ∃ ws t, Blank ws ∧ rest = ws ++ '[' :: t) → Distance [] rest
  | some (ws x rest : Str) : Blank ws → ']' ∉ x → Distance (ws ++ '[' :: (x ++ [']'])) rest

theorem no_open {rest : Str} {o : Char} {r : Re} (hb : ¬ ∃ ws t, Blank ws ∧ rest = ws ++ o :: t) (ho : isSpace o = false) : Dead (.seq (.star reSpace) (.seq (.lit [o]) r)) rest := by
  have e : rest.takeWhile isSpace ++ rest.dropWhile isSpace = rest := List.takeWhile_append_dropWhile
  rw [← e]
  have hws := takeWhile_all isSpace rest
  refine Dead.spaces hws (fun c hc => ?_) (fun c t hc => Dead.seq (Dead.char ?_)) (Dead.seq (Dead.char fun hh => ?_))
  · have := List.head?_dropWhile_not isSpace rest
    rw [hc] at this
    simpa using this
  · simp; rintro rfl; rw [hc] at ho; cases ho
  · cases hd : rest.dropWhile isSpace with
    | nil => rw [hd] at hh; cases hh
    | cons c t =>
      rw [hd] at hh
      simp at hh
      subst hh
      exact hb ⟨_, t, hws, by rw [← hd, e]⟩

theorem break_eats {d rest : Str} (h : Distance d rest) : ∃ g, Eats breakRe (['\\', '\\'] ++ d) rest [] g := by
  cases h with
  | none _ hn => exact ⟨[], Eats.seq (g1 := []) (y := []) (Eats.lit _ _ _) (Eats.optNone (no_open hn (by decide)))⟩
  | some ws x rest hws hx =>
    refine ⟨[(1, x)], Eats.seq (g1 := []) (y := ws ++ '[' :: (x ++ [']'])) (Eats.lit _ _ _) (Eats.optSome ?_)⟩
    refine Eats.seq (g1 := []) (y := '[' :: (x ++ [']'])) (Eats.spaces hws (by simp; decide)) (Eats.seq (g1 := []) (x := ['[']) (y := x ++ [']']) (Eats.lit _ _ _) ?_)
    exact Eats.seq (g1 := [(1, x)]) (y := [']']) (Eats.group 1 (Eats.star_chr _ (fun c hc => by simp; rintro rfl; exact hx hc) (by simp))) (Eats.lit _ _ _)

/-- A line break becomes a newline in the text. -/
theorem Acts.break {V X} {cfg : Cfg V X} (ho : SomeOrder cfg.order) (hl : Letters cfg.cmds) {h} {st : St V X} (k : Known cfg h st) {toks toks' : List Tok} (space : Bool) {d rest : Str} {n}
    (hu : ∀ x ∈ h, ¬ Meant x.1 ['\\']) (hd : Distance d rest) (hod : ∀ c ∈ (d ++ rest).head?, oddLetter c = false) (ha : AddsText false st.next ['\n'] toks toks' n) :
    Acts cfg st toks space ('\\' :: '\\' :: (d ++ rest)) { st with next := n } ⟨toks', false, rest⟩ := by
  refine ⟨0, fun m _ => ?_⟩
  have := actAt_passed (w := ['\\']) (rest := d ++ rest) hl (parse cfg m) m .default k toks space (two_passed (d ++ rest) hu)
  rw [show '\\' :: '\\' :: (d ++ rest) = '\\' :: (['\\'] ++ (d ++ rest)) from rfl, this]
  rw [show '\\' :: (['\\'] ++ (d ++ rest)) = '\\' :: '\\' :: (d ++ rest) from rfl]
  unfold actHandlers
  rw [two_handlers cfg ho _ _ st toks _ hod, orElse_none]
  have hw := two_without slash_words.2.2.2.2.2.2.1 (d ++ rest)
  have h1 : labelRe.matchAt [] ('\\' :: '\\' :: (d ++ rest)) = none := lit_none hw (by decide +kernel)
  have h2 : newlineRe.matchAt [] ('\\' :: '\\' :: (d ++ rest)) = none :=
    (show Dead newlineRe _ from Dead.seq (Dead.alt (Dead.lit (not_word hw (by decide +kernel))) (Dead.lit (not_word hw (by decide +kernel))))).matchAt []
  obtain ⟨g, h3⟩ := break_eats hd
  have h3 : breakRe.matchAt [] ('\\' :: '\\' :: (d ++ rest)) = some ⟨[], ['\\', '\\'] ++ d ++ rest, (['\\', '\\'] ++ d).length, g⟩ := h3.matchAt []
  unfold remaining
  rw [h1, h2, h3]
  simp only [orElse, Opts.default, addsText_spec ha, Res.bind]
  rw [show '\\' :: '\\' :: (d ++ rest) = ('\\' :: '\\' :: d) ++ rest from rfl, move_ok (pre := '\\' :: '\\' :: d) _ _ _ _ (by simp [Match.stop])]
  congr 2
  cases hd with
  | none => rfl
  | some ws x => rw [show '\\' :: '\\' :: (ws ++ '[' :: (x ++ [']'])) = ('\\' :: '\\' :: (ws ++ '[' :: x)) ++ [']'] by simp]; exact endsBlank_snoc _ _ _

/-- Running text is converted and added. -/
theorem Acts.text {V X} {cfg : Cfg V X} (hl : Letters cfg.cmds) {h} {st : St V X} (k : Known cfg h st) {toks toks' : List Tok} (space : Bool) {x rest : Str} {n}
    (hx : Chunk x) (hne : x ≠ []) (hf : Follows x rest) (hu : Unmet h x) (ha : AddsText space st.next (cfg.cmds.conv x) toks toks' n) :
    Acts cfg st toks space (x ++ rest) { st with next := n } ⟨toks', if rest.isEmpty then false else endsBlank space x, rest⟩ := by
  refine ⟨0, fun m _ => ?_⟩
  have hh : (x ++ rest).head? ≠ some '{' := by
    cases x with
    | nil => exact absurd rfl hne
    | cons c x => simpa using chunk_head hx
  unfold actAt
  rw [if_neg hh, actText_chunk cfg _ _ _ st toks space hx hne hf]
  unfold addText
  rw [show Opts.default.unknown = true from rfl, if_pos rfl, expand_unmet hl k hu]
  simp only [Res.bind, Bool.false_eq_true, if_false]
  rw [addsText_spec ha]

/-- A group: its tokens are added one after the other. -/
theorem Acts.group {V X} {cfg : Cfg V X} {st st' : St V X} {toks toks' l : List Tok} (space : Bool) {x rest : Str} (hx : Wrappable '{' '}' x) (hp : Parses cfg st x st' l)
    (ha : AddsAll l toks toks') : Acts cfg st toks space ('{' :: (x ++ '}' :: rest)) st' ⟨toks', false, rest⟩ := by
  obtain ⟨N, hp⟩ := Parses.fuel hp
  refine ⟨N, fun n hn => ?_⟩
  unfold actAt
  rw [if_pos (by simp), wrapped_eq hx]
  simp only
  rw [hp n hn]
  simp only [Res.bind]
  rw [addsAll_spec st' ha]
  simp only
  have e : '{' :: (x ++ '}' :: rest) = ('{' :: (x ++ ['}'])) ++ rest := by simp
  rw [e, take_ok _ _ (by simp), drop_ok _ _ (by simp)]
  congr 2
  rw [show '{' :: (x ++ ['}']) = ('{' :: x) ++ ['}'] from rfl]
  exact endsBlank_snoc _ _ _

end L2J.Psr
