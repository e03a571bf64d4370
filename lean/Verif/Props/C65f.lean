import Verif.Props.C65e
/-! C65: commands that are not known, and line breaks. -/
namespace L2J.Psr
open Cmds Defn L2J.Spec
open Pre (hitAt firstHit escapable not_word headCore takeWhile_prefix without_word Without.sub)

theorem move_ok {V X} (space : Bool) (st : St V X) (toks : List Tok) (pre rest : Str) {e : Int} (he : e = (pre.length : Nat)) :
    move space (pre ++ rest) st toks e = .ok st ⟨toks, endsBlank space pre, rest⟩ := by
  subst he
  unfold move
  rw [if_neg (by omega), show ((pre.length : Nat) : Int).toNat = pre.length from rfl, List.take_left, List.drop_left]

/-- The token of a command that is not known: `cmd` is the command, `x` what the conversion makes of it and its argument. -/
inductive _root_.L2J.Spec.Named (id : Nat) (cmd : Str) : Str → Tok → Prop
  /-- The conversion gives a character or another text. -/
  | text (x : Str) : x.head? ≠ some '\\' → Named id cmd x (.mk id "text".toList (.str x) [] none)
  /-- The command alone. -/
  | bare : Named id cmd cmd (.mk id "command".toList .absent [("command".toList, .str cmd)] none)
  /-- The command and its argument. -/
  | arg (a : Str) : a ≠ [] → Named id cmd (cmd ++ a) (.mk id "command".toList (.str a) [("command".toList, .str cmd)] none)
  /-- Another command. -/
  | other (x : Str) : x.head? = some '\\' → ¬ cmd <+: x → Named id cmd x (.mk id "command".toList (.str x) [("command".toList, .str cmd)] none)

theorem named_spec {V X} {st : St V X} {cmd x : Str} {t : Tok} (hc : cmd.head? = some '\\') (h : Named st.next cmd x t) : unknownTok st cmd x = t := by
  have sw : ∀ {x : Str}, startsWith x ['\\'] = true ↔ x.head? = some '\\' := by
    intro x
    unfold startsWith
    rw [List.isPrefixOf_iff_prefix]
    cases x with
    | nil => simp
    | cons c x => simp [List.cons_prefix_cons]; exact eq_comm
  have self : startsWith cmd cmd = true := List.isPrefixOf_iff_prefix.2 ⟨[], by simp⟩
  unfold unknownTok
  cases h with
  | text _ h => rw [if_neg (fun e => h (sw.1 e))]; rfl
  | bare =>
    rw [if_pos (sw.2 hc)]
    simp only [self, if_true, List.drop_length]
    rfl
  | arg a ha =>
    have : startsWith (cmd ++ a) cmd = true := List.isPrefixOf_iff_prefix.2 ⟨a, rfl⟩
    rw [if_pos (sw.2 (by cases cmd with
      | nil => cases hc
      | cons c cmd => simpa using hc))]
    simp only [this, if_true, List.drop_left]
    rw [if_neg (by simpa using ha)]
    rfl
  | other _ h1 h2 =>
    have : startsWith x cmd = false := EnvT.startsWith_false h2
    rw [if_pos (sw.2 h1)]
    simp only [this, Bool.false_eq_true, if_false]
    rw [if_neg (by cases x with
      | nil => cases h1
      | cons c x => simp)]
    rfl

/-- A star or none. -/
def nameOrStar (c : Char) : Bool := isNameChar c || c == '*'

theorem unknown_head {w star rest : Str} (hw : w ≠ []) (hl : ∀ c ∈ w, isLetter c = true) (hs : star = [] ∨ star = ['*']) : (w ++ star) ≠ [] ∧ ∀ c ∈ w ++ star, nameOrStar c = true := by
  refine ⟨by simp [hw], fun c hc => ?_⟩
  rcases List.mem_append.1 hc with hc | hc
  · unfold nameOrStar; rw [letter_name c (hl c hc)]; rfl
  · rcases hs with rfl | rfl
    · cases hc
    · rw [List.mem_singleton.1 hc]; decide

theorem unknown_bare_eats {x rest : Str} (hx : x ≠ [] ∧ ∀ c ∈ x, nameOrStar c = true) (hr : ∀ c ∈ rest.head?, nameOrStar c = false)
    (hb : ¬ ∃ ws t, Blank ws ∧ rest = ws ++ '{' :: t) : unknownRe.matchAt [] ('\\' :: (x ++ rest)) = some ⟨[], '\\' :: (x ++ rest), x.length + 1, []⟩ := by
  have hd : Dead (.seq (.star reSpace) (.lit ['{'])) rest := by
    have e : rest.takeWhile isSpace ++ rest.dropWhile isSpace = rest := List.takeWhile_append_dropWhile
    rw [← e]
    have hws := takeWhile_all isSpace rest
    refine Dead.spaces hws (fun c hc => ?_) (fun c t hc => Dead.char ?_) (Dead.char fun hh => ?_)
    · have := List.head?_dropWhile_not isSpace rest
      rw [hc] at this
      simpa using this
    · simp; rintro rfl; exact absurd hc (by decide)
    · cases hd : rest.dropWhile isSpace with
      | nil => rw [hd] at hh; cases hh
      | cons c t =>
        rw [hd] at hh
        simp at hh
        subst hh
        exact hb ⟨_, t, hws, by rw [← hd, e]⟩
  have h1 : Eats unknownRe ('\\' :: (x ++ [])) rest [] [] :=
    Eats.seq (x := ['\\']) (g1 := []) (Eats.lit _ _ _) (Eats.seq (g1 := []) (y := []) (Eats.plus_chr nameOrStar hx.1 hx.2 (by simpa using hr)) (Eats.optNone hd))
  rw [List.append_nil] at h1
  have := h1.matchAt []
  simpa using this

theorem unknown_arg_eats {x ws rest : Str} (hx : x ≠ [] ∧ ∀ c ∈ x, nameOrStar c = true) (hws : Blank ws) :
    unknownRe.matchAt [] ('\\' :: (x ++ (ws ++ '{' :: rest))) = some ⟨[], '\\' :: (x ++ (ws ++ '{' :: rest)), x.length + ws.length + 2, []⟩ := by
  have h1 : Eats unknownRe ('\\' :: (x ++ (ws ++ ['{']))) rest [] [] :=
    Eats.seq (x := ['\\']) (g1 := []) (Eats.lit _ _ _) (Eats.seq (g1 := []) (y := ws ++ ['{']) (Eats.plus_chr nameOrStar hx.1 hx.2 (by
      intro c hc
      cases ws with
      | nil => simp at hc; subst hc; decide
      | cons a ws =>
        simp at hc
        subst hc
        have ha := hws a (by simp)
        unfold nameOrStar
        rw [space_name a ha]
        simp; rintro rfl; exact absurd ha (by decide)))
      (Eats.optSome (Eats.seq (g1 := []) (y := ['{']) (Eats.spaces (rest := '{' :: rest) hws (by simp; decide)) (Eats.lit _ _ _))))
  have := h1.matchAt []
  rw [show '\\' :: (x ++ (ws ++ ['{'])) ++ rest = '\\' :: (x ++ (ws ++ '{' :: rest)) by simp] at this
  rw [this]
  congr 2
  simp; omega

theorem endsWith_brace {x : Str} {c : Char} (hc : c ≠ '{') : endsWith (x ++ [c]) ['{'] = false := by
  unfold endsWith
  cases hh : List.isSuffixOf ['{'] (x ++ [c]) with
  | false => rfl
  | true =>
    obtain ⟨y, hy⟩ := List.isSuffixOf_iff_suffix.1 hh
    have := congrArg List.getLast? hy
    simp at this
    exact absurd this.symm hc

/-- A command with nothing behind it that could be its argument. -/
theorem unknown_bare {V X} {cfg : Cfg V X} (hl : Letters cfg.cmds) {h} {st : St V X} (k : Known cfg h st) {toks toks' : List Tok} {w star rest : Str} {t : Tok} (hw : w ≠ [])
    (hlt : ∀ c ∈ w, isLetter c = true) (hs : star = [] ∨ star = ['*']) (hr : ∀ c ∈ rest.head?, nameOrStar c = false) (hb : ¬ ∃ ws t, Blank ws ∧ rest = ws ++ '{' :: t)
    (hu : Unmet h ('\\' :: (w ++ star))) (ht : Named st.next ('\\' :: (w ++ star)) (cfg.cmds.conv ('\\' :: (w ++ star))) t) (ha : Adds false t toks toks') :
    unknown cfg st toks ('\\' :: (w ++ (star ++ rest))) = some (.ok st.fresh (toks', ((w ++ star).length + 1 : Nat))) := by
  have hx := unknown_head (rest := rest) hw hlt hs
  unfold unknown
  rw [← List.append_assoc, unknown_bare_eats hx hr hb]
  have et : Match.text ⟨[], '\\' :: ((w ++ star) ++ rest), (w ++ star).length + 1, []⟩ = '\\' :: (w ++ star) := by
    unfold Match.text; rw [← List.cons_append]; exact take_ok _ _ (by simp)
  have hends : endsWith ('\\' :: (w ++ star)) ['{'] = false := by
    obtain ⟨y, c, hy⟩ : ∃ y c, w ++ star = y ++ [c] := by
      cases hl : (w ++ star).getLast? with
      | none => exact absurd (List.getLast?_eq_none_iff.1 hl) hx.1
      | some c => obtain ⟨y, hy⟩ := List.getLast?_eq_some_iff.1 hl; exact ⟨y, c, hy⟩
    have hc := hx.2 c (by rw [hy]; simp)
    rw [hy, ← List.cons_append]
    refine endsWith_brace ?_
    rintro rfl; exact absurd hc (by decide)
  simp only [et, hends, Bool.false_eq_true, if_false, Match.stop, List.length_nil, Nat.zero_add]
  rw [expand_unmet hl k hu]
  simp only [Res.bind, Bool.false_eq_true, if_false]
  rw [named_spec (by rfl) ht]
  unfold add
  rw [adds_spec ha]

/-- A command with an argument. -/
theorem unknown_arg {V X} {cfg : Cfg V X} (hl : Letters cfg.cmds) {h} {st : St V X} (k : Known cfg h st) {toks toks' : List Tok} {w star ws x rest : Str} {t : Tok} (hw : w ≠ [])
    (hlt : ∀ c ∈ w, isLetter c = true) (hs : star = [] ∨ star = ['*']) (hws : Blank ws) (hx : Wrappable '{' '}' x)
    (hu : Unmet h ('\\' :: (w ++ (star ++ (ws ++ '{' :: (x ++ ['}']))))))
    (ht : Named st.next ('\\' :: (w ++ (star ++ ws))) (cfg.cmds.conv ('\\' :: (w ++ (star ++ (ws ++ '{' :: (x ++ ['}'])))))) t) (ha : Adds false t toks toks') :
    unknown cfg st toks ('\\' :: (w ++ (star ++ (ws ++ '{' :: (x ++ '}' :: rest))))) =
      some (.ok st.fresh (toks', (('\\' :: (w ++ (star ++ (ws ++ '{' :: (x ++ ['}']))))).length : Nat))) := by
  have hh := unknown_head (rest := rest) hw hlt hs
  have e0 : '\\' :: (w ++ (star ++ (ws ++ '{' :: (x ++ '}' :: rest)))) = '\\' :: ((w ++ star) ++ (ws ++ '{' :: (x ++ '}' :: rest))) := by simp
  unfold unknown
  rw [e0, unknown_arg_eats hh hws]
  have et : Match.text ⟨[], '\\' :: ((w ++ star) ++ (ws ++ '{' :: (x ++ '}' :: rest))), (w ++ star).length + ws.length + 2, []⟩ = ('\\' :: (w ++ (star ++ ws))) ++ ['{'] := by
    unfold Match.text
    rw [show '\\' :: ((w ++ star) ++ (ws ++ '{' :: (x ++ '}' :: rest))) = (('\\' :: (w ++ (star ++ ws))) ++ ['{']) ++ (x ++ '}' :: rest) by simp]
    exact take_ok _ _ (by simp; omega)
  have hends : endsWith (('\\' :: (w ++ (star ++ ws))) ++ ['{']) ['{'] = true := by unfold endsWith; rw [List.isSuffixOf_iff_suffix]; exact ⟨_, rfl⟩
  have ed : ('\\' :: ((w ++ star) ++ (ws ++ '{' :: (x ++ '}' :: rest)))).drop ((w ++ star).length + ws.length + 2 - 1) = '{' :: (x ++ '}' :: rest) := by
    rw [show '\\' :: ((w ++ star) ++ (ws ++ '{' :: (x ++ '}' :: rest))) = ('\\' :: (w ++ (star ++ ws))) ++ '{' :: (x ++ '}' :: rest) by simp]
    exact drop_ok _ _ (by simp; omega)
  simp only [et, hends, if_true, Match.stop, List.length_nil, Nat.zero_add, ed, wrapped_eq hx]
  rw [show ('\\' :: (w ++ (star ++ ws)) ++ ['{']) ++ (x ++ ['}']) = '\\' :: (w ++ (star ++ (ws ++ '{' :: (x ++ ['}'])))) by simp, expand_unmet hl k hu]
  simp only [Res.bind, Bool.false_eq_true, if_false, List.dropLast_concat]
  rw [named_spec (by rfl) ht]
  unfold add
  rw [adds_spec ha]
  simp only
  congr 4
  simp; omega

/-- No handler and none of the other patterns accepts the command. -/
theorem acts_unknown {V X} {cfg : Cfg V X} (ho : SomeOrder cfg.order) (hl : Letters cfg.cmds) {h} {st st' : St V X} (k : Known cfg h st) {toks toks' : List Tok} (space : Bool) {w r pre rest : Str}
    (hp : Passed h w r) (hn : Unhandled w r) (hlast : Without lastHeads ('\\' :: (w ++ r))) (he : '\\' :: (w ++ r) = pre ++ rest)
    (hu : unknown cfg st toks ('\\' :: (w ++ r)) = some (.ok st' (toks', (pre.length : Nat)))) :
    Acts cfg st toks space ('\\' :: (w ++ r)) st' ⟨toks', endsBlank space pre, rest⟩ := by
  refine ⟨0, fun m _ => ?_⟩
  rw [actAt_passed hl _ _ _ k toks space hp]
  unfold actHandlers
  rw [handlers_none cfg ho _ _ st toks hn, orElse_none]
  have hrem : remaining .default st toks ('\\' :: (w ++ r)) = none := by
    obtain ⟨h1, h2, _⟩ := hn.letters
    cases w with
    | nil => exact absurd rfl h1
    | cons c w => exact remaining_none _ st toks (h2 c (by simp)) hlast
  rw [hrem, orElse_none, show Opts.default.unknown = true from rfl, if_pos rfl, hu]
  simp only [Res.bind]
  rw [he]
  exact move_ok _ _ _ _ _ rfl

end L2J.Psr
