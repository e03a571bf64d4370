import Verif.Props.C65b
import Verif.Props.C64l
/-! C65: commands that reach the handlers, and commands no handler accepts. -/
namespace L2J.Psr
open Cmds Defn L2J.Spec
open Pre (hitAt firstHit escapable not_word keyval_none define_none cond_none Without.sub)

/-- The preprocessor with the same definitions. -/
def preCfg {V X} (cfg : Cfg V X) : Pre.Cfg V := ⟨cfg.cmds, cfg.fmt, cfg.order, cfg.eqFmt, cfg.boxes, fun _ => [], fun _ => []⟩
def preSt {V X} (st : St V X) : Pre.St V := ⟨st.proc, st.keys, st.ifs, st.eqn, [], []⟩

theorem Known.pre {V X} {cfg : Cfg V X} {h} {st : St V X} (k : Known cfg h st) : Pre.Known (preCfg cfg) h (preSt st) := ⟨k.reg, k.plain, k.ifs⟩

/-- No definition, no conditional and no switch has a say at the command `\w`. -/
structure _root_.L2J.Spec.Passed (h : List (Def × Bool)) (w rest : Str) : Prop where
  name : Ends w rest
  plain : ∀ c ∈ w.head?, c ∉ "$%&_#{}~".toList
  builtin : Without (defineWords ++ effectWords ++ condWords) ('\\' :: (w ++ rest))
  csname : ¬ "csname".toList <+: w ++ rest
  user : ∀ x ∈ h, ¬ Meant x.1 w
  switch : ∀ k, ¬ SwitchAt k ('\\' :: (w ++ rest))

theorem stop_word {w rest : Str} (he : Ends w rest) (hp : ∀ c ∈ w.head?, c ∉ "$%&_#{}~".toList) : ∃ m, Loop.delimPat.search ('\\' :: (w ++ rest)) = some m ∧ m.start = 0 := by
  have h0 : hitAt none ('\\' :: (w ++ rest)) = true := by
    have := Pre.ends_hit he hp
    unfold firstHit at this
    split at this
    · assumption
    · cases hh : firstHit (some '\\') (w ++ rest) with
      | none => rw [hh] at this; cases this
      | some k => rw [hh] at this; simp at this
  have h1 : firstStop none ('\\' :: (w ++ rest)) = some 0 := by unfold firstStop; rw [if_pos (by simp [stopAt, h0])]
  have := search_firstStop ('\\' :: (w ++ rest))
  rw [h1] at this
  cases hm : Loop.delimPat.search ('\\' :: (w ++ rest)) with
  | none => rw [hm] at this; cases this
  | some m => rw [hm] at this; exact ⟨m, rfl, by simpa using this⟩

theorem actAt_word {V X} (cfg : Cfg V X) (p : Parse V X) (n : Nat) (o : Opts) (st : St V X) (toks : List Tok) (space : Bool) {w rest : Str} (he : Ends w rest)
    (hp : ∀ c ∈ w.head?, c ∉ "$%&_#{}~".toList) : actAt cfg p n o st toks space ('\\' :: (w ++ rest)) = act cfg p n o st toks space ('\\' :: (w ++ rest)) := by
  obtain ⟨m, hm, h0⟩ := stop_word he hp
  unfold actAt
  rw [if_neg (by simp)]
  unfold actText
  rw [hm]
  simp [h0]

theorem legacy_none {s : Str} (h : ∀ k, ¬ SwitchAt k s) : Legacy.handle s = none := by
  have key : ∀ k : Legacy.Kind, k.match s = none := fun k => by
    cases hm : k.match s with
    | none => rfl
    | some x => exact absurd ((Legacy.switch_iff k s).1 (by rw [hm]; rfl)) (h k)
  unfold Legacy.handle
  rw [key, key, key]; rfl

theorem act_early {V X} (cfg : Cfg V X) (p : Parse V X) (n : Nat) (o : Opts) (st : St V X) (toks : List Tok) (space : Bool) {s : Str} (he : Without effectWords s) :
    act cfg p n o st toks space s =
      if 0 < (st.proc.handle cfg.cmds s).2 then .ok st ⟨toks, space, (st.proc.handle cfg.cmds s).1 ++ s.drop (st.proc.handle cfg.cmds s).2⟩ else actDefine cfg p n o st toks space s := by
  unfold act
  rw [keyval_none he]
  rfl

theorem actDefine_none {V X} (cfg : Cfg V X) (p : Parse V X) (n : Nat) (o : Opts) (st : St V X) (toks : List Tok) (space : Bool) {s : Str} (he : Without effectWords s)
    (hd : Without defineWords s) : actDefine cfg p n o st toks space s = actIf cfg p n o st toks space s := by
  unfold actDefine definitions
  rw [define_none hd, keyval_none he]
  rfl

theorem actIf_none {V X} (cfg : Cfg V X) (p : Parse V X) (n : Nat) (o : Opts) (st : St V X) (toks : List Tok) (space : Bool) {s : Str} (hc : Without condWords s)
    (hs : ∀ k, ¬ SwitchAt k s) : actIf cfg p n o st toks space s = actHandlers cfg p n o st toks space s := by
  unfold actIf actLegacy
  rw [cond_none hc, legacy_none hs]
  simp

theorem actAt_passed {V X} {cfg : Cfg V X} (hl : Letters cfg.cmds) (p : Parse V X) (n : Nat) (o : Opts) {h} {st : St V X} (k : Known cfg h st) (toks : List Tok) (space : Bool) {w rest : Str}
    (hw : Passed h w rest) : actAt cfg p n o st toks space ('\\' :: (w ++ rest)) = actHandlers cfg p n o st toks space ('\\' :: (w ++ rest)) := by
  have he : Without effectWords ('\\' :: (w ++ rest)) := Without.sub hw.builtin fun w hw => by simp [hw]
  have hu : st.proc.handle cfg.cmds ('\\' :: (w ++ rest)) = ('\\' :: (w ++ rest), 0) := Pre.user_word (cfg := preCfg cfg) hl k.pre hw.name hw.csname hw.user
  rw [actAt_word cfg p n o st toks space hw.name hw.plain, act_early cfg p n o st toks space he, hu]
  rw [if_neg (by simp), actDefine_none cfg p n o st toks space he (Without.sub hw.builtin fun w hw => by simp [hw]),
    actIf_none cfg p n o st toks space (Without.sub hw.builtin fun w hw => by simp [hw]) hw.switch]

/-! ## The handlers -/

/-- The first five handlers do not accept the text. -/
structure _root_.L2J.Spec.NotFirst (s : Str) : Prop where
  package : Without packageHeads s
  author : NoAuthor s
  formula : ¬ OpensFormula s
  block : Without ["\\verb", "\\item"] s
  env : ¬ "\\begin".toList <+: s

theorem orElse_none {α} (a : Option α) : orElse none a = a := rfl

theorem handlers_first {V X} (cfg : Cfg V X) (ho : SomeOrder cfg.order) (p : Parse V X) (n : Nat) (st : St V X) (toks : List Tok) {s : Str} (h : NotFirst s) :
    handlers cfg p n st toks s = orElse (content cfg p st toks s) (orElse (if (tableRe.matchAt [] s).isSome then some (cfg.table p st toks s) else none) <|
      orElse (environment cfg p st toks s) <| orElse (forLoop st toks s) <| orElse (style cfg p st toks s) <| orElse (formatting cfg p st toks s) <| diacritics cfg p st toks s) := by
  unfold handlers
  rw [package_none h.package (noPicture_word h.env), author_none cfg p st toks h.author, equation_none cfg ho p n st toks h.formula,
    code_none cfg p st toks (not_word h.block (by decide +kernel)) (fun n _ => delimAt_none h.env), item_none cfg p st toks (not_word h.block (by decide +kernel))]
  rfl

/-- A command that has no content of its own: no heading, no reference, no note …, in whatever case. -/
structure _root_.L2J.Spec.NotContent (w rest : Str) : Prop where
  content : ∀ v ∈ contentWords, w.map lowerChar ≠ v.toList
  mark : ¬ "footnotemark".toList <+: w.map lowerChar
  heading : ¬ "section".toList <:+ w.map lowerChar ∧ ¬ "paragraph".toList <:+ w.map lowerChar
  odd : (∀ c ∈ w, oddLetter c = false) ∧ ∀ c ∈ rest.head?, oddLetter c = false

theorem content_none {V X} (cfg : Cfg V X) (p : Parse V X) (st : St V X) (toks : List Tok) {w rest : Str} (he : Ends w rest) (hc : NotContent w rest) : content cfg p st toks ('\\' :: (w ++ rest)) = none := by
  have := Pre.content_free (w := w) (rest := rest) (q := []) ⟨he, hc.content, hc.mark, hc.heading, hc.odd⟩ (.inl rfl)
  rw [List.append_nil] at this
  unfold content
  rw [this]; rfl

/-- The handlers from tables to styles do not accept the text. -/
structure _root_.L2J.Spec.NotMiddle (w rest : Str) : Prop where
  block : Without blockHeads ('\\' :: (w ++ rest))
  env : ¬ "\\begin".toList <+: '\\' :: (w ++ rest)
  pair : ¬ Contains rest ("\\end".toList ++ w)
  style : Without styleHeads ('\\' :: (w ++ rest))
  styled : ∀ e ∈ styleTable, w ≠ e.1.toList

theorem mapping_table : ∀ e ∈ Style.mapping, e.1 ∈ styleTable.map fun x => x.1.toList := by decide +kernel

theorem mapping_none {w : Str} (h : ∀ e ∈ styleTable, w ≠ e.1.toList) : Dict.get? Style.mapping w = none := by
  cases hg : Dict.get? Style.mapping w with
  | none => rfl
  | some v =>
    have hm := mem_of_get _ _ _ hg
    obtain ⟨e, he, h'⟩ := List.mem_map.1 (mapping_table _ hm)
    exact absurd h'.symm (h e he)

theorem styledName_none {w rest : Str} (hw : ∀ c ∈ w, isLetter c = true) (hr : ∀ c ∈ rest.head?, isNameChar c = false) (h : ∀ e ∈ styleTable, w ≠ e.1.toList) :
    Style.styledName ('\\' :: (w ++ rest)) = none := by
  refine Style.styledName_miss w rest (List.all_eq_true.2 hw) (mapping_none h) (fun c hc => ?_)
  cases hh : Style.isLetter c with
  | false => rfl
  | true => have := hr c hc; rw [letter_name c hh] at this; cases this

theorem handlers_middle {V X} (cfg : Cfg V X) (p : Parse V X) (st : St V X) (toks : List Tok) {w rest : Str} (hw : ∀ c ∈ w, isLetter c = true)
    (hr : ∀ c ∈ rest.head?, isNameChar c = false) (h : NotMiddle w rest) :
    (orElse (if (tableRe.matchAt [] ('\\' :: (w ++ rest))).isSome then some (cfg.table p st toks ('\\' :: (w ++ rest))) else none) <|
      orElse (environment cfg p st toks ('\\' :: (w ++ rest))) <| orElse (forLoop st toks ('\\' :: (w ++ rest))) <| orElse (style cfg p st toks ('\\' :: (w ++ rest))) <|
      orElse (formatting cfg p st toks ('\\' :: (w ++ rest))) <| diacritics cfg p st toks ('\\' :: (w ++ rest))) =
    orElse (formatting cfg p st toks ('\\' :: (w ++ rest))) (diacritics cfg p st toks ('\\' :: (w ++ rest))) := by
  rw [table_none (not_word h.block (by decide +kernel)) h.env, environment_none cfg p st toks h.block h.env (EnvT.matchPair_none w rest (fun c hc => letter_word c (hw c hc)) h.pair),
    forLoop_none st toks h.block, style_none cfg p st toks h.style (styledName_none hw hr h.styled)]
  rfl

/-- No handler accepts the command `\w`. -/
structure _root_.L2J.Spec.Unhandled (w rest : Str) : Prop where
  letters : w ≠ [] ∧ (∀ c ∈ w, isLetter c = true) ∧ ∀ c ∈ rest.head?, isNameChar c = false
  first : NotFirst ('\\' :: (w ++ rest))
  content : NotContent w rest
  middle : NotMiddle w rest
  layout : NotLayout w rest
  accent : ∀ v ∈ accentWords, w ≠ v.toList

theorem handlers_none {V X} (cfg : Cfg V X) (ho : SomeOrder cfg.order) (p : Parse V X) (n : Nat) (st : St V X) (toks : List Tok) {w rest : Str} (h : Unhandled w rest) :
    handlers cfg p n st toks ('\\' :: (w ++ rest)) = none := by
  have he : Ends w rest := .inl h.letters
  rw [handlers_first cfg ho p n st toks h.first, content_none cfg p st toks he h.content, orElse_none,
    handlers_middle cfg p st toks h.letters.2.1 h.letters.2.2 h.middle, formatting_none cfg p st toks he h.layout, orElse_none]
  refine diacritics_none cfg p st toks h.letters.1 h.letters.2.1 (fun c hc => ?_) h.accent
  cases hh : isLetter c with
  | false => rfl
  | true => have := h.letters.2.2 c hc; rw [letter_name c hh] at this; cases this

end L2J.Psr
