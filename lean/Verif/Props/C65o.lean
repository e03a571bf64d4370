import Verif.Props.C65n
/-! C65: the parser as a whole; styled text. -/
namespace L2J.Psr
open Cmds Defn L2J.Spec
open Pre (not_word Without.sub)

/-- The argument of a command for styled text: a text in braces, or the next character. -/
inductive _root_.L2J.Spec.StyleArg (rest : Str) : Str → Str → Prop
  | braces (ws body : Str) : Blank ws → Wrappable '{' '}' body → StyleArg rest (ws ++ '{' :: (body ++ ['}'])) body
  | char (ws : Str) (c : Char) : Blank ws → (isSpace c = false ∧ c ≠ '{' ∧ c ≠ '\\' ∧ oddLetter c = false) → (ws = [] → isNameChar c = false) → rest.getLast? ≠ some '{' → StyleArg rest (ws ++ [c]) [c]

/-- Tokens with a style put in front of their own: for a single token each style is there once. -/
inductive _root_.L2J.Spec.StyledToks : Option Str → List Tok → List Tok → Prop
  | none (style : Option Str) : StyledToks style [] []
  | one (style : Option Str) (t : Tok) (d : List Str) : Firsts (style.toList ++ t.styles.getD []) d → StyledToks style [t] [t.setStyles (some d)]
  | many (style : Str) (l : List Tok) : 2 ≤ l.length → StyledToks (some style) l (l.map fun t => t.setStyles (some (style :: t.styles.getD [])))
  | plain (l : List Tok) : 2 ≤ l.length → StyledToks none l l

theorem firsts_unique {l d d' : List Str} (h : Firsts l d) (h' : Firsts l d') : d = d' := by
  induction h generalizing d' with
  | nil =>
    generalize hl : ([] : List Str) = l at h'
    cases h' with
    | nil => rfl
    | again _ _ => simp at hl
    | new _ _ => simp at hl
  | @again l d x h hx ih =>
    generalize hl : l ++ [x] = l2 at h'
    cases h' with
    | nil => simp at hl
    | @again l3 d3 y h3 hy =>
      obtain ⟨rfl, he⟩ := List.append_inj' hl rfl
      exact ih h3
    | @new l3 d3 y h3 hy =>
      obtain ⟨rfl, he⟩ := List.append_inj' hl rfl
      injection he with he; subst he
      exact absurd hx hy
  | @new l d x h hx ih =>
    generalize hl : l ++ [x] = l2 at h'
    cases h' with
    | nil => simp at hl
    | @again l3 d3 y h3 hy =>
      obtain ⟨rfl, he⟩ := List.append_inj' hl rfl
      injection he with he; subst he
      exact absurd hy hx
    | @new l3 d3 y h3 hy =>
      obtain ⟨rfl, he⟩ := List.append_inj' hl rfl
      injection he with he; subst he
      rw [ih h3]

theorem styled_toks {style : Option Str} {l l' : List Tok} (h : StyledToks style l l') : styled style l = l' := by
  cases h with
  | none => cases style <;> rfl
  | one style t d hd =>
    show [t.setStyles (some (Style.dedup (style.toList ++ t.styles.getD [])))] = _
    rw [firsts_unique (Style.dedup_firsts _) hd]
  | many style l hl =>
    match l, hl with
    | [], hl => simp at hl
    | [a], hl => simp at hl
    | a :: b :: l, _ => rfl
  | plain l hl =>
    match l, hl with
    | [], hl => simp at hl
    | [a], hl => simp at hl
    | a :: b :: l, _ => rfl

theorem style_handle {n : String} {sty : Option String} (h : (n, sty) ∈ styleTable) {rest arg body : Str} (ha : StyleArg rest arg body) :
    ∃ r d, Style.styledName ('\\' :: (n.toList ++ (arg ++ rest))) = some (n.toList, r) ∧
      Style.handleStyled (fun t => [Style.PTok.other t []]) ('\\' :: (n.toList ++ (arg ++ rest))) n.toList r =
        .ok (if strip body = [] then .none else .one (.other body d)) ('\\' :: (n.toList ++ arg)).length := by
  have key : ∀ (X : Str) (out : Style.Out Str) (e : Nat) (r : Str), Style.styledName ('\\' :: (n.toList ++ X)) = some (n.toList, r) →
      Style.handle (fun t => [Style.PTok.other t []]) (fun _ => []) ('\\' :: (n.toList ++ X)) = .ok out e →
      Style.handleStyled (fun t => [Style.PTok.other t []]) ('\\' :: (n.toList ++ X)) n.toList r = .ok out e := by
    intro X out e r hr hh
    unfold Style.handle at hh
    rw [hr] at hh
    exact hh
  cases ha with
  | braces ws body hws hb =>
    have e : command n ws body ++ rest = '\\' :: (n.toList ++ (ws ++ '{' :: (body ++ ['}']) ++ rest)) := by simp [command]
    have := Style.styled_eq (fun t => [Style.PTok.other t []]) (fun _ => []) n sty h ws body rest hws hb
    rw [e] at this
    have hr : Style.styledName ('\\' :: (n.toList ++ (ws ++ '{' :: (body ++ ['}']) ++ rest))) = some (n.toList, ws ++ '{' :: (body ++ ['}']) ++ rest) := by
      rw [show ws ++ '{' :: (body ++ ['}']) ++ rest = ws ++ '{' :: (body ++ '}' :: rest) by simp]
      exact Style.styledName_hit h _ (Style.head_ws ws _ isLetter hws (fun c => Style.space_letter) (fun c hc => by cases hc; rfl)) (Style.no_expand ws _ _ hws (by decide))
    exact ⟨_, _, hr, key _ _ _ _ hr this⟩
  | char ws c hws hc hl hend =>
    have hne : strip [c] ≠ [] := by
      rw [strip_id (fun d hd => by rw [List.mem_singleton.1 hd]; exact hc.1)]; simp
    have hlet : ws = [] → isLetter c = false := fun hw => by
      cases hh : isLetter c with
      | false => rfl
      | true => have := hl hw; rw [letter_name c hh] at this; cases this
    obtain ⟨out, h1, h2⟩ := Style.C57_char (fun t => [Style.PTok.other t []]) (fun _ => []) n sty h ws c rest hws ⟨hc.1, hc.2.1, hc.2.2.1⟩ hlet hend
    have hr : Style.styledName ('\\' :: (n.toList ++ (ws ++ c :: rest))) = some (n.toList, ws ++ c :: rest) :=
      Style.styledName_hit h _ (fun x hx => by
        cases ws with
        | nil => cases hx; exact hlet rfl
        | cons w ws => cases hx; exact Style.space_letter (hws _ (by simp))) (Style.no_expand ws _ _ hws hc.2.2.1)
    generalize hL : [Style.PTok.other [c] []] = L at h2
    cases h2 with
    | none => cases hL
    | many h2 => rw [← hL] at h2; simp at h2
    | @one t t' d hf hsame =>
      injection hL with hL _; subst hL
      cases hsame
      refine ⟨ws ++ c :: rest, d, by rw [show ws ++ [c] ++ rest = ws ++ c :: rest by simp]; exact hr, ?_⟩
      rw [show ws ++ [c] ++ rest = ws ++ c :: rest by simp, if_neg hne, key _ _ _ _ hr h1]
      simp; omega

/-- Several tokens are processed. -/
def ProcessesAll {V X} (cfg : Cfg V X) (st : St V X) (ts toks : List Tok) (st' : St V X) (toks' : List Tok) : Prop := ∃ N, ∀ n, N ≤ n → processAll cfg (parse cfg n) st toks ts = .ok st' toks'

theorem processes_nil {V X} (cfg : Cfg V X) (st : St V X) (toks : List Tok) : ProcessesAll cfg st [] toks st toks := ⟨0, fun _ _ => rfl⟩

theorem processes_cons {V X} {cfg : Cfg V X} {st st1 st2 : St V X} {t : Tok} {ts toks toks1 toks2 : List Tok} (h : Processes cfg false st t toks st1 toks1) (h2 : ProcessesAll cfg st1 ts toks1 st2 toks2) :
    ProcessesAll cfg st (t :: ts) toks st2 toks2 := by
  obtain ⟨N, h⟩ := h
  obtain ⟨M, h2⟩ := h2
  refine ⟨N + M, fun n hn => ?_⟩
  show (processTok cfg (parse cfg n) false st t toks).bind _ = _
  rw [h n (by omega)]
  exact h2 n (by omega)

/-! ## Tokens that have been read already -/

/-- The content and the title of a token have been read, or are not to be read. -/
def _root_.L2J.Spec.TitleRead (fs : List (Str × Val)) : Prop := ∃ v : Val, (∀ s, v ≠ .str s) ∧ ∀ e ∈ fs, e.1 = titleKey → e.2 = v

theorem title_again {V X} (p : Parse V X) (st : St V X) {t : Tok} (h : TitleRead t.fields) : parseField p titleKey st t = .ok st t := by
  obtain ⟨v, hv, hf⟩ := h
  obtain ⟨i, ty, c, fs, sty⟩ := t
  have hmap : ∀ fs : List (Str × Val), (∀ e ∈ fs, e.1 = titleKey → e.2 = v) → fs.map (fun e => if e.1 = titleKey then (titleKey, v) else e) = fs := by
    intro fs
    induction fs with
    | nil => intro _; rfl
    | cons e fs ih =>
      intro h
      rw [List.map_cons, ih fun e he => h e (by simp [he])]
      by_cases he : e.1 = titleKey
      · rw [if_pos he, ← h e (by simp) he, ← he]
      · rw [if_neg he]
  unfold parseField Tok.field
  simp only [Tok.fields] at hf ⊢
  cases hfind : fs.find? (fun e => e.1 = titleKey) with
  | none => rfl
  | some e =>
    have he : e.2 = v := hf e (List.mem_of_find?_eq_some hfind) (by simpa using List.find?_some hfind)
    simp only [Option.map_some, he]
    have hp : parseVal p st v = .ok st v := by
      cases v with
      | str s => exact absurd rfl (hv s)
      | _ => rfl
    rw [hp]
    simp only [Res.bind, Tok.setField]
    rw [hmap fs hf]

theorem content_again {V X} (p : Parse V X) (st : St V X) {t : Tok} (h : ∀ s, t.content ≠ .str s) : parseContent p st t = .ok st t := by
  obtain ⟨i, ty, c, fs, sty⟩ := t
  have hp : parseVal p st c = .ok st c := by
    cases c with
    | str s => exact absurd rfl (h s)
    | _ => rfl
  unfold parseContent
  simp only [Tok.content]
  rw [hp]
  rfl

theorem process_prepared {V X} {cfg : Cfg V X} {st st' : St V X} {t t' : Tok} {toks toks' : List Tok} (h0 : t.type ≠ "input_file".toList)
    (h : ∀ n, prepare cfg (parse cfg n) false st t = .ok st' t') (ha : Adds false t' toks toks') : Processes cfg false st t toks st' toks' := by
  refine ⟨0, fun n _ => ?_⟩
  unfold processTok
  rw [if_neg h0, h n]
  show add st' t' toks false = _
  unfold add; rw [adds_spec ha]

/-- A heading, a note or a caption that has been read: labels go to it from now on. -/
theorem processes_heading_again {V X} {cfg : Cfg V X} {st : St V X} {t : Tok} {toks toks' : List Tok} (ht : t.type = "section".toList ∨ t.type = "paragraph".toList) (hf : TitleRead t.fields)
    (ha : Adds false t toks toks') : Processes cfg false st t toks { st with cur := some t.id } toks' := by
  refine process_prepared (by rcases ht with h | h <;> rw [h] <;> decide) (fun n => ?_) ha
  unfold prepare
  rcases ht with h | h <;> rw [h] <;> exact title_again _ _ hf

theorem processes_note_again {V X} {cfg : Cfg V X} {st : St V X} {t : Tok} {toks toks' : List Tok} (ht : t.type = "footnote".toList ∨ t.type = "caption".toList) (hc : ∀ s, t.content ≠ .str s)
    (ha : Adds false t toks toks') : Processes cfg false st t toks { st with cur := some t.id } toks' := by
  refine process_prepared (by rcases ht with h | h <;> rw [h] <;> decide) (fun n => ?_) ha
  unfold prepare
  rcases ht with h | h <;> rw [h] <;> exact content_again _ _ hc

theorem processes_title_again {V X} {cfg : Cfg V X} {st : St V X} {t : Tok} {toks toks' : List Tok} (ht : t.type = "title".toList ∨ t.type = "abstract".toList) (hc : ∀ s, t.content ≠ .str s)
    (ha : Adds false t toks toks') : Processes cfg false st t toks st toks' := by
  refine process_prepared (by rcases ht with h | h <;> rw [h] <;> decide) (fun n => ?_) ha
  unfold prepare
  rcases ht with h | h <;> rw [h] <;> exact content_again _ _ hc

theorem processes_cite_again {V X} {cfg : Cfg V X} {st : St V X} {t : Tok} {toks toks' : List Tok} (ht : t.type = "citation".toList) (hf : TitleRead t.fields)
    (ha : Adds false t toks toks') : Processes cfg false st t toks st toks' := by
  refine process_prepared (by rw [ht]; decide) (fun n => ?_) ha
  unfold prepare
  rw [ht]; exact title_again _ _ hf

/-- The keys of a reference are converted again. -/
theorem processes_ref_again {V X} {cfg : Cfg V X} (hl : Letters cfg.cmds) {h} {st : St V X} (k : Known cfg h st) {id : Nat} {keys : List Str} {fs : List (Str × Val)} {sty : Option (List Str)} {toks toks' : List Tok}
    (hu : ∀ x ∈ keys, Unmet h x) (hf : TitleRead fs) (ha : Adds false (.mk id "ref".toList (.strs (keys.map cfg.cmds.conv)) fs sty) toks toks') :
    Processes cfg false st (.mk id "ref".toList (.strs keys) fs sty) toks st toks' := by
  refine process_prepared (by show "ref".toList ≠ _; decide) (fun n => ?_) ha
  show (expandAll cfg st keys).bind _ = _
  rw [expandAll_unmet hl k keys hu]
  exact title_again (parse cfg n) st (t := .mk id "ref".toList (.strs (keys.map cfg.cmds.conv)) fs sty) hf

/-- The address of a link is converted again. -/
theorem processes_url_again {V X} {cfg : Cfg V X} (hl : Letters cfg.cmds) {h} {st : St V X} (k : Known cfg h st) {id : Nat} {a : Str} {fs : List (Str × Val)} {sty : Option (List Str)} {toks toks' : List Tok}
    (hu : Unmet h a) (hf : TitleRead fs) (ha : Adds false (.mk id "url".toList (.str (cfg.cmds.conv a)) fs sty) toks toks') :
    Processes cfg false st (.mk id "url".toList (.str a) fs sty) toks st toks' := by
  refine process_prepared (by show "url".toList ≠ _; decide) (fun n => ?_) ha
  show (parseField (parse cfg n) titleKey st _).bind _ = _
  rw [title_again (parse cfg n) st (t := .mk id "url".toList (.str a) fs sty) hf]
  simp only [Res.bind, Tok.content]
  rw [expand_unmet hl k hu]
  rfl

/-- The commands for styled text that are no switches. -/
def stylesOk : Bool := styleTable.all fun e => (e.1 == "textup" || e.1 == "textnormal") ||
  (passes e.1.toList && notFirsts e.1.toList && notContents e.1.toList && notLayouts e.1.toList && clearOf (blockHeads ++ ["\\begin"]) e.1.toList)

theorem styles_ok : stylesOk = true := by decide +kernel

theorem styleArg_cuts {rest arg body : Str} (h : StyleArg rest arg body) : Cuts (arg ++ rest) := by
  cases h with
  | braces ws body hws _ => rw [List.append_assoc]; exact Cuts.blank hws (Cuts.cons (by decide))
  | char ws c hws hc hl _ =>
    rw [List.append_assoc]
    cases ws with
    | nil => exact Cuts.cons ⟨hl rfl, hc.2.2.2⟩
    | cons a ws =>
      have := blank_head (s := ws ++ ([c] ++ rest)) (c := '{') (ws := [a]) (fun d hd => by rw [List.mem_singleton.1 hd]; exact hws a (by simp)) (by decide)
      exact ⟨fun d hd => this.1 d (by simpa using hd), fun d hd => this.2 d (by simpa using hd)⟩

theorem styleArg_last {b : Bool} {n rest arg body : Str} (h : StyleArg rest arg body) : endsBlank b ('\\' :: (n ++ arg)) = false := by
  cases h with
  | braces ws body _ _ => rw [endsBlank_last' _ (z := '}') (by simp [List.getLast?_append, List.getLast?_cons])]; decide
  | char ws c _ hc _ _ => rw [endsBlank_last' _ (z := c) (by simp [List.getLast?_append, List.getLast?_cons])]; exact hc.1

theorem style_at {V X} {cfg : Cfg V X} (ho : SomeOrder cfg.order) (hl : Letters cfg.cmds) {h} {st : St V X} (k : Known cfg h st) (p : Parse V X) (m : Nat) (toks : List Tok) (space : Bool)
    {n : String} {sty : Option String} (hn : (n, sty) ∈ styleTable) (hs : n ≠ "textup" ∧ n ≠ "textnormal") {rest arg body : Str} (ha : StyleArg rest arg body) (hu : ∀ x ∈ h, ¬ Meant x.1 n.toList)
    (hp : ¬ Contains (arg ++ rest) ("\\end".toList ++ n.toList)) {q : Res V X (List Tok × Int)} (hq : style cfg p st toks ('\\' :: (n.toList ++ (arg ++ rest))) = some q) :
    actAt cfg p m .default st toks space ('\\' :: (n.toList ++ (arg ++ rest))) = q.bind fun st p => move space ('\\' :: (n.toList ++ (arg ++ rest))) st p.1 p.2 := by
  obtain ⟨hne, hod⟩ := styleArg_cuts ha
  have hok := List.all_eq_true.1 styles_ok _ hn
  simp only [Bool.or_eq_true, Bool.and_eq_true, beq_iff_eq] at hok
  have hok := hok.resolve_left (fun h => h.elim hs.1 hs.2)
  obtain ⟨⟨⟨⟨p1, p2⟩, p3⟩, p4⟩, p5⟩ := hok
  have hf := notFirsts_spec p2 hne hod
  have hw := passes_spec p1 hne hu
  have hc := clear_spec p5 hne
  have hb : ¬ "\\begin".toList <+: '\\' :: (n.toList ++ (arg ++ rest)) := not_word hc (by decide +kernel)
  have hblock : Without blockHeads ('\\' :: (n.toList ++ (arg ++ rest))) := Without.sub hc fun v hv => List.mem_append_left _ hv
  have hletters : ∀ c ∈ n.toList, isLetter c = true := by
    unfold passes at p1
    simp only [Bool.and_eq_true] at p1
    exact fun c hc => List.all_eq_true.1 p1.1.1.1.2 c hc
  rw [actAt_passed hl p m .default k toks space hw]
  unfold actHandlers
  rw [handlers_first cfg ho p m st toks hf, content_none cfg p st toks hw.name (notContents_spec p3 hod), orElse_none,
    table_none (not_word hblock (by decide +kernel)) hb, environment_none cfg p st toks hblock hb (EnvT.matchPair_none n.toList (arg ++ rest) (fun c hc => letter_word c (hletters c hc)) hp),
    forLoop_none st toks hblock, hq]
  rfl

/-- Styled text: the argument is read on its own and its tokens get the style; they are processed again. -/
theorem Acts.styled {V X} {cfg : Cfg V X} (ho : SomeOrder cfg.order) (hl : Letters cfg.cmds) {h} {st st1 st2 : St V X} (k : Known cfg h st) {toks toks2 l l2 : List Tok} (space : Bool)
    {n : String} {sty : Option String} (hn : (n, sty) ∈ styleTable) (hs : n ≠ "textup" ∧ n ≠ "textnormal") {rest arg body : Str} (ha : StyleArg rest arg body) (hne : strip body ≠ [])
    (hu : ∀ x ∈ h, ¬ Meant x.1 n.toList) (hp : ¬ Contains (arg ++ rest) ("\\end".toList ++ n.toList)) (hb : Parses cfg st body st1 l) (hst : StyledToks (sty.map String.toList) l l2)
    (hpr : ProcessesAll cfg st1 l2 toks st2 toks2) : Acts cfg st toks space ('\\' :: (n.toList ++ (arg ++ rest))) st2 ⟨toks2, false, rest⟩ := by
  obtain ⟨N, hb⟩ := hb.fuel
  obtain ⟨M, hpr⟩ := hpr
  refine ⟨N + M, fun m hm => ?_⟩
  obtain ⟨r, d, h1, h2⟩ := style_handle hn ha
  rw [if_neg hne] at h2
  have hq : style cfg (parse cfg m) st toks ('\\' :: (n.toList ++ (arg ++ rest))) = some (.ok st2 (toks2, (('\\' :: (n.toList ++ arg)).length : Nat))) := by
    unfold style
    rw [h1]
    simp only
    rw [h2]
    simp only
    rw [hb m (by omega), (Style.table_mapping _ hn).1]
    simp only [Res.bind, Option.getD_some]
    rw [styled_toks hst, hpr m (by omega)]
  rw [style_at ho hl k _ m toks space hn hs ha hu hp hq]
  simp only [Res.bind]
  rw [show '\\' :: (n.toList ++ (arg ++ rest)) = ('\\' :: (n.toList ++ arg)) ++ rest by simp, move_ok _ _ _ _ _ rfl]
  rw [styleArg_last ha]

/-- An empty argument. -/
theorem Acts.styledEmpty {V X} {cfg : Cfg V X} (ho : SomeOrder cfg.order) (hl : Letters cfg.cmds) {h} {st : St V X} (k : Known cfg h st) (toks : List Tok) (space : Bool)
    {n : String} {sty : Option String} (hn : (n, sty) ∈ styleTable) (hs : n ≠ "textup" ∧ n ≠ "textnormal") {rest arg body : Str} (ha : StyleArg rest arg body) (hne : strip body = [])
    (hu : ∀ x ∈ h, ¬ Meant x.1 n.toList) (hp : ¬ Contains (arg ++ rest) ("\\end".toList ++ n.toList)) : Acts cfg st toks space ('\\' :: (n.toList ++ (arg ++ rest))) st ⟨toks, false, rest⟩ := by
  refine ⟨0, fun m hm => ?_⟩
  obtain ⟨r, d, h1, h2⟩ := style_handle hn ha
  rw [if_pos hne] at h2
  have hq : style cfg (parse cfg m) st toks ('\\' :: (n.toList ++ (arg ++ rest))) = some (.ok st (toks, (('\\' :: (n.toList ++ arg)).length : Nat))) := by
    unfold style
    rw [h1]
    simp only
    rw [h2]
  rw [style_at ho hl k _ m toks space hn hs ha hu hp hq]
  simp only [Res.bind]
  rw [show '\\' :: (n.toList ++ (arg ++ rest)) = ('\\' :: (n.toList ++ arg)) ++ rest by simp, move_ok _ _ _ _ _ rfl]
  rw [styleArg_last ha]

end L2J.Psr
