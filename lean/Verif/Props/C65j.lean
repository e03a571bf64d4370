import Verif.Props.C65i
/-! C65: items, and what becomes of environments and items. -/
namespace L2J.Psr
open Cmds Defn L2J.Spec
open Pre (not_word Without.sub)

theorem item_words : passes "item".toList = true ∧ clearOf (packageHeads ++ ["\\verb", "\\begin"]) "item".toList = true ∧ clearOf authorHeads ("item".toList.map lowerChar) = true := by
  refine ⟨?_, ?_, ?_⟩ <;> decide +kernel

/-- The token of an item. -/
def _root_.L2J.Spec.listed (id : Nat) (t : EnvT.Item) : Tok := .mk id "item".toList (.str t.content) (optField "title" (t.title.map .str)) none

theorem item_handlers {V X} (cfg : Cfg V X) (ho : SomeOrder cfg.order) (p : Parse V X) (n : Nat) (st : St V X) (toks : List Tok) {r : Str} (hne : NameEnds r) (hod : ∀ c ∈ r.head?, oddLetter c = false) :
    ∃ f, handlers cfg p n st toks ('\\' :: ("item".toList ++ r)) = orElse (item cfg p st toks ('\\' :: ("item".toList ++ r))) f := by
  have hc := clear_spec item_words.2.1 hne
  have hp : Without packageHeads ('\\' :: ("item".toList ++ r)) := Without.sub hc fun v hv => List.mem_append_left _ hv
  have hb : ¬ "\\begin".toList <+: '\\' :: ("item".toList ++ r) := not_word hc (by decide +kernel)
  have ha : NoAuthor ('\\' :: ("item".toList ++ r)) := by
    unfold NoAuthor
    rw [List.map_cons, List.map_append]
    exact clear_spec item_words.2.2 (fun c hc => by
      rw [List.head?_map] at hc
      cases hh : r.head? with
      | none => rw [hh] at hc; cases hc
      | some d =>
        rw [hh] at hc
        obtain rfl : lowerChar d = c := by simpa using hc
        rw [lower_name (hne d hh) (hod d hh)]; exact hne d hh)
  have hf : ¬ OpensFormula ('\\' :: ("item".toList ++ r)) := by
    rintro (⟨u, hu⟩ | ⟨u, hu⟩ | ⟨u, hu⟩ | ⟨n, _, w, star, _, u, hu⟩)
    · simp at hu
    · simp at hu
    · simp at hu
    · exact hb ⟨_, by rw [← hu]; unfold tag; rw [List.append_assoc]⟩
  refine ⟨orElse (content cfg p st toks ('\\' :: ("item".toList ++ r))) (orElse (if (tableRe.matchAt [] ('\\' :: ("item".toList ++ r))).isSome then some (cfg.table p st toks ('\\' :: ("item".toList ++ r))) else none) <|
    orElse (environment cfg p st toks ('\\' :: ("item".toList ++ r))) <| orElse (forLoop st toks ('\\' :: ("item".toList ++ r))) <| orElse (style cfg p st toks ('\\' :: ("item".toList ++ r))) <|
    orElse (formatting cfg p st toks ('\\' :: ("item".toList ++ r))) <| diacritics cfg p st toks ('\\' :: ("item".toList ++ r))), ?_⟩
  unfold handlers
  rw [package_none hp (noPicture_word hb), author_none cfg p st toks ha, equation_none cfg ho p n st toks hf,
    code_none cfg p st toks (not_word hc (by decide +kernel)) (fun n _ => delimAt_none hb)]
  rfl

theorem item_actAt {V X} {cfg : Cfg V X} (ho : SomeOrder cfg.order) (hl : Letters cfg.cmds) {h} {st : St V X} (k : Known cfg h st) (p : Parse V X) (n : Nat) (toks : List Tok) (space : Bool) {r : Str}
    (hne : NameEnds r) (hod : ∀ c ∈ r.head?, oddLetter c = false) (hu : ∀ x ∈ h, ¬ Meant x.1 "item".toList) {q : Res V X (List Tok × Int)}
    (hq : item cfg p st toks ('\\' :: ("item".toList ++ r)) = some q) :
    actAt cfg p n .default st toks space ('\\' :: ("item".toList ++ r)) = q.bind fun st p => move space ('\\' :: ("item".toList ++ r)) st p.1 p.2 := by
  rw [actAt_passed hl p n .default k toks space (passes_spec item_words.1 hne hu)]
  unfold actHandlers
  obtain ⟨f, hf⟩ := item_handlers cfg ho p n st toks hne hod
  rw [hf, hq]
  rfl

/-- What stands behind `\item`. -/
def _root_.L2J.Spec.ListItem.after (i : ListItem) : Str := i.ws1 ++ (i.opt ++ (i.ws2 ++ i.body))

/-- What an item leaves: the text of the next one, or a last newline. -/
theorem item_rest {i : ListItem} {next : Str} {k : Nat} (hd : (i.render ++ next).drop k = next ∨ (next = [] ∧ (i.render ++ next).drop k = ['\n'])) :
    (next ≠ [] → (i.render ++ next).drop k = next ∧ (i.render ++ next).take k = i.render) ∧ (next = [] → Blank ((i.render ++ next).drop k)) := by
  constructor
  · intro hn
    have hd : (i.render ++ next).drop k = next := hd.resolve_right fun h => hn h.1
    refine ⟨hd, ?_⟩
    have h1 := congrArg List.length hd
    have hpos : 0 < next.length := List.length_pos_iff.2 hn
    rw [List.length_drop, List.length_append] at h1
    exact take_ok _ _ (by omega)
  · rintro rfl
    rcases hd with h | ⟨_, h⟩
    · rw [h]; intro c hc; cases hc
    · rw [h]; intro c hc; rw [List.mem_singleton.1 hc]; decide

/-- An item. -/
theorem acts_item {V X} {cfg : Cfg V X} (ho : SomeOrder cfg.order) (hl : Letters cfg.cmds) {h} {st st1 : St V X} (k : Known cfg h st) {toks toks1 : List Tok} (space : Bool) {i : ListItem} {next : Str}
    {t : EnvT.Item} (hi : i.Ok) (hn : next = [] ∨ EnvT.isItem next = true) (hpairs : NoPairs (i.render ++ next)) (hne : NameEnds (i.after ++ next))
    (hod : ∀ c ∈ (i.after ++ next).head?, oddLetter c = false) (hu : ∀ x ∈ h, ¬ Meant x.1 "item".toList) (ht : i.token = some t)
    (hp : Processes cfg true st.fresh (listed st.next t) toks st1 toks1) :
    ∃ l, Acts cfg st toks space (i.render ++ next) st1 l ∧ l.toks = toks1 ∧ (next ≠ [] → l.rest = next ∧ l.space = endsBlank space i.render) ∧ (next = [] → Blank l.rest) := by
  obtain ⟨N, hp⟩ := hp
  obtain ⟨e, he, hd⟩ := EnvT.C56_item i next hi hn hpairs
  have hw : i.render ++ next = '\\' :: ("item".toList ++ (i.after ++ next)) := by
    unfold ListItem.render ListItem.after
    rw [List.append_assoc]; rfl
  have hr := item_rest hd
  refine ⟨⟨toks1, endsBlank space ((i.render ++ next).take e), (i.render ++ next).drop e⟩, ⟨N, fun n hle => ?_⟩, rfl, fun hnn => ?_, hr.2⟩
  · have hq : item cfg (parse cfg n) st toks ('\\' :: ("item".toList ++ (i.after ++ next))) = some (.ok st1 (toks1, (e : Nat))) := by
      unfold item
      rw [← hw, if_pos (EnvT.item_start i next hi hn).1, he, ht]
      simp only [single]
      rw [show processTok cfg (parse cfg n) true st.fresh (newTok st "item".toList (.str t.content) _) toks = _ from hp n hle]
      rfl
    rw [hw, item_actAt ho hl k (parse cfg n) n toks space hne hod hu hq]
    simp only [Res.bind, move]
    rw [if_neg (by omega)]
    rfl
  · obtain ⟨h1, h2⟩ := hr.1 hnn
    exact ⟨h1, by show endsBlank space ((i.render ++ next).take e) = _; rw [h2]⟩

/-- An item without a body is left out. -/
theorem acts_item_empty {V X} {cfg : Cfg V X} (ho : SomeOrder cfg.order) (hl : Letters cfg.cmds) {h} {st : St V X} (k : Known cfg h st) {toks : List Tok} (space : Bool) {i : ListItem} {next : Str}
    (hi : i.Ok) (hn : next = [] ∨ EnvT.isItem next = true) (hpairs : NoPairs (i.render ++ next)) (hne : NameEnds (i.after ++ next))
    (hod : ∀ c ∈ (i.after ++ next).head?, oddLetter c = false) (hu : ∀ x ∈ h, ¬ Meant x.1 "item".toList) (ht : i.token = none) :
    ∃ l, Acts cfg st toks space (i.render ++ next) st l ∧ l.toks = toks ∧ (next ≠ [] → l.rest = next ∧ l.space = endsBlank space i.render) ∧ (next = [] → Blank l.rest) := by
  obtain ⟨e, he, hd⟩ := EnvT.C56_item i next hi hn hpairs
  have hw : i.render ++ next = '\\' :: ("item".toList ++ (i.after ++ next)) := by
    unfold ListItem.render ListItem.after
    rw [List.append_assoc]; rfl
  have hr := item_rest hd
  refine ⟨⟨toks, endsBlank space ((i.render ++ next).take e), (i.render ++ next).drop e⟩, ⟨0, fun n _ => ?_⟩, rfl, fun hnn => ?_, hr.2⟩
  · have hq : item cfg (parse cfg n) st toks ('\\' :: ("item".toList ++ (i.after ++ next))) = some (.ok st (toks, (e : Nat))) := by
      unfold item
      rw [← hw, if_pos (EnvT.item_start i next hi hn).1, he, ht]
    rw [hw, item_actAt ho hl k (parse cfg n) n toks space hne hod hu hq]
    simp only [Res.bind, move]
    rw [if_neg (by omega)]
    rfl
  · obtain ⟨h1, h2⟩ := hr.1 hnn
    exact ⟨h1, by show endsBlank space ((i.render ++ next).take e) = _; rw [h2]⟩

/-! ## What becomes of the tokens -/

/-- The types of tokens with a treatment of their own. -/
def _root_.L2J.Spec.ownTypes : List Str := ["bibliography", "bibliography_file", "footnote", "caption", "url", "ref", "citation", "title", "section", "paragraph", "abstract", "input_file"].map String.toList

/-- What is left to do when the content has been read: the title is read, the token is added. -/
def Titles {V X} (cfg : Cfg V X) (st : St V X) (t : Tok) (toks : List Tok) (st' : St V X) (toks' : List Tok) : Prop :=
  ∃ N, ∀ n, N ≤ n → ((parseField (parse cfg n) titleKey st t).bind fun st t => add st t toks false) = .ok st' toks'

theorem own_ne {type : Str} (h : type ∉ ownTypes) : ∀ v ∈ ownTypes, type ≠ v := by rintro v hv rfl; exact h hv

theorem process_env {V X} (cfg : Cfg V X) (p : Parse V X) (st : St V X) (t : Tok) (toks : List Tok) (h : t.type ∉ ownTypes) : processTok cfg p true st t toks =
    ((if t.content.truthy && !(t.type = "algorithmic".toList || t.type = "tabular".toList) then
      (parseContent p { st with cur := some t.id } t).bind fun st1 t => .ok { st1 with cur := st.cur } t
    else .ok st t).bind fun st t => parseField p titleKey st t).bind fun st t => add st t toks false := by
  have h := own_ne h
  unfold processTok prepare
  simp only [h "bibliography".toList (by decide), h "bibliography_file".toList (by decide), h "footnote".toList (by decide), h "caption".toList (by decide), h "url".toList (by decide),
    h "ref".toList (by decide), h "citation".toList (by decide), h "title".toList (by decide), h "section".toList (by decide), h "paragraph".toList (by decide), h "abstract".toList (by decide),
    h "input_file".toList (by decide), or_self, if_false, if_true]

theorem process_plain {V X} (cfg : Cfg V X) (p : Parse V X) (st : St V X) (t : Tok) (toks : List Tok) (h : t.type ∉ ownTypes) : processTok cfg p false st t toks = add st t toks false := by
  have h := own_ne h
  unfold processTok prepare
  simp only [h "bibliography".toList (by decide), h "bibliography_file".toList (by decide), h "footnote".toList (by decide), h "caption".toList (by decide), h "url".toList (by decide),
    h "ref".toList (by decide), h "citation".toList (by decide), h "title".toList (by decide), h "section".toList (by decide), h "paragraph".toList (by decide), h "abstract".toList (by decide),
    h "input_file".toList (by decide), or_self, if_false]
  rfl

/-- The body of an environment or item is read on its own; labels in it go to the environment, afterwards to what they went to before. -/
theorem processes_body {V X} {cfg : Cfg V X} {st st1 st2 : St V X} {id : Nat} {type x : Str} {fs : List (Str × Val)} {sty} {l toks toks' : List Tok} (h : type ∉ ownTypes)
    (hr : type ≠ "algorithmic".toList ∧ type ≠ "tabular".toList) (hx : x ≠ []) (hp : Parses cfg { st with cur := some id } x st1 l)
    (ht : Titles cfg { st1 with cur := st.cur } (.mk id type (.toks l) fs sty) toks st2 toks') : Processes cfg true st (.mk id type (.str x) fs sty) toks st2 toks' := by
  obtain ⟨N, hp⟩ := Parses.val hp
  obtain ⟨M, ht⟩ := ht
  refine ⟨N + M, fun n hn => ?_⟩
  rw [process_env cfg (parse cfg n) st (.mk id type (.str x) fs sty) toks h]
  have htr : (Val.str x).truthy = true := by simpa [Val.truthy] using hx
  simp only [Tok.content, Tok.type, htr, hr.1, hr.2, decide_false, Bool.or_self, Bool.not_false, Bool.and_self, if_true, parseContent, Tok.id]
  rw [hp n (by omega)]
  exact ht n (by omega)

/-- An empty body, or one that is left as it is. -/
theorem processes_raw {V X} {cfg : Cfg V X} {st st2 : St V X} {id : Nat} {type x : Str} {fs : List (Str × Val)} {sty} {toks toks' : List Tok} (h : type ∉ ownTypes)
    (hr : type = "algorithmic".toList ∨ type = "tabular".toList ∨ x = []) (ht : Titles cfg st (.mk id type (.str x) fs sty) toks st2 toks') :
    Processes cfg true st (.mk id type (.str x) fs sty) toks st2 toks' := by
  obtain ⟨M, ht⟩ := ht
  refine ⟨M, fun n hn => ?_⟩
  rw [process_env cfg (parse cfg n) st (.mk id type (.str x) fs sty) toks h]
  rw [if_neg]
  · exact ht n hn
  · show ¬ ((Val.str x).truthy && !(decide (type = "algorithmic".toList) || decide (type = "tabular".toList))) = true
    rcases hr with rfl | rfl | rfl
    · simp
    · simp
    · simp [Val.truthy]

theorem untitled_any {V X} (p : Parse V X) (st : St V X) {t : Tok} (hf : ∀ e ∈ t.fields, e.1 ≠ titleKey) : parseField p titleKey st t = .ok st t := by
  unfold parseField Tok.field
  rw [show t.fields.find? (fun e => e.1 = titleKey) = none by rw [List.find?_eq_none]; intro e he; simpa using hf e he]
  rfl

theorem titles_none {V X} {cfg : Cfg V X} {st : St V X} {t : Tok} {toks toks' : List Tok} (hf : ∀ e ∈ t.fields, e.1 ≠ titleKey) (ha : Adds false t toks toks') : Titles cfg st t toks st toks' := by
  refine ⟨0, fun n _ => ?_⟩
  rw [untitled_any _ st hf]
  show add st t toks false = _
  unfold add; rw [adds_spec ha]

theorem titles_some {V X} {cfg : Cfg V X} {st st1 : St V X} {id : Nat} {type : Str} {v : Val} {y : Str} {fs gs : List (Str × Val)} {sty} {l toks toks' : List Tok} (hf : ∀ e ∈ fs ++ gs, e.1 ≠ titleKey)
    (hp : Parses cfg st y st1 l) (ha : Adds false (.mk id type v (fs ++ (titleKey, .toks l) :: gs) sty) toks toks') :
    Titles cfg st (.mk id type v (fs ++ (titleKey, .str y) :: gs) sty) toks st1 toks' := by
  obtain ⟨N, hp⟩ := Parses.val hp
  refine ⟨N, fun n hn => ?_⟩
  have key : ∀ fs : List (Str × Val), (∀ e ∈ fs, e.1 ≠ titleKey) → ∀ v', fs.map (fun e => if e.1 = titleKey then (titleKey, v') else e) = fs := by
    intro fs
    induction fs with
    | nil => intro _ _; rfl
    | cons e fs ih => intro h v'; rw [List.map_cons, if_neg (h e (by simp)), ih (fun e he => h e (by simp [he])) v']
  have hfind : (Tok.mk id type v (fs ++ (titleKey, .str y) :: gs) sty).field titleKey = some (.str y) := by
    unfold Tok.field Tok.fields
    simp only
    rw [List.find?_append, List.find?_eq_none.2 (fun e he => by simpa using hf e (by simp [he]))]
    simp
  unfold parseField
  rw [hfind]
  simp only
  rw [hp n hn]
  simp only [Res.bind, Tok.setField, List.map_append, List.map_cons, if_true]
  rw [key fs (fun e he => hf e (by simp [he])), key gs (fun e he => hf e (by simp [he]))]
  unfold add; rw [adds_spec ha]

/-- A token that needs no more reading is added. -/
theorem processes_ready {V X} {cfg : Cfg V X} {st : St V X} {t : Tok} {toks toks' : List Tok} (h : t.type ∉ ownTypes) (ha : Adds false t toks toks') : Processes cfg false st t toks st toks' := by
  refine ⟨0, fun n _ => ?_⟩
  rw [process_plain cfg _ st t toks h]
  unfold add; rw [adds_spec ha]

end L2J.Psr
