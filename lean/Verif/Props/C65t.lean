import Verif.Props.C65s
import Verif.Props.C59
import Verif.Props.C42
/-! C65: the parser as a whole; code, comments, groups and user-defined environments. -/
namespace L2J.Psr
open Cmds Defn L2J.Spec
open Pre (not_word Without.sub)

/-! ## Code -/

/-- The token of a code. -/
def _root_.L2J.Spec.coded (id : Nat) (t : CodeText) : Tok :=
  .mk id "code".toList (.str (strip t.code)) (optField "title" (t.title.map fun x => .str (strip x)) ++ (if t.inline then [("display".toList, .str "inline".toList)] else [])) none

theorem author_word {w r : Str} (h : clearOf authorHeads (w.map lowerChar) = true) (hne : NameEnds r) (hod : ∀ c ∈ r.head?, oddLetter c = false) : NoAuthor ('\\' :: (w ++ r)) := by
  unfold NoAuthor
  rw [List.map_cons, List.map_append]
  exact clear_spec h (fun c hc => by
    rw [List.head?_map] at hc
    cases hh : r.head? with
    | none => rw [hh] at hc; cases hc
    | some d =>
      rw [hh] at hc
      obtain rfl : lowerChar d = c := by simpa using hc
      rw [lower_name (hne d hh) (hod d hh)]; exact hne d hh)

theorem verb_words : passes "verb".toList = true ∧ clearOf (packageHeads ++ ["\\begin"]) "verb".toList = true ∧ clearOf authorHeads ("verb".toList.map lowerChar) = true := by
  refine ⟨?_, ?_, ?_⟩ <;> decide +kernel

theorem handlers_code {V X} (cfg : Cfg V X) (ho : SomeOrder cfg.order) (p : Parse V X) (n : Nat) (st : St V X) (toks : List Tok) {s : Str} (h1 : Without packageHeads s) (h2 : NoPicture s) (h3 : NoAuthor s)
    (h4 : ¬ OpensFormula s) : ∃ f, handlers cfg p n st toks s = orElse (code cfg p st toks s) f := by
  refine ⟨?_, ?_⟩
  rotate_left
  · unfold handlers
    rw [package_none h1 h2, author_none cfg p st toks h3, equation_none cfg ho p n st toks h4]
    rfl

theorem begin_noPackage {ws name r : Str} (hws : Blank ws) : Without (packageHeads ++ ["\\verb", "\\item"]) (beginText ws name r) := by
  obtain ⟨hne, _⟩ := blank_head (s := name ++ '}' :: r) (c := '{') hws (by decide)
  have hc := clear_spec begin_words.2.2.2.1 hne
  rw [← begin_word] at hc
  exact hc

theorem reach_begin {V X} {cfg : Cfg V X} (hl : Letters cfg.cmds) (p : Parse V X) (n : Nat) {h} {st : St V X} (k : Known cfg h st) (toks : List Tok) (space : Bool) {ws name r : Str} (hws : Blank ws)
    (hu : ∀ x ∈ h, ¬ Meant x.1 "begin".toList) :
    actAt cfg p n .default st toks space (beginText ws name r) = actHandlers cfg p n .default st toks space (beginText ws name r) := by
  obtain ⟨hne, _⟩ := blank_head (s := name ++ '}' :: r) (c := '{') hws (by decide)
  have hpass := actAt_passed hl p n .default k toks space (passes_spec begin_words.1 hne hu)
  rw [← begin_word] at hpass
  exact hpass

theorem code_names : ∀ m ∈ ["verbatim".toList, "lstlisting".toList], '}' ∉ m ∧ (∀ v ∈ pictureEnvs, m ≠ v.toList ∧ m ≠ v.toList ++ ['*']) ∧ ∀ v ∈ formulaEnvs, m ≠ v.toList ∧ m ≠ v.toList ++ ['*'] := by
  decide +kernel

/-- The character behind `\verb` ends the name. -/
def _root_.L2J.Spec.VerbEnds (t : CodeText) : Prop := t.inline = true → ∀ a ∈ (t.written.drop 5).head?, isNameChar a = false ∧ oddLetter a = false

theorem reach_code {V X} {cfg : Cfg V X} (ho : SomeOrder cfg.order) (hl : Letters cfg.cmds) (p : Parse V X) (n : Nat) {h} {st : St V X} (k : Known cfg h st) (toks : List Tok) (space : Bool) {t : CodeText} (ht : WrittenCode t)
    (hv : VerbEnds t) (hu : ∀ m ∈ ["begin".toList, "verb".toList], ∀ x ∈ h, ¬ Meant x.1 m) (rest : Str) :
    (actAt cfg p n .default st toks space (t.written ++ rest) = actHandlers cfg p n .default st toks space (t.written ++ rest) ∧
      ∃ f, handlers cfg p n st toks (t.written ++ rest) = orElse (code cfg p st toks (t.written ++ rest)) f) ∧ ∃ c z, t.written.head? = some c ∧ isSpace c = false ∧ t.written.getLast? = some z := by
  have env : ∀ {m b : Str} (x : Str), m ∈ ["verbatim".toList, "lstlisting".toList] → IsDelim "\\begin".toList m b →
      (actAt cfg p n .default st toks space (b ++ x) = actHandlers cfg p n .default st toks space (b ++ x) ∧
        ∃ f, handlers cfg p n st toks (b ++ x) = orElse (code cfg p st toks (b ++ x)) f) ∧ ∃ b', b = '\\' :: b' := by
    intro m b x hm hb
    obtain ⟨ws, hws, rfl⟩ := hb
    obtain ⟨n1, n2, n3⟩ := code_names m hm
    have e : "\\begin".toList ++ ws ++ '{' :: (m ++ ['}']) ++ x = beginText ws m x := by unfold beginText; simp
    rw [e]
    exact ⟨⟨reach_begin hl p n k toks space hws (hu _ (by simp)), handlers_code cfg ho p n st toks (Without.sub (begin_noPackage hws) fun v hv => List.mem_append_left _ hv) (begin_picture' hws n1 n2) (begin_author hws)
      (begin_formula' hws n1 n3)⟩, _, rfl⟩
  have verb : ∀ (x : Str), (∀ a ∈ x.head?, isNameChar a = false ∧ oddLetter a = false) →
      actAt cfg p n .default st toks space ('\\' :: ("verb".toList ++ x)) = actHandlers cfg p n .default st toks space ('\\' :: ("verb".toList ++ x)) ∧
        ∃ f, handlers cfg p n st toks ('\\' :: ("verb".toList ++ x)) = orElse (code cfg p st toks ('\\' :: ("verb".toList ++ x))) f := by
    intro x hx
    have hne : NameEnds x := fun a ha => (hx a ha).1
    have hc := clear_spec verb_words.2.1 hne
    have hb : ¬ "\\begin".toList <+: '\\' :: ("verb".toList ++ x) := not_word hc (by decide +kernel)
    refine ⟨actAt_passed hl p n .default k toks space (passes_spec verb_words.1 hne (hu _ (by simp))), handlers_code cfg ho p n st toks (Without.sub hc fun v hv => List.mem_append_left _ hv) (noPicture_word hb)
      (author_word verb_words.2.2 hne fun a ha => (hx a ha).2) ?_⟩
    rintro (⟨u, hu⟩ | ⟨u, hu⟩ | ⟨u, hu⟩ | ⟨m, _, w, star, _, u, hu⟩)
    · simp at hu
    · simp at hu
    · simp at hu
    · exact hb ⟨_, by rw [← hu, tag, List.append_assoc, List.append_assoc]⟩
  have endLast : ∀ {m e : Str} (x : Str), IsDelim "\\end".toList m e → (x ++ e).getLast? = some '}' := by
    rintro m e x ⟨ws, _, rfl⟩
    simp [List.getLast?_append, List.getLast?_cons]
  cases ht with
  | verbatim b x e hb _ he =>
    obtain ⟨h1, b', rfl⟩ := env (x ++ e ++ rest) (by simp) hb
    exact ⟨by simpa using h1, '\\', '}', rfl, by decide, by rw [← List.append_assoc]; exact endLast _ he⟩
  | listing b x e hb _ he _ =>
    obtain ⟨h1, b', rfl⟩ := env (x ++ e ++ rest) (by simp) hb
    exact ⟨by simpa using h1, '\\', '}', rfl, by decide, by rw [← List.append_assoc]; exact endLast _ he⟩
  | options b o x e hb _ he _ =>
    obtain ⟨h1, b', rfl⟩ := env ('[' :: (o ++ ']' :: (x ++ e)) ++ rest) (by simp) hb
    refine ⟨by simpa using h1, '\\', '}', rfl, by decide, ?_⟩
    have := endLast ('\\' :: b' ++ '[' :: (o ++ ']' :: x)) he
    simpa using this
  | verb d x _ _ _ _ =>
    have h1 := verb (d :: (x ++ [d]) ++ rest) (by simpa [VerbEnds] using hv)
    exact ⟨by simpa using h1, '\\', d, rfl, by decide, by simp [List.getLast?_cons, List.getLast?_append]⟩
  | star d x _ _ _ =>
    have h1 := verb ('*' :: d :: (x ++ [d]) ++ rest) (by intro a ha; simp at ha; subst ha; decide)
    exact ⟨by simpa using h1, '\\', d, rfl, by decide, by simp [List.getLast?_cons, List.getLast?_append]⟩

theorem adds_plain {id : Nat} {ty : Str} {v : Val} {fs : List (Str × Val)} (toks : List Tok) (h : ty ∉ ["group", "environment", "list", "text"].map String.toList) :
    Adds false (.mk id ty v fs none) toks (toks ++ [.mk id ty v fs none]) := by
  simp only [List.map_cons, List.map_nil, List.mem_cons, List.not_mem_nil, or_false, not_or] at h
  obtain ⟨h1, h2, h3, h4⟩ := h
  have h5 : ¬ (ty = "group".toList ∨ ty = "environment".toList ∨ ty = "list".toList) := by rintro (e | e | e) <;> contradiction
  exact .new _ (fun e => absurd e h5) (fun e => absurd e.1 h5) (fun u _ _ ⟨b, hb, _⟩ => absurd hb h4)

theorem single_plain {V X} (cfg : Cfg V X) (p : Parse V X) (st : St V X) (toks : List Tok) {ty : Str} (v : Val) (fs : List (Str × Val)) (e : Nat) (h : ty ∉ ["group", "environment", "list", "text"].map String.toList)
    (ho : ty ∉ ownTypes) : single cfg p false st toks ty v fs e = .ok st.fresh (toks ++ [.mk st.next ty v fs none], (e : Int)) := by
  unfold single
  have : processTok cfg p false st.fresh (newTok st ty v fs) toks = .ok st.fresh (toks ++ [.mk st.next ty v fs none]) := by
    show processTok cfg p false _ (.mk st.next ty v fs none) toks = _
    rw [process_plain cfg _ _ (.mk st.next ty v fs none) toks (show ty ∉ ownTypes from ho)]
    unfold add
    rw [adds_spec (adds_plain toks h)]
  rw [this]
  rfl

/-- Code becomes a token. -/
theorem Acts.code {V X} {cfg : Cfg V X} (ho : SomeOrder cfg.order) (hl : Letters cfg.cmds) {h} {st : St V X} (k : Known cfg h st) (toks : List Tok) (space : Bool) {t : CodeText} (ht : WrittenCode t) (hv : VerbEnds t)
    (hu : ∀ m ∈ ["begin".toList, "verb".toList], ∀ x ∈ h, ¬ Meant x.1 m) (rest : Str) {z : Char} (hz : t.written.getLast? = some z) :
    Acts cfg st toks space (t.written ++ rest) st.fresh ⟨toks ++ [coded st.next t], isSpace z, rest⟩ := by
  refine ⟨0, fun n _ => ?_⟩
  obtain ⟨⟨h1, f, h2⟩, _⟩ := reach_code ho hl (parse cfg n) n k toks space ht hv hu rest
  obtain ⟨tok, h3, h4, h5, h6⟩ := Code.C59_code t ht rest
  rw [h1]
  unfold actHandlers
  rw [h2]
  unfold Psr.code
  rw [h3]
  simp only [orElse]
  rw [single_plain cfg _ st toks _ _ _ (by decide +kernel) (by decide +kernel)]
  simp only [Res.bind]
  rw [move_ok _ _ _ _ _ rfl, endsBlank_last' _ hz, h4, h5, h6]
  congr 3
  unfold coded
  congr 1
  cases t.title <;> cases t.inline <;> rfl

/-! ## Environments -/

/-- What is done with the token of an environment, if there is one. -/
def EnvDone {V X} (cfg : Cfg V X) (st : St V X) (toks : List Tok) (st' : St V X) (toks' : List Tok) : Option EnvT.BTok → Prop
  | none => st' = st ∧ toks' = toks
  | some t => Processes cfg true st.fresh (placed st.next t) toks st' toks'

/-- What the handler of environments returns, as a step. -/
theorem acts_environment {V X} {cfg : Cfg V X} {st st' : St V X} {toks toks' : List Tok} {space : Bool} {s x rest : Str} {z : Char} {envs : Dict Envs.EnvDef} {o : Option EnvT.BTok} (hs : s = x ++ rest)
    (hz : x.getLast? = some z) (h1 : ∀ n, actAt cfg (parse cfg n) n .default st toks space s = actHandlers cfg (parse cfg n) n .default st toks space s)
    (h2 : ∀ n, ∃ f, handlers cfg (parse cfg n) n st toks s = orElse (environment cfg (parse cfg n) st toks s) f) (ha : envAccepts s = true) (hh : EnvT.handle cfg.cmds.alpha st.env s = .ok envs o x.length)
    (hp : EnvDone cfg { st with env := { st.env with envs := envs } } toks st' toks' o) :
    Acts cfg st toks space s st' ⟨toks', isSpace z, rest⟩ := by
  cases o with
  | none =>
    obtain ⟨rfl, rfl⟩ := hp
    refine ⟨0, fun n _ => ?_⟩
    obtain ⟨f, hf⟩ := h2 n
    rw [h1]
    unfold actHandlers
    rw [hf]
    unfold environment
    rw [if_pos ha, hh]
    simp only [orElse, Res.bind]
    rw [hs, move_ok _ _ _ _ _ rfl, endsBlank_last' _ hz]
  | some t =>
    obtain ⟨N, hp⟩ := hp
    refine ⟨N, fun n hle => ?_⟩
    obtain ⟨f, hf⟩ := h2 n
    rw [h1]
    unfold actHandlers
    rw [hf]
    unfold environment
    rw [if_pos ha, hh]
    simp only [orElse, single]
    rw [show processTok cfg (parse cfg n) true (St.fresh { st with env := { st.env with envs := envs } }) (newTok { st with env := { st.env with envs := envs } } t.type (.str t.content) _) toks = _ from hp n hle]
    simp only [Res.bind]
    rw [hs, move_ok _ _ _ _ _ rfl, endsBlank_last' _ hz]

theorem acts_begin {V X} {cfg : Cfg V X} (ho : SomeOrder cfg.order) (hl : Letters cfg.cmds) {h} {st st' : St V X} (k : Known cfg h st) {toks toks' : List Tok} (space : Bool) {name b mid e rest : Str}
    {o : Option EnvT.BTok} (hb : IsDelim "\\begin".toList name b) (he : IsDelim "\\end".toList name e) (hn : '}' ∉ name) (hpl : Plainly name) (hu : ∀ x ∈ h, ¬ Meant x.1 "begin".toList)
    (hh : EnvT.handle cfg.cmds.alpha st.env (b ++ mid ++ e ++ rest) = .ok st.env.envs o (b ++ mid ++ e).length)
    (hp : EnvDone cfg st toks st' toks' o) :
    Acts cfg st toks space (b ++ (mid ++ (e ++ rest))) st' ⟨toks', false, rest⟩ := by
  obtain ⟨ws, hws, rfl⟩ := hb
  obtain ⟨ws', _, rfl⟩ := he
  have eT : "\\begin".toList ++ ws ++ '{' :: (name ++ ['}']) ++ (mid ++ ("\\end".toList ++ ws' ++ '{' :: (name ++ ['}']) ++ rest)) =
      beginText ws name (mid ++ ("\\end".toList ++ ws' ++ '{' :: (name ++ ['}']) ++ rest)) := by unfold beginText; simp
  have eL : beginText ws name (mid ++ ("\\end".toList ++ ws' ++ '{' :: (name ++ ['}']) ++ rest)) = ("\\begin".toList ++ ws ++ '{' :: (name ++ ['}']) ++ mid ++ ("\\end".toList ++ ws' ++ '{' :: (name ++ ['}']))) ++ rest := by
    unfold beginText; simp
  rw [eT]
  refine acts_environment (z := '}') eL (by simp [List.getLast?_append, List.getLast?_cons]) (fun n => reach_begin hl _ n k toks space hws hu) (fun n => begin_handlers cfg ho _ n st toks hws hn hpl) ?_
    (by rw [eL]; exact hh) hp
  unfold envAccepts EnvT.envMatch
  rw [show Envs.matchBegin (beginText ws name _) = _ from EnvT.matchBegin_hit ws name _ hws hn]
  rfl

/-- A comment leaves nothing. -/
theorem Acts.comment {V X} {cfg : Cfg V X} (ho : SomeOrder cfg.order) (hl : Letters cfg.cmds) {h} {st : St V X} (k : Known cfg h st) (toks : List Tok) (space : Bool) {b inner e : Str} (rest : Str)
    (hb : IsDelim "\\begin".toList "comment".toList b) (he : IsDelim "\\end".toList "comment".toList e) (hbody : EnvBody "comment".toList inner) (hu : ∀ x ∈ h, ¬ Meant x.1 "begin".toList) :
    Acts cfg st toks space (b ++ (inner ++ (e ++ rest))) st ⟨toks, false, rest⟩ :=
  acts_begin (o := none) ho hl k space hb he (by decide) (show Plainly "comment".toList by unfold Plainly; decide +kernel) hu (EnvT.C55_comment _ _ b inner e rest hbody hb he) ⟨rfl, rfl⟩

/-- The environment `\begin{name} … \end{name}` with this text in it, defined by the user to be `d`, stands for `text`. -/
structure _root_.L2J.Spec.StandsForEnv (d : EnvDefine) (u : EnvUse) (text : Str) : Prop where
  fits : u.Fits d
  body : EnvBody d.name u.inner
  text : ∃ bc ec, Filled d.beginCode (u.arguments d) bc ∧ Filled d.endCode (u.arguments d) ec ∧ text = bc ++ ['\n'] ++ u.trimmed ++ ['\n'] ++ ec

/-- The environment with this name is defined to be `d`. -/
def _root_.L2J.Spec.DefinedEnv (s : EnvT.St) (d : EnvDefine) : Prop := Dict.get? s.envs d.name = some ⟨d.beginCode, d.endCode, d.count, d.defaults⟩

theorem handle_userEnv (alpha : Char → Bool) (st : EnvT.St) {d : EnvDefine} {u : EnvUse} {text : Str} (hd : DefinedEnv st d) (hu : StandsForEnv d u text)
    {r : EnvRow} (hr : Describes r d.name) (hname : '\\' ∉ d.name ∧ '}' ∉ d.name ∧ strip d.name = d.name ∧ d.name ≠ "comment".toList) (b e post : Str) (hb : IsDelim "\\begin".toList d.name b) (he : IsDelim "\\end".toList d.name e) :
    EnvT.handle alpha st (b ++ u.inner ++ e ++ post) = .ok st.envs (some ⟨r.type.toList, d.name, false, none, [], text⟩) (b ++ u.inner ++ e).length := by
  have ht := EnvT.tryMatch_env d.name u.inner b e post ⟨hname.1, hname.2.1, hname.2.2.1⟩ hu.body hb he
  obtain ⟨x, hx⟩ := EnvT.begin_shape d.name b hb
  unfold EnvT.handle
  rw [show Envs.matchNew (b ++ u.inner ++ e ++ post) = none by rw [hx]; simp only [List.append_assoc]; exact EnvT.matchNew_begin _, ht]
  simp only
  rw [if_neg hname.2.2.2]
  unfold EnvT.envToken
  rw [hd]
  obtain ⟨bc, ec, h1, h2, rfl⟩ := hu.text
  obtain ⟨bc', ec', h3, h4, h5⟩ := Envs.expand_spec alpha st.envs d u hu.fits hd
  obtain rfl := filled_eq h1 h3
  obtain rfl := filled_eq h2 h4
  simp only [h5]
  rw [(EnvT.described r _ hr).1]

/-! ## Definitions of environments, groups and pairs -/

/-- The first word of a text that is for the handler of environments. -/
def envWord (w : Str) : Bool := passes w && notContents w && clearOf (packageHeads ++ ["\\verb", "\\item", "\\tabular"]) w && clearOf authorHeads (w.map lowerChar)

theorem beging {s t : Str} (hs : s = "\\begin".toList ++ 'g' :: t) :
    NoPicture s ∧ tableRe.matchAt [] s = none ∧ (∀ m, Code.delimAt "\\begin".toList m s = none) ∧ ¬ OpensFormula s := by
  subst hs
  have key : ∀ {R : Re}, Dead R ('g' :: t) → (∀ c u, isSpace c = true → Dead R (c :: u)) → Dead (.seq (.lit "\\begin".toList) (.seq (.star reSpace) R)) ("\\begin".toList ++ 'g' :: t) := by
    intro R hR hb
    exact Dead.after_lit (t := "\\begin".toList) (Dead.spaces (ws := []) (by simp) (by simp; decide) hb hR)
  have brace : ∀ {R : Re}, Dead (.seq (.lit ['{']) R) ('g' :: t) := fun {R} => Dead.seq (Dead.char (by simp))
  refine ⟨⟨?_, ?_⟩, ?_, ?_, ?_⟩
  · exact (show Dead overpicRe _ from key (R := .lit "{overpic}".toList) (Dead.lit (by rintro ⟨u, hu⟩; simp at hu)) (fun c u hc => Dead.lit fun ⟨v, hv⟩ => by
      simp at hv; exact absurd hc (by rw [← hv.1]; decide))).matchAt []
  · exact (show Dead pictureRe _ from key (R := .seq (.lit ['{']) pictureNames) brace (fun c t hc => brace_space c t hc)).matchAt []
  · exact (show Dead tableRe _ from Dead.alt (key (R := .seq (.lit ['{']) tableNames) brace (fun c t hc => brace_space c t hc)) (Dead.seq (Dead.lit fun ⟨u, hu⟩ => by simp at hu))).matchAt []
  · intro m
    rfl
  · rintro (⟨u, hu⟩ | ⟨u, hu⟩ | ⟨u, hu⟩ | ⟨n, _, w, star, hw, u, hu⟩)
    · simp at hu
    · simp at hu
    · simp at hu
    · have e : w ++ '{' :: (n.toList ++ ((if star then ['*'] else []) ++ '}' :: u)) = 'g' :: t := by
        simp only [tag, List.append_assoc, List.cons_append, List.nil_append] at hu
        exact List.append_cancel_left hu
      cases w with
      | nil => simp at e
      | cons a w => simp at e; exact absurd (hw a (by simp)) (by rw [e.1]; decide)

theorem notFormula_word {w x : Str} (h : ¬ "\\begin".toList <+: '\\' :: (w ++ x)) (hw : ∀ c ∈ w, isLetter c = true) (hne : w ≠ []) : ¬ OpensFormula ('\\' :: (w ++ x)) := by
  cases w with
  | nil => exact absurd rfl hne
  | cons a w =>
    have ha := hw a (by simp)
    rintro (⟨u, hu⟩ | ⟨u, hu⟩ | ⟨u, hu⟩ | ⟨m, _, w', star, _, u, hu⟩)
    · simp at hu
    · simp at hu; exact absurd ha (by rw [← hu.1]; decide)
    · simp at hu; exact absurd ha (by rw [← hu.1]; decide)
    · exact h ⟨_, by rw [← hu, tag, List.append_assoc, List.append_assoc]⟩

/-- A word comes to the handler of environments. -/
theorem reach_envWord {V X} {cfg : Cfg V X} (ho : SomeOrder cfg.order) (hl : Letters cfg.cmds) (p : Parse V X) (n : Nat) {h} {st : St V X} (k : Known cfg h st) (toks : List Tok) (space : Bool) {w x : Str}
    (hw : envWord w = true) (hx : ∀ a ∈ x.head?, isNameChar a = false ∧ oddLetter a = false) (hu : ∀ y ∈ h, ¬ Meant y.1 w) (hb : clearOf ["\\begin"] w = true ∨ ∃ t, '\\' :: (w ++ x) = "\\begin".toList ++ 'g' :: t) :
    actAt cfg p n .default st toks space ('\\' :: (w ++ x)) = actHandlers cfg p n .default st toks space ('\\' :: (w ++ x)) ∧
      ∃ f, handlers cfg p n st toks ('\\' :: (w ++ x)) = orElse (environment cfg p st toks ('\\' :: (w ++ x))) f := by
  simp only [envWord, Bool.and_eq_true] at hw
  obtain ⟨⟨⟨h1, h2⟩, h3⟩, h4⟩ := hw
  have hne : NameEnds x := fun a ha => (hx a ha).1
  have hod := fun a ha => (hx a ha).2
  have hlet : w ≠ [] ∧ ∀ c ∈ w, isLetter c = true := by
    unfold passes at h1
    simp only [Bool.and_eq_true, Bool.not_eq_true'] at h1
    exact ⟨(by rintro rfl; exact absurd h1.1.1.1.1 (by decide)), fun c hc => List.all_eq_true.1 h1.1.1.1.2 c hc⟩
  have hc := clear_spec h3 hne
  have hcont : content cfg p st toks ('\\' :: (w ++ x)) = none := content_none cfg p st toks (.inl ⟨hlet.1, hlet.2, hne⟩) (notContents_spec h2 hod)
  obtain ⟨b1, b2, b3, b4⟩ : NoPicture ('\\' :: (w ++ x)) ∧ tableRe.matchAt [] ('\\' :: (w ++ x)) = none ∧ (∀ m, Code.delimAt "\\begin".toList m ('\\' :: (w ++ x)) = none) ∧ ¬ OpensFormula ('\\' :: (w ++ x)) := by
    rcases hb with hb | ⟨t, ht⟩
    · have hb' : ¬ "\\begin".toList <+: '\\' :: (w ++ x) := not_word (clear_spec hb hne) (by decide +kernel)
      exact ⟨noPicture_word hb', table_none (not_word hc (by decide +kernel)) hb', fun m => delimAt_none hb', notFormula_word hb' hlet.2 hlet.1⟩
    · exact beging ht
  refine ⟨actAt_passed hl p n .default k toks space (passes_spec h1 hne hu), ?_⟩
  refine ⟨?_, ?_⟩
  rotate_left
  · unfold handlers
    rw [package_none (Without.sub hc fun v hv => List.mem_append_left _ hv) b1, author_none cfg p st toks (author_word h4 hne hod), equation_none cfg ho p n st toks b4,
      code_none cfg p st toks (not_word hc (by decide +kernel)) (fun m _ => b3 m), item_none cfg p st toks (not_word hc (by decide +kernel)), hcont, b2]
    rfl

/-- The names that define environments. -/
def _root_.L2J.Spec.envDefineNames : List Str := ["newenvironment", "renewenvironment", "provideenvironment"].map String.toList

theorem define_words : ∀ w ∈ "bgroup".toList :: envDefineNames, envWord w = true ∧ clearOf ["\\begin"] w = true := by decide +kernel
theorem begingroup_word : envWord "begingroup".toList = true := by decide +kernel

theorem kw_word (d : EnvDefine) : ∃ w, w ∈ envDefineNames ∧ ∃ star, (star = [] ∨ star = ['*']) ∧ d.kw = '\\' :: (w ++ star) := by
  have hs : (if d.star then ['*'] else []) = ([] : Str) ∨ (if d.star then ['*'] else []) = ['*'] := by cases d.star <;> simp
  unfold EnvDefine.kw
  match d.keyword with
  | 0 => exact ⟨"newenvironment".toList, .head _, _, hs, rfl⟩
  | 1 => exact ⟨"renewenvironment".toList, .tail _ (.head _), _, hs, rfl⟩
  | 2 => exact ⟨"provideenvironment".toList, .tail _ (.tail _ (.head _)), _, hs, rfl⟩

theorem envRender_last (d : EnvDefine) : d.render.getLast? = some '}' := by
  unfold EnvDefine.render wrapAll wrapAll wrapAll
  simp [List.getLast?_append, List.getLast?_cons]

/-- The definition of an environment is learned and leaves nothing. -/
theorem Acts.newEnv {V X} {cfg : Cfg V X} (ho : SomeOrder cfg.order) (hl : Letters cfg.cmds) {h} {st : St V X} (k : Known cfg h st) (toks : List Tok) (space : Bool) {d : EnvDefine} (hd : d.Ok) (rest : Str)
    (hu : ∀ m ∈ envDefineNames, ∀ x ∈ h, ¬ Meant x.1 m) :
    Acts cfg st toks space (d.render ++ rest) { st with env := { st.env with envs := Dict.set st.env.envs d.name ⟨d.beginCode, d.endCode, d.count, d.defaults⟩ } } ⟨toks, false, rest⟩ := by
  obtain ⟨w, hw, star, hs, hk⟩ := kw_word d
  obtain ⟨x, hx, hsx⟩ : ∃ x, d.render ++ rest = '\\' :: (w ++ x) ∧ ∀ a ∈ x.head?, isNameChar a = false ∧ oddLetter a = false := by
    unfold EnvDefine.render
    rw [hk]
    refine ⟨star ++ ('{' :: (d.name ++ '}' :: (wrapAll '[' ']' d.brackets ++ wrapAll '{' '}' [([], d.beginCode), ([], d.endCode)])) ++ rest), by simp, ?_⟩
    intro a ha
    rcases hs with rfl | rfl <;> (simp at ha; subst ha; decide)
  have hr := fun n => reach_envWord ho hl (parse cfg n) n k toks space (define_words w (.tail _ hw)).1 hsx (hu w hw) (.inl (define_words w (.tail _ hw)).2)
  have hh : EnvT.handle cfg.cmds.alpha st.env (d.render ++ rest) = .ok (Dict.set st.env.envs d.name ⟨d.beginCode, d.endCode, d.count, d.defaults⟩) none d.render.length :=
    EnvT.C55_agrees _ _ _ _ none _ (Envs.handle_define cfg.cmds.alpha st.env.envs d hd rest)
  have hacc : envAccepts (d.render ++ rest) = true := by
    unfold envAccepts
    have := Envs.matchNew_hit d hd.1 (wrapAll '[' ']' d.brackets ++ wrapAll '{' '}' [([], d.beginCode), ([], d.endCode)] ++ rest)
    rw [show d.kw ++ '{' :: (d.name ++ '}' :: (wrapAll '[' ']' d.brackets ++ wrapAll '{' '}' [([], d.beginCode), ([], d.endCode)] ++ rest)) = d.render ++ rest by unfold EnvDefine.render; simp] at this
    rw [this]
    simp
  rw [← hx] at hr
  exact acts_environment (o := none) (z := '}') rfl (envRender_last d) (fun n => (hr n).1) (fun n => (hr n).2) hacc hh ⟨rfl, rfl⟩

/-- A group of commands becomes a token. -/
theorem Acts.groupCmd {V X} {cfg : Cfg V X} (ho : SomeOrder cfg.order) (hl : Letters cfg.cmds) {h} {st st' : St V X} (k : Known cfg h st) {toks toks' : List Tok} (space : Bool) (g : Bool) {body : Str} (rest : Str)
    (hbody : GroupBody noWord (groupCommands g).1 (groupCommands g).2 body) (hm : MayFollow noWord body) (hp : MayFollow noWord rest)
    (hno : ¬ Contains (body ++ (groupCommands g).2 ++ rest) ("\\end".toList ++ (groupCommands g).1.drop 1)) (hu : ∀ m ∈ ["begingroup".toList, "bgroup".toList], ∀ x ∈ h, ¬ Meant x.1 m)
    (hod : ∀ a ∈ body.head?, isNameChar a = false ∧ oddLetter a = false)
    (hproc : Processes cfg true st.fresh (placed st.next (EnvT.groupToken body)) toks st' toks') :
    Acts cfg st toks space ((groupCommands g).1 ++ (body ++ ((groupCommands g).2 ++ rest))) st' ⟨toks', false, rest⟩ := by
  have hh := EnvT.C55_group cfg.cmds.alpha st.env g body rest hbody hm hp hno
  have hx : ∀ a ∈ (body ++ ((groupCommands g).2 ++ rest)).head?, isNameChar a = false ∧ oddLetter a = false := by
    intro a ha
    cases body with
    | nil => cases g <;> (simp [groupCommands] at ha; subst ha; decide)
    | cons b body => exact hod a (by simpa using ha)
  have hr : ∀ n, actAt cfg (parse cfg n) n .default st toks space ((groupCommands g).1 ++ (body ++ ((groupCommands g).2 ++ rest))) =
      actHandlers cfg (parse cfg n) n .default st toks space ((groupCommands g).1 ++ (body ++ ((groupCommands g).2 ++ rest))) ∧
      ∃ f, handlers cfg (parse cfg n) n st toks ((groupCommands g).1 ++ (body ++ ((groupCommands g).2 ++ rest))) =
        orElse (environment cfg (parse cfg n) st toks ((groupCommands g).1 ++ (body ++ ((groupCommands g).2 ++ rest)))) f := by
    intro n
    cases g with
    | false => exact reach_envWord (w := "begingroup".toList) ho hl (parse cfg n) n k toks space begingroup_word hx (hu _ (by simp)) (.inr ⟨_, rfl⟩)
    | true => exact reach_envWord (w := "bgroup".toList) ho hl (parse cfg n) n k toks space (define_words _ (.head _)).1 hx (hu _ (by simp)) (.inl (define_words _ (.head _)).2)
  have hacc : envAccepts ((groupCommands g).1 ++ (body ++ ((groupCommands g).2 ++ rest))) = true := by
    have := EnvT.groupMatch_hit g (body ++ ((groupCommands g).2 ++ rest)) (by
      cases hb : body with
      | nil => cases g <;> rfl
      | cons b r => exact hm b (by rw [hb]; rfl))
    unfold envAccepts
    rw [this]
    simp
  refine acts_environment (o := some (EnvT.groupToken body)) (z := 'p') (x := (groupCommands g).1 ++ body ++ (groupCommands g).2) (by simp) (by rw [List.getLast?_append]; cases g <;> rfl) (fun n => (hr n).1) (fun n => (hr n).2) hacc
    ?_ hproc
  rw [show (groupCommands g).1 ++ (body ++ ((groupCommands g).2 ++ rest)) = (groupCommands g).1 ++ body ++ (groupCommands g).2 ++ rest by simp]
  exact hh

/-- No definition and none of the handlers before that of environments is for the command `\n`. -/
structure _root_.L2J.Spec.EnvName (h : List (Def × Bool)) (n r : Str) : Prop where
  passed : Passed h n r
  first : NotFirst ('\\' :: (n ++ r))
  content : NotContent n r
  table : ¬ "\\tabular".toList <+: '\\' :: (n ++ r)

/-- An environment written `\n … \endn`. -/
theorem Acts.pair {V X} {cfg : Cfg V X} (ho : SomeOrder cfg.order) (hl : Letters cfg.cmds) {h} {st st' : St V X} (k : Known cfg h st) {toks toks' : List Tok} (space : Bool) {r : EnvRow} {n rest : Str} {u : EnvInner}
    (hn : n ≠ [] ∧ ∀ x ∈ n, isLetter x = true) (hkw : ∀ k ∈ ["newenvironment", "renewenvironment", "provideenvironment"], ¬ k.toList <+: n) (hcom : n ≠ "comment".toList)
    (hpre : ¬ n <+: "end".toList ++ n) (hnew : Dict.get? st.env.envs n = none) (hr : Describes r (goesBy (Dict.get? st.env.thms) n)) (hf : u.Fits r.reqs)
    (hhead : ∀ x ∈ u.render.head?, isWord x = false ∧ x ≠ '@') (hbody : GroupBody (fun _ => true) ('\\' :: n) ("\\end".toList ++ n) u.render)
    (he : EnvName h n (u.render ++ ("\\end".toList ++ n ++ rest)))
    (hp : Processes cfg true st.fresh (placed st.next (envWith (Dict.get? st.env.thms) (Dict.get? st.env.floats) r n u u.untrimmed)) toks st' toks') :
    Acts cfg st toks space ('\\' :: (n ++ (u.render ++ ("\\end".toList ++ n ++ rest)))) st' ⟨toks', false, rest⟩ := by
  have hw : ∀ x ∈ n, isWord x = true := fun x hx => letter_word x (hn.2 x hx)
  have hb : ¬ "begin".toList <+: n := fun ⟨t, ht⟩ => he.first.env ⟨t ++ (u.render ++ ("\\end".toList ++ n ++ rest)), by rw [← ht]; simp⟩
  have hkw' : ∀ k ∈ ["begin", "newenvironment", "renewenvironment", "provideenvironment"], ¬ k.toList <+: n := by
    intro k hk
    rcases List.mem_cons.1 hk with rfl | hk
    · exact hb
    · exact hkw k hk
  have hh := EnvT.C55_pair cfg.cmds.alpha st.env r n rest u hn.1 hw hkw' hcom hpre hnew hr hf hhead hbody
  have es : '\\' :: (n ++ (u.render ++ ("\\end".toList ++ n ++ rest))) = '\\' :: n ++ u.render ++ ("\\end".toList ++ n) ++ rest := by simp
  have hrest : ∀ x ∈ (u.render ++ ("\\end".toList ++ n ++ rest)).head?, isWord x = false ∧ x ≠ '@' := by
    intro x hx
    cases hu : u.render with
    | nil => rw [hu] at hx; simp at hx; subst hx; decide
    | cons y l => rw [hu] at hx hhead; simp at hx; subst hx; exact hhead y rfl
  have hm := EnvT.matchPair_hit n (u.render ++ ("\\end".toList ++ n ++ rest)) hn.1 hw hrest ⟨u.render, rest, by simp only [List.append_assoc]⟩
  have hacc : envAccepts ('\\' :: (n ++ (u.render ++ ("\\end".toList ++ n ++ rest)))) = true := by
    unfold envAccepts EnvT.envMatch
    rw [hm]
    cases Envs.matchBegin ('\\' :: (n ++ (u.render ++ ("\\end".toList ++ n ++ rest)))) <;> rfl
  obtain ⟨z, hz, hz0⟩ : ∃ z, ('\\' :: n ++ u.render ++ ("\\end".toList ++ n)).getLast? = some z ∧ isSpace z = false := by
    cases hl' : n.getLast? with
    | none => exact absurd (List.getLast?_eq_none_iff.1 hl') hn.1
    | some z => exact ⟨z, by rw [List.getLast?_append, List.getLast?_append, hl']; rfl, letter_space (hn.2 z (List.mem_of_getLast? hl'))⟩
  rw [← hz0]
  refine acts_environment (o := some (envWith (Dict.get? st.env.thms) (Dict.get? st.env.floats) r n u u.untrimmed)) (envs := st.env.envs) es hz (fun m => actAt_passed hl _ m .default k toks space he.passed) (fun m => ?_) hacc (by rw [es]; exact hh) hp
  refine ⟨?_, ?_⟩
  rotate_left
  · rw [handlers_first cfg ho _ m st toks he.first, content_none cfg _ st toks he.passed.name he.content, table_none he.table he.first.env]
    rfl

theorem Acts.userEnv {V X} {cfg : Cfg V X} (ho : SomeOrder cfg.order) (hl : Letters cfg.cmds) {h} {st st' : St V X} (k : Known cfg h st) {toks toks' : List Tok} (space : Bool) {d : EnvDefine} {u : EnvUse} {text : Str}
    (hd : DefinedEnv st.env d) (hu : StandsForEnv d u text) {r : EnvRow} (hr : Describes r d.name) (hname : '\\' ∉ d.name ∧ '}' ∉ d.name ∧ strip d.name = d.name ∧ d.name ≠ "comment".toList) (hpl : Plainly d.name)
    {b e : Str} (rest : Str) (hb : IsDelim "\\begin".toList d.name b) (he : IsDelim "\\end".toList d.name e) (hm : ∀ x ∈ h, ¬ Meant x.1 "begin".toList)
    (hp : Processes cfg true st.fresh (placed st.next ⟨r.type.toList, d.name, false, none, [], text⟩) toks st' toks') :
    Acts cfg st toks space (b ++ (u.inner ++ (e ++ rest))) st' ⟨toks', false, rest⟩ :=
  acts_begin (o := some _) ho hl k space hb he hname.2.1 hpl hm (handle_userEnv _ _ hd hu hr hname b e rest hb he) hp

end L2J.Psr
