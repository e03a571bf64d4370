import Verif.Props.C65h
/-! C65: environments and items. -/
namespace L2J.Psr
open Cmds Defn L2J.Spec
open Pre (not_word Without.sub)

/-- The environments that are not for the handler of environments: pictures, code, tables and formulas. -/
def _root_.L2J.Spec.specialEnvs : List String :=
  ["overpic", "tikzpicture", "picture", "pgfpicture", "verbatim", "lstlisting", "tabular", "longtable", "tabularx", "tabulary"] ++ formulaEnvs

/-- An environment that is none of them, starred or not. -/
def _root_.L2J.Spec.Plainly (name : Str) : Prop := ∀ v ∈ specialEnvs, name ≠ v.toList ∧ name ≠ v.toList ++ ['*']

theorem special_ok : (specialEnvs.all fun v => v.toList.all fun c => c != '}' && c != '*') = true := by decide +kernel

/-- `\begin` of an environment. -/
def beginText (ws name r : Str) : Str := "\\begin".toList ++ (ws ++ '{' :: (name ++ '}' :: r))

theorem braces_eq {n name r : Str} (hn : '}' ∉ n) (hm : '}' ∉ name) (h : n ++ ['}'] <+: name ++ '}' :: r) : n = name := by
  obtain ⟨t, h⟩ := h
  have h := congrArg (List.takeWhile (· != '}')) h
  have key : ∀ (a b : Str), '}' ∉ a → (a ++ '}' :: b).takeWhile (· != '}') = a := by
    intro a b ha
    induction a with
    | nil => rfl
    | cons c a ih =>
      simp at ha
      rw [List.cons_append, List.takeWhile_cons, if_pos (by simpa using fun e => ha.1 e.symm), ih ha.2]
  rw [List.append_assoc, show ['}'] ++ t = '}' :: t from rfl, key n t hn, key name r hm] at h
  exact h

theorem begin_dead {R : Re} {ws name r : Str} (hws : Blank ws) (h : Dead R ('{' :: (name ++ '}' :: r))) (hb : ∀ c t, isSpace c = true → Dead R (c :: t)) :
    Dead (.seq (.lit "\\begin".toList) (.seq (.star reSpace) R)) (beginText ws name r) :=
  Dead.after_lit (t := "\\begin".toList) (Dead.spaces hws (by simp; decide) hb h)

theorem brace_space {R : Re} (c : Char) (t : Str) (h : isSpace c = true) : Dead (.seq (.lit ['{']) R) (c :: t) :=
  Dead.seq (Dead.char (by simp; rintro rfl; exact absurd h (by decide)))

theorem name_dead {ws : List String} {name r : Str} (hn : '}' ∉ name) (hp : ∀ v ∈ ws, '}' ∉ v.toList) (h : ∀ v ∈ ws, name ≠ v.toList ∧ name ≠ v.toList ++ ['*']) (R : Re)
    (hR : ∀ rev s g, R.run ⟨rev, s, g⟩ ≠ [] → ∃ v ∈ ws, (v.toList ++ ['}'] <+: s) ∨ (v.toList ++ ['*', '}'] <+: s)) : Dead R (name ++ '}' :: r) := by
  intro rev g
  refine Classical.byContradiction fun hne => ?_
  obtain ⟨v, hv, hh⟩ := hR rev _ g hne
  have hvb := hp v hv
  rcases hh with hh | hh
  · exact (h v hv).1 (braces_eq hvb hn hh).symm
  · exact (h v hv).2 (braces_eq (n := v.toList ++ ['*']) (by simp [hvb]) hn (by simpa using hh)).symm

theorem special_close {v : String} (hv : v ∈ specialEnvs) : '}' ∉ v.toList := fun hc => by
  have := List.all_eq_true.1 (List.all_eq_true.1 special_ok v hv) _ hc; simp at this

/-- The names between the braces. -/
def pictureNames : Re := .seq (.alt (.lit "tikzpicture".toList) (.alt (.lit "picture".toList) (.lit "pgfpicture".toList))) (.lit ['}'])
def tableNames : Re := .seq (.alt (.lit "tabular".toList) (.alt (.lit "longtable".toList) (.alt (.lit "tabularx".toList) (.lit "tabulary".toList)))) (.seq (.opt (.lit ['*'])) (.lit ['}']))

theorem close_inv {x : MSt} (h : (Re.lit ['}']).run x ≠ []) : ∃ t, x.rest = '}' :: t := by
  obtain ⟨x1, x2, x3⟩ := x
  rw [Re.run_lit] at h
  split at h
  · rename_i hp
    obtain ⟨t, ht⟩ := List.isPrefixOf_iff_prefix.1 hp
    exact ⟨t, ht.symm⟩
  · exact absurd rfl h

theorem pictureNames_inv (rev s : Str) (g) (hne : pictureNames.run ⟨rev, s, g⟩ ≠ []) :
    ∃ v ∈ ["tikzpicture", "picture", "pgfpicture"], (v.toList ++ ['}'] <+: s) ∨ (v.toList ++ ['*', '}'] <+: s) := by
  obtain ⟨x, hx, h2⟩ := run_seq_ne hne
  obtain ⟨t, ht⟩ := close_inv h2
  have fin : ∀ v : String, s = v.toList ++ x.rest → (v.toList ++ ['}'] <+: s) ∨ (v.toList ++ ['*', '}'] <+: s) := by
    intro v e
    exact .inl ⟨t, by rw [e, ht]; simp⟩
  have hx : x ∈ (Re.lit "tikzpicture".toList).run ⟨rev, s, g⟩ ∨ x ∈ (Re.lit "picture".toList).run ⟨rev, s, g⟩ ∨ x ∈ (Re.lit "pgfpicture".toList).run ⟨rev, s, g⟩ := by
    rcases List.mem_append.1 hx with hx | hx
    · exact .inl hx
    · exact .inr (List.mem_append.1 hx)
  rcases hx with hx | hx | hx
  · exact ⟨_, .head _, fin _ (Fmt.lit_inv hx).1⟩
  · exact ⟨_, .tail _ (.head _), fin _ (Fmt.lit_inv hx).1⟩
  · exact ⟨_, .tail _ (.tail _ (.head _)), fin _ (Fmt.lit_inv hx).1⟩

theorem tableNames_inv (rev s : Str) (g) (hne : tableNames.run ⟨rev, s, g⟩ ≠ []) :
    ∃ v ∈ ["tabular", "longtable", "tabularx", "tabulary"], (v.toList ++ ['}'] <+: s) ∨ (v.toList ++ ['*', '}'] <+: s) := by
  obtain ⟨x, hx, h2⟩ := run_seq_ne hne
  obtain ⟨y, hy, h3⟩ := run_seq_ne h2
  obtain ⟨t, ht⟩ := close_inv h3
  have hs : x.rest = '}' :: t ∨ x.rest = '*' :: '}' :: t := by
    rcases List.mem_append.1 hy with hy | hy
    · have e := (Fmt.lit_inv hy).1
      rw [ht] at e; exact .inr e
    · rw [List.mem_singleton.1 hy] at ht; exact .inl ht
  have fin : ∀ v : String, s = v.toList ++ x.rest → (v.toList ++ ['}'] <+: s) ∨ (v.toList ++ ['*', '}'] <+: s) := by
    intro v e
    rcases hs with ht | ht
    · exact .inl ⟨t, by rw [e, ht]; simp⟩
    · exact .inr ⟨t, by rw [e, ht]; simp⟩
  have hx : x ∈ (Re.lit "tabular".toList).run ⟨rev, s, g⟩ ∨ x ∈ (Re.lit "longtable".toList).run ⟨rev, s, g⟩ ∨ x ∈ (Re.lit "tabularx".toList).run ⟨rev, s, g⟩ ∨
      x ∈ (Re.lit "tabulary".toList).run ⟨rev, s, g⟩ := by
    rcases List.mem_append.1 hx with hx | hx
    · exact .inl hx
    · rcases List.mem_append.1 hx with hx | hx
      · exact .inr (.inl hx)
      · exact .inr (.inr (List.mem_append.1 hx))
  rcases hx with hx | hx | hx | hx
  · exact ⟨_, .head _, fin _ (Fmt.lit_inv hx).1⟩
  · exact ⟨_, .tail _ (.head _), fin _ (Fmt.lit_inv hx).1⟩
  · exact ⟨_, .tail _ (.tail _ (.head _)), fin _ (Fmt.lit_inv hx).1⟩
  · exact ⟨_, .tail _ (.tail _ (.tail _ (.head _))), fin _ (Fmt.lit_inv hx).1⟩

theorem some_special : (∀ v ∈ ["tikzpicture", "picture", "pgfpicture"], v ∈ specialEnvs) ∧ (∀ v ∈ ["tabular", "longtable", "tabularx", "tabulary"], v ∈ specialEnvs) ∧ "overpic" ∈ specialEnvs := by
  refine ⟨?_, ?_, ?_⟩ <;> decide +kernel

/-- The environments for pictures. -/
def pictureEnvs : List String := ["overpic", "tikzpicture", "picture", "pgfpicture"]

theorem some_picture : (∀ v ∈ ["tikzpicture", "picture", "pgfpicture"], v ∈ pictureEnvs ∧ '}' ∉ v.toList) ∧ "overpic" ∈ pictureEnvs ∧ ∀ v ∈ pictureEnvs, v ∈ specialEnvs := by
  refine ⟨?_, ?_, ?_⟩ <;> decide +kernel

theorem begin_picture' {ws name r : Str} (hws : Blank ws) (hn : '}' ∉ name) (h : ∀ v ∈ pictureEnvs, name ≠ v.toList ∧ name ≠ v.toList ++ ['*']) : NoPicture (beginText ws name r) := by
  have h1 : Dead overpicRe (beginText ws name r) := begin_dead (R := .lit "{overpic}".toList) hws (Dead.lit fun hp => by
      obtain ⟨u, hu⟩ := hp
      exact (h "overpic" some_picture.2.1).1 (braces_eq (n := "overpic".toList) (by decide) hn ⟨u, by simpa using hu⟩).symm) (fun c t hc => Dead.lit fun ⟨u, hu⟩ => by
      simp at hu; exact absurd hc (by rw [← hu.1]; decide))
  have h2 : Dead pictureNames (name ++ '}' :: r) := name_dead hn (fun v hv => (some_picture.1 v hv).2) (fun v hv => h v (some_picture.1 v hv).1) pictureNames pictureNames_inv
  have h3 : Dead pictureRe (beginText ws name r) := begin_dead (R := .seq (.lit ['{']) pictureNames) hws (Dead.after_lit (t := ['{']) h2) (fun c t hc => brace_space c t hc)
  exact ⟨h1.matchAt [], h3.matchAt []⟩

theorem begin_picture {ws name r : Str} (hws : Blank ws) (hn : '}' ∉ name) (h : Plainly name) : NoPicture (beginText ws name r) :=
  begin_picture' hws hn fun v hv => h v (some_picture.2.2 v hv)

theorem begin_table {ws name r : Str} (hws : Blank ws) (hn : '}' ∉ name) (h : Plainly name) : tableRe.matchAt [] (beginText ws name r) = none := by
  have h2 : Dead tableNames (name ++ '}' :: r) := name_dead hn (fun v hv => special_close (some_special.2.1 v hv)) (fun v hv => h v (some_special.2.1 v hv)) tableNames tableNames_inv
  have h3 : Dead (.seq (.lit "\\begin".toList) (.seq (.star reSpace) (.seq (.lit ['{']) tableNames))) (beginText ws name r) :=
    begin_dead (R := .seq (.lit ['{']) tableNames) hws (Dead.after_lit (t := ['{']) h2) (fun c t hc => brace_space c t hc)
  have h4 : Dead tableRe (beginText ws name r) := Dead.alt h3 (Dead.seq (Dead.lit fun ⟨u, hu⟩ => by simp [beginText] at hu))
  exact h4.matchAt []

theorem begin_formula' {ws name r : Str} (hws : Blank ws) (hn : '}' ∉ name) (h : ∀ v ∈ formulaEnvs, name ≠ v.toList ∧ name ≠ v.toList ++ ['*']) : ¬ OpensFormula (beginText ws name r) := by
  rintro (⟨u, hu⟩ | ⟨u, hu⟩ | ⟨u, hu⟩ | ⟨n, hmem, w, star, hw, u, hu⟩)
  · simp [beginText] at hu
  · simp [beginText] at hu
  · simp [beginText] at hu
  · have hv : n ∈ specialEnvs := List.mem_append_right _ hmem
    have hok := List.all_eq_true.1 (List.all_eq_true.1 special_ok n hv)
    have hvb : '}' ∉ n.toList := fun hc => by have := hok _ hc; simp at this
    have e : w ++ '{' :: (n.toList ++ ((if star then ['*'] else []) ++ '}' :: u)) = ws ++ '{' :: (name ++ '}' :: r) := by
      have := hu
      simp only [tag, beginText, List.append_assoc, List.cons_append, List.nil_append] at this
      exact List.append_cancel_left this
    have e2 := congrArg (List.dropWhile isSpace) e
    rw [(takeWhile_blank _ hw).2, (takeWhile_blank _ hws).2] at e2
    have e2 : '{' :: (n.toList ++ ((if star then ['*'] else []) ++ '}' :: u)) = '{' :: (name ++ '}' :: r) := e2
    have e2 := (List.cons.inj e2).2
    cases star with
    | false => exact (h n hmem).1 (braces_eq hvb hn ⟨u, by simpa using e2⟩).symm
    | true => exact (h n hmem).2 (braces_eq (n := n.toList ++ ['*']) (by simp [hvb]) hn ⟨u, by simpa using e2⟩).symm

theorem begin_formula {ws name r : Str} (hws : Blank ws) (hn : '}' ∉ name) (h : Plainly name) : ¬ OpensFormula (beginText ws name r) :=
  begin_formula' hws hn fun v hv => h v (List.mem_append_right _ hv)

theorem begin_author {ws name r : Str} (hws : Blank ws) : NoAuthor (beginText ws name r) := by
  obtain ⟨hne, hod⟩ := blank_head (s := name ++ '}' :: r) (c := '{') hws (by decide)
  unfold NoAuthor
  rw [beginText, show "\\begin".toList ++ (ws ++ '{' :: (name ++ '}' :: r)) = '\\' :: ("begin".toList ++ (ws ++ '{' :: (name ++ '}' :: r))) from rfl, List.map_cons, List.map_append]
  exact clear_spec (show clearOf authorHeads ("begin".toList.map lowerChar) = true by decide +kernel) (fun c hc => by
    rw [List.head?_map] at hc
    cases hh : (ws ++ '{' :: (name ++ '}' :: r)).head? with
    | none => rw [hh] at hc; cases hc
    | some d =>
      rw [hh] at hc
      obtain rfl : lowerChar d = c := by simpa using hc
      rw [lower_name (hne d hh) (hod d hh)]; exact hne d hh)

theorem begin_code {ws name r : Str} (hws : Blank ws) (hn : '}' ∉ name) (h : Plainly name) : ∀ n ∈ ["verbatim".toList, "lstlisting".toList], Code.delimAt "\\begin".toList n (beginText ws name r) = none := by
  intro n hm
  have hv : ∃ v : String, v.toList = n ∧ v ∈ specialEnvs := by
    simp only [List.mem_cons, List.not_mem_nil, or_false] at hm
    rcases hm with rfl | rfl
    · exact ⟨_, rfl, by decide +kernel⟩
    · exact ⟨_, rfl, by decide +kernel⟩
  obtain ⟨v, rfl, hv⟩ := hv
  have hok := List.all_eq_true.1 (List.all_eq_true.1 special_ok v hv)
  have hvb : '}' ∉ v.toList := fun hc => by have := hok _ hc; simp at this
  unfold Code.delimAt
  have e : (beginText ws name r).drop "\\begin".toList.length = ws ++ '{' :: (name ++ '}' :: r) := rfl
  rw [e, (takeWhile_blank _ hws).2, show List.dropWhile isSpace ('{' :: (name ++ '}' :: r)) = '{' :: (name ++ '}' :: r) from rfl]
  simp only
  rw [EnvT.startsWith_false (s := name ++ '}' :: r) (fun hp => (h v hv).1 (braces_eq hvb hn hp).symm)]
  simp

theorem begin_words : passes "begin".toList = true ∧ notContents "begin".toList = true ∧ notLayouts "begin".toList = true ∧
    clearOf (packageHeads ++ ["\\verb", "\\item"]) "begin".toList = true ∧ clearOf authorHeads ("begin".toList.map lowerChar) = true := by
  refine ⟨?_, ?_, ?_, ?_, ?_⟩ <;> decide +kernel

theorem begin_word (ws name r : Str) : beginText ws name r = '\\' :: ("begin".toList ++ (ws ++ '{' :: (name ++ '}' :: r))) := rfl

theorem begin_handlers {V X} (cfg : Cfg V X) (ho : SomeOrder cfg.order) (p : Parse V X) (n : Nat) (st : St V X) (toks : List Tok) {ws name r : Str} (hws : Blank ws) (hn : '}' ∉ name) (h : Plainly name) :
    ∃ f, handlers cfg p n st toks (beginText ws name r) = orElse (environment cfg p st toks (beginText ws name r)) f := by
  obtain ⟨hne, hod⟩ := blank_head (s := name ++ '}' :: r) (c := '{') hws (by decide)
  have hc := clear_spec begin_words.2.2.2.1 hne
  rw [← begin_word] at hc
  have hp : Without packageHeads (beginText ws name r) := Without.sub hc fun v hv => List.mem_append_left _ hv
  have ha : NoAuthor (beginText ws name r) := by
    unfold NoAuthor
    rw [begin_word, List.map_cons, List.map_append]
    exact clear_spec begin_words.2.2.2.2 (fun c hc => by
      rw [List.head?_map] at hc
      cases hh : (ws ++ '{' :: (name ++ '}' :: r)).head? with
      | none => rw [hh] at hc; cases hc
      | some d =>
        rw [hh] at hc
        obtain rfl : lowerChar d = c := by simpa using hc
        rw [lower_name (hne d hh) (hod d hh)]; exact hne d hh)
  have hl := notLayouts_spec begin_words.2.2.1 hne hod
  have hcont : content cfg p st toks (beginText ws name r) = none :=
    content_none cfg p st toks (.inl ⟨by decide, by decide, hne⟩) (notContents_spec begin_words.2.1 hod)
  refine ⟨orElse (forLoop st toks (beginText ws name r)) <| orElse (style cfg p st toks (beginText ws name r)) <| orElse (formatting cfg p st toks (beginText ws name r)) <|
    diacritics cfg p st toks (beginText ws name r), ?_⟩
  unfold handlers
  rw [package_none hp (begin_picture hws hn h), author_none cfg p st toks ha, equation_none cfg ho p n st toks (begin_formula hws hn h),
    code_none cfg p st toks (not_word hc (by decide +kernel)) (begin_code hws hn h), item_none cfg p st toks (not_word hc (by decide +kernel)), hcont, begin_table hws hn h]
  rfl

theorem endsBlank_last' (b : Bool) {x : Str} {z : Char} (h : x.getLast? = some z) : endsBlank b x = isSpace z := by unfold endsBlank; rw [h]

/-- The token of an environment. -/
def _root_.L2J.Spec.placed (id : Nat) (t : EnvT.BTok) : Tok :=
  .mk id t.type (.str t.content) ([("name".toList, .str t.name)] ++ (if t.numbered then [("numbered".toList, .flag true)] else []) ++ optField "title" (t.title.map .str) ++
    (if t.args.isEmpty then [] else [("args".toList, .strs t.args)])) none

theorem acts_env {V X} {cfg : Cfg V X} (ho : SomeOrder cfg.order) (hl : Letters cfg.cmds) {h} {st st' : St V X} (k : Known cfg h st) {toks toks' : List Tok} (space : Bool) {name b mid e rest : Str}
    {t : EnvT.BTok} (hb : IsDelim "\\begin".toList name b) (he : IsDelim "\\end".toList name e) (hn : '}' ∉ name) (hpl : Plainly name) (hu : ∀ x ∈ h, ¬ Meant x.1 "begin".toList)
    (hh : EnvT.handle cfg.cmds.alpha st.env (b ++ mid ++ e ++ rest) = .ok st.env.envs (some t) (b ++ mid ++ e).length)
    (hp : Processes cfg true st.fresh (placed st.next t) toks st' toks') :
    Acts cfg st toks space (b ++ (mid ++ (e ++ rest))) st' ⟨toks', false, rest⟩ := by
  obtain ⟨N, hp⟩ := hp
  refine ⟨N, fun n hle => ?_⟩
  obtain ⟨ws, hws, rfl⟩ := hb
  obtain ⟨ws', _, rfl⟩ := he
  have eT : "\\begin".toList ++ ws ++ '{' :: (name ++ ['}']) ++ (mid ++ ("\\end".toList ++ ws' ++ '{' :: (name ++ ['}']) ++ rest)) =
      beginText ws name (mid ++ ("\\end".toList ++ ws' ++ '{' :: (name ++ ['}']) ++ rest)) := by unfold beginText; simp
  have eL : beginText ws name (mid ++ ("\\end".toList ++ ws' ++ '{' :: (name ++ ['}']) ++ rest)) = ("\\begin".toList ++ ws ++ '{' :: (name ++ ['}']) ++ mid ++ ("\\end".toList ++ ws' ++ '{' :: (name ++ ['}']))) ++ rest := by
    unfold beginText; simp
  obtain ⟨hne, hod⟩ := blank_head (s := name ++ '}' :: (mid ++ ("\\end".toList ++ ws' ++ '{' :: (name ++ ['}']) ++ rest))) (c := '{') hws (by decide)
  rw [eT]
  have hpass := actAt_passed hl (parse cfg n) n .default k toks space (passes_spec begin_words.1 hne hu)
  rw [← begin_word] at hpass
  rw [hpass]
  unfold actHandlers
  obtain ⟨f, hf⟩ := begin_handlers cfg ho (parse cfg n) n st toks (r := mid ++ ("\\end".toList ++ ws' ++ '{' :: (name ++ ['}']) ++ rest)) hws hn hpl
  rw [hf]
  have hacc : envAccepts (beginText ws name (mid ++ ("\\end".toList ++ ws' ++ '{' :: (name ++ ['}']) ++ rest))) = true := by
    unfold envAccepts EnvT.envMatch
    rw [show Envs.matchBegin (beginText ws name _) = _ from EnvT.matchBegin_hit ws name _ hws hn]
    rfl
  unfold environment
  rw [if_pos hacc, eL, hh]
  simp only [orElse, single]
  have hst : ({ st with env := { st.env with envs := st.env.envs } } : St V X) = st := rfl
  rw [hst]
  rw [show processTok cfg (parse cfg n) true st.fresh (newTok st t.type (.str t.content) _) toks = _ from hp n hle]
  simp only [Res.bind]
  rw [move_ok _ _ _ _ _ rfl]
  congr 2
  rw [endsBlank_last' _ (z := '}') (by simp [List.getLast?_append, List.getLast?_cons])]
  decide

end L2J.Psr
