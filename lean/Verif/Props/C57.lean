import Verif.Spec.TextStyle
import Verif.Lemmas.Wrapped
import Verif.Props.C01
import Verif.Props.C49
import Verif.Props.C11
import Verif.Props.C47
import Verif.Props.C51
import Verif.Props.C34
import Verif.Lemmas.Comments
/-! C57: text with styles. -/
namespace L2J.Style
open Spec

theorem table_mapping : ∀ e ∈ styleTable, Dict.get? mapping e.1.toList = some (e.2.map String.toList) ∧ (e.1.toList.all isLetter = true) := by decide +kernel

theorem takeWhile_letters (n r : Str) (hn : n.all isLetter = true) (hr : ∀ c ∈ r.head?, isLetter c = false) : (n ++ r).takeWhile isLetter = n := by
  rw [List.takeWhile_append_of_pos (List.all_eq_true.1 hn)]
  cases r with
  | nil => simp
  | cons c r => rw [List.takeWhile_cons_of_neg (by simp [hr c rfl])]; simp

theorem styledName_hit {n : String} {st : Option String} (h : (n, st) ∈ styleTable) (r : Str) (hr : ∀ c ∈ r.head?, isLetter c = false)
    (he : ¬ "\\expandafter".toList <+: r) : styledName ('\\' :: (n.toList ++ r)) = some (n.toList, r) := by
  obtain ⟨h1, h2⟩ := table_mapping _ h
  unfold styledName
  simp only [takeWhile_letters _ r h2 hr]
  rw [h1]
  simp only [List.drop_left]
  rw [if_neg]
  intro hs
  exact he (List.isPrefixOf_iff_prefix.1 hs)

theorem styledName_miss (n r : Str) (h1 : n.all isLetter = true) (h2 : Dict.get? mapping n = none) (hr : ∀ c ∈ r.head?, isLetter c = false) :
    styledName ('\\' :: (n ++ r)) = none := by
  unfold styledName
  simp only [takeWhile_letters _ r h1 hr]
  rw [h2]

theorem space_letter {c : Char} (h : isSpace c = true) : isLetter c = false := by
  cases hl : isLetter c with
  | false => rfl
  | true =>
    exfalso
    have : Cmds.isLetter c = true := hl
    rw [Content.letter_not_space this] at h
    cases h

theorem head_ws (ws r : Str) (p : Char → Bool) (hws : ∀ c ∈ ws, isSpace c = true) (hp : ∀ c, isSpace c = true → p c = false) (hr : ∀ c ∈ r.head?, p c = false) :
    ∀ c ∈ (ws ++ r).head?, p c = false := by
  cases ws with
  | nil => exact hr
  | cons w ws => intro c hc; cases hc; exact hp _ (hws _ (by simp))

theorem dropWhile_ws' (ws : Str) (b : Char) (r : Str) (hws : ∀ c ∈ ws, isSpace c = true) (hb : isSpace b = false) :
    (ws ++ b :: r).dropWhile isSpace = b :: r ∧ (ws ++ b :: r).takeWhile isSpace = ws := by
  have := takeWhile_wrap_ws ws (b :: r) hws (fun x hx => by cases hx; exact hb)
  exact ⟨this.2, this.1⟩

theorem no_expand (ws : Str) (b : Char) (r : Str) (hws : ∀ c ∈ ws, isSpace c = true) (hb : b ≠ '\\') : ¬ "\\expandafter".toList <+: ws ++ b :: r := by
  rintro ⟨t, ht⟩
  cases ws with
  | nil => injection ht with h; exact hb h.symm
  | cons w ws => injection ht with h; have := hws w (by simp); rw [← h] at this; cases this

/-! Values once each. -/

theorem firsts_mem {l d : List Str} (h : Firsts l d) : ∀ x, x ∈ d ↔ x ∈ l := by
  induction h with
  | nil => simp
  | again h hx ih => intro y; simp [ih]; rintro rfl; exact hx
  | new h hx ih => intro y; simp [ih]

theorem firsts_cons {l d : List Str} (h : Firsts l d) (x : Str) : Firsts (x :: l) (x :: d.filter (· ≠ x)) := by
  induction h with
  | nil => exact .new (l := []) .nil (by simp)
  | @again l d y h hy ih => exact .again (l := x :: l) ih (by simp [hy])
  | @new l d y h hy ih =>
    by_cases hxy : y = x
    · subst hxy
      rw [List.filter_append]
      simpa using Firsts.again (l := y :: l) ih (by simp)
    · rw [List.filter_append, show [y].filter (· ≠ x) = [y] by simp [hxy]]
      exact .new (l := x :: l) ih (by simp [hy, hxy])

theorem dedup_firsts : ∀ l, Firsts l (dedup l)
  | [] => .nil
  | x :: l => firsts_cons (dedup_firsts l) x

theorem setStyles_same {α} (st : List Str) (t : PTok α) : SameBut st t (t.setStyles st) := by cases t <;> constructor

theorem each_styled {α} (st : List Str) : ∀ l : List (PTok α), EachStyled st l (l.map fun t => t.setStyles (st ++ t.styles))
  | [] => .nil
  | t :: l => .cons (setStyles_same _ t) (each_styled st l)

theorem setStyles_own {α} (t : PTok α) : t.setStyles t.styles = t := by cases t <;> rfl

theorem applyStyle_spec {α} (style : Option Str) (l : List (PTok α)) : StyledAs style.toList l (applyStyle style l) := by
  match l with
  | [] => exact .none
  | [t] => exact .one (dedup_firsts _) (setStyles_same _ t)
  | a :: b :: l =>
    refine .many (by simp) ?_
    cases style with
    | some st => exact each_styled [st] (a :: b :: l)
    | none =>
      have := each_styled [] (a :: b :: l)
      rw [show ((a :: b :: l).map fun t => t.setStyles ([] ++ t.styles)) = a :: b :: l from by
        simp only [List.nil_append, setStyles_own, List.map_id']] at this
      exact this

theorem styled_eq {α} (parse : Str → List (PTok α)) (flat : List (PTok α) → Str) (n : String) (st : Option String) (h : (n, st) ∈ styleTable)
    (ws body rest : Str) (hws : ∀ c ∈ ws, isSpace c = true) (hb : Wrappable '{' '}' body) :
    handle parse flat (command n ws body ++ rest) =
      .ok (if strip body = [] then .none else applyStyle (st.map String.toList) (parse body)) (command n ws body).length := by
  have e : command n ws body ++ rest = '\\' :: (n.toList ++ (ws ++ '{' :: (body ++ '}' :: rest))) := by simp [command]
  rw [e]
  unfold handle
  rw [styledName_hit h _ (head_ws ws _ isLetter hws (fun c => space_letter) (fun c hc => by cases hc; rfl)) (no_expand ws _ _ hws (by decide))]
  simp only
  unfold handleStyled
  obtain ⟨d1, d2⟩ := dropWhile_ws' ws '{' (body ++ '}' :: rest) hws (by decide)
  simp only [d1, d2]
  have := C01_round_trip [] body rest '{' '}' (by simp) (by decide) (by decide) (by decide) hb.1 hb.2
  rw [List.nil_append] at this
  rw [this]
  have hl : ('\\' :: (n.toList ++ (ws ++ '{' :: (body ++ '}' :: rest)))).length - (ws ++ '{' :: (body ++ '}' :: rest)).length + ws.length +
      (([] : Str).length + body.length + 2) = (command n ws body).length := by
    simp [command]
    omega
  simp only [hl, (table_mapping _ h).1]
  split <;> rfl

/-- C57: a command for styled text with an argument gives the tokens of the argument, with the style; it consumes exactly the command and
its argument. -/
theorem C57_styled {α} (parse : Str → List (PTok α)) (flat : List (PTok α) → Str) (n : String) (st : Option String) (h : (n, st) ∈ styleTable)
    (ws body rest : Str) (hws : ∀ c ∈ ws, isSpace c = true) (hb : Wrappable '{' '}' body) (hne : strip body ≠ []) :
    ∃ out, handle parse flat (command n ws body ++ rest) = .ok out (command n ws body).length ∧ StyledAs (st.map String.toList).toList (parse body) out := by
  refine ⟨applyStyle (st.map String.toList) (parse body), ?_, applyStyle_spec _ _⟩
  rw [styled_eq parse flat n st h ws body rest hws hb, if_neg hne]

/-- C57: a blank argument gives nothing. -/
theorem C57_empty {α} (parse : Str → List (PTok α)) (flat : List (PTok α) → Str) (n : String) (st : Option String) (h : (n, st) ∈ styleTable)
    (ws body rest : Str) (hws : ∀ c ∈ ws, isSpace c = true) (hb : Wrappable '{' '}' body) (hne : strip body = []) :
    handle parse flat (command n ws body ++ rest) = .ok .none (command n ws body).length := by
  rw [styled_eq parse flat n st h ws body rest hws hb, if_pos hne]

/-- C57: without braces the argument is the next character. -/
theorem C57_char {α} (parse : Str → List (PTok α)) (flat : List (PTok α) → Str) (n : String) (st : Option String) (h : (n, st) ∈ styleTable)
    (ws : Str) (c : Char) (rest : Str) (hws : ∀ c ∈ ws, isSpace c = true) (hc : isSpace c = false ∧ c ≠ '{' ∧ c ≠ '\\') (hl : ws = [] → isLetter c = false)
    (hend : rest.getLast? ≠ some '{') :
    ∃ out, handle parse flat ('\\' :: (n.toList ++ (ws ++ c :: rest))) = .ok out (n.toList.length + ws.length + 2) ∧
      StyledAs (st.map String.toList).toList (parse [c]) out := by
  refine ⟨applyStyle (st.map String.toList) (parse [c]), ?_, applyStyle_spec _ _⟩
  have hh : ∀ x ∈ (ws ++ c :: rest).head?, isLetter x = false := by
    cases ws with
    | nil => intro x hx; cases hx; exact hl rfl
    | cons w ws => intro x hx; cases hx; exact space_letter (hws _ (by simp))
  unfold handle
  rw [styledName_hit h _ hh (no_expand ws _ _ hws hc.2.2)]
  simp only
  unfold handleStyled
  obtain ⟨d1, d2⟩ := dropWhile_ws' ws c rest hws hc.1
  have hlast : (ws ++ c :: rest).getLast? ≠ some '{' := by
    rw [List.getLast?_append]
    cases rest with
    | nil => simp [hc.2.1]
    | cons y r =>
      rw [List.getLast?_cons_cons]
      intro hx
      rw [Option.or_eq_some_iff] at hx
      rcases hx with hx | ⟨hx, _⟩
      · exact hend hx
      · simp at hx
  simp only [d1, d2]
  split
  · rename_i he; injection he with he; exact absurd he hc.2.1
  · rename_i he; cases he
  · rename_i he
    injection he with he
    subst he
    rw [if_neg hlast, if_neg hc.2.2]
    simp only [(table_mapping _ h).1, Option.getD_some]
    congr 1
    simp
    omega

theorem dedup_nodup : ∀ l, (dedup l).Nodup
  | [] => .nil
  | x :: l => by
    unfold dedup
    rw [List.nodup_cons]
    exact ⟨by simp, (dedup_nodup l).filter _⟩

theorem dedup_of_nodup : ∀ l : List Str, l.Nodup → dedup l = l
  | [], _ => rfl
  | x :: l, h => by
    rw [List.nodup_cons] at h
    unfold dedup
    rw [dedup_of_nodup l h.2, List.filter_eq_self.2]
    intro y hy
    simpa using fun e : y = x => h.1 (e ▸ hy)

theorem dedup_more (st : Option Str) (l : List Str) : dedup (st.toList ++ dedup l) = dedup (st.toList ++ l) := by
  cases st with
  | none => exact dedup_of_nodup _ (dedup_nodup l)
  | some x =>
    show dedup (x :: dedup l) = dedup (x :: l)
    unfold dedup
    rw [dedup_of_nodup _ (dedup_nodup l)]

theorem nested_wrappable (l : List (String × Option String × Str)) (w : Str) (hl : ∀ e ∈ l, (e.1, e.2.1) ∈ styleTable ∧ ∀ c ∈ e.2.2, isSpace c = true)
    (hw : Wrappable '{' '}' w) : Wrappable '{' '}' (nestedText l w) := by
  induction l with
  | nil => exact hw
  | cons e l ih =>
    obtain ⟨n, st, ws⟩ := e
    obtain ⟨h1, h2⟩ := hl (n, st, ws) (by simp)
    have hi := ih fun e he => hl e (by simp [he])
    have e1 : nestedText ((n, st, ws) :: l) w = ('\\' :: n.toList ++ ws) ++ ('{' :: (nestedText l w ++ ['}'])) := by simp [nestedText, command]
    rw [e1]
    refine Tab.wrappable_append (Boxes.wrappable_nobrace _ ?_ ?_) (Tab.wrappable_group hi)
    · intro c hc
      simp only [List.cons_append, List.mem_cons, List.mem_append] at hc
      have hlet : ∀ c ∈ n.toList, isLetter c = true := List.all_eq_true.1 (table_mapping _ h1).2
      rcases hc with rfl | hc | hc
      · decide
      · have := hlet c hc
        constructor <;> rintro rfl <;> cases this
      · have := h2 c hc
        constructor <;> rintro rfl <;> cases this
    · have hn : n.toList ≠ [] := by
        have : ∀ e ∈ styleTable, e.1.toList ≠ [] := by decide +kernel
        exact this _ h1
      intro hc
      have hm : '\\' ∈ n.toList ∨ '\\' ∈ ws := by
        rw [List.cons_append, List.getLast?_cons] at hc
        cases hg : (n.toList ++ ws).getLast? with
        | none => rw [List.getLast?_eq_none_iff] at hg; simp [hn] at hg
        | some x =>
          rw [hg] at hc
          simp at hc
          subst hc
          simpa using List.mem_of_getLast? hg
      rcases hm with hm | hm
      · have := List.all_eq_true.1 (table_mapping _ h1).2 _ hm; cases this
      · have := h2 _ hm; cases this

theorem strip_ne {s : Str} {c : Char} (h : c ∈ s) (hc : isSpace c = false) : strip s ≠ [] := by
  intro h0
  obtain ⟨p, q, hp, hq, e⟩ := strip_decomp s
  rw [h0] at e
  rw [e] at h
  simp at h
  rcases h with h | h
  · rw [hp c h] at hc; cases hc
  · rw [hq c h] at hc; cases hc

/-- C57: styles add up, at every depth: a text in any number of styled texts, one in the other, is one text with all the styles, the
outermost first, each once. (`parse` is asked to give a command that is all of its text the token the handler gives it, and the innermost text as
it is.) -/
theorem C57_nested {α} (parse : Str → List (PTok α)) (flat : List (PTok α) → Str) (l : List (String × Option String × Str)) (w : Str)
    (hl : ∀ e ∈ l, (e.1, e.2.1) ∈ styleTable ∧ ∀ c ∈ e.2.2, isSpace c = true) (hw : Wrappable '{' '}' w) (hne : strip w ≠ [])
    (hbase : parse w = [.text w []])
    (hstep : ∀ l' t, l' <:+ l → l' ≠ [] → handle parse flat (nestedText l' w) = .ok (.one t) (nestedText l' w).length → parse (nestedText l' w) = [t]) :
    ∃ d, Firsts (nestedStyles l) d ∧ parse (nestedText l w) = [.text w d] := by
  refine ⟨dedup (nestedStyles l), dedup_firsts _, ?_⟩
  induction l with
  | nil => exact hbase
  | cons e l ih =>
    obtain ⟨n, st, ws⟩ := e
    obtain ⟨h1, h2⟩ := hl (n, st, ws) (by simp)
    have hl' : ∀ e ∈ l, (e.1, e.2.1) ∈ styleTable ∧ ∀ c ∈ e.2.2, isSpace c = true := fun e he => hl e (by simp [he])
    have hi := ih hl' fun l' t hs => hstep l' t (hs.trans (List.suffix_cons _ _))
    refine hstep _ _ (List.suffix_refl _) (by simp) ?_
    have := styled_eq parse flat n st h1 ws (nestedText l w) [] h2 (nested_wrappable l w hl' hw)
    rw [List.append_nil] at this
    have hs : strip (nestedText l w) ≠ [] := by
      cases l with
      | nil => exact hne
      | cons e l => exact strip_ne (c := '\\') (by simp [nestedText, command]) (by decide)
    rw [show nestedText ((n, st, ws) :: l) w = command n ws (nestedText l w) from rfl, this, if_neg hs, hi]
    show Res.ok (.one (.text w (dedup ((st.map String.toList).toList ++ dedup (nestedStyles l))))) _ = _
    rw [dedup_more]
    rfl

/-! The other commands. -/

theorem openAfter_hit (kw : Str) (b : Char) (ws r : Str) (hws : ∀ c ∈ ws, isSpace c = true) (hb : isSpace b = false) :
    openAfter kw b (kw ++ (ws ++ b :: r)) = some (kw.length + ws.length) := by
  obtain ⟨d1, d2⟩ := dropWhile_ws' ws b r hws hb
  unfold openAfter
  rw [if_pos (show startsWith (kw ++ (ws ++ b :: r)) kw = true from by unfold startsWith; rw [List.isPrefixOf_iff_prefix]; exact ⟨_, rfl⟩), List.drop_left, d1, d2]
  simp

theorem openAfter_miss (kw : Str) (b : Char) (s : Str) (h : startsWith s kw = false) : openAfter kw b s = none := by
  unfold openAfter
  rw [h]
  rfl

theorem asOne_normalize {α} (l : List (PTok α)) : AsOne l (normalize l) := by
  unfold normalize
  split
  · exact .text _ _
  · rename_i h; exact .group _ fun s st he => h s st he

theorem brace_letter (ws r : Str) (hws : ∀ c ∈ ws, isSpace c = true) : ∀ c ∈ (ws ++ '{' :: r).head?, isLetter c = false :=
  head_ws ws _ isLetter hws (fun c => space_letter) (fun c hc => by cases hc; rfl)

/-- C57: `\citetext` gives the tokens of its argument. -/
theorem C57_citetext {α} (parse : Str → List (PTok α)) (flat : List (PTok α) → Str) (ws body rest : Str) (h : WellWrapped '{' '}' [(ws, body)]) :
    handle parse flat (commandN "citetext" [(ws, body)] ++ rest) = .ok (.many (parse body)) (commandN "citetext" [(ws, body)]).length := by
  have hws := (h (ws, body) (by simp)).1
  have e : commandN "citetext" [(ws, body)] ++ rest = "\\citetext".toList ++ (ws ++ '{' :: (body ++ '}' :: rest)) := by
    simp [commandN, wrapAll]
  rw [e]
  have h1 : styledName ("\\citetext".toList ++ (ws ++ '{' :: (body ++ '}' :: rest))) = none :=
    styledName_miss "citetext".toList _ (by decide) (by decide +kernel) (brace_letter ws _ hws)
  unfold handle
  rw [h1, openAfter_hit _ _ ws _ hws (by decide)]
  simp only
  have hd : ("\\citetext".toList ++ (ws ++ '{' :: (body ++ '}' :: rest))).drop ("\\citetext".toList.length + ws.length) = wrapAll '{' '}' [([], body)] ++ rest := by
    rw [← List.drop_drop, List.drop_left, List.drop_left]
    simp [wrapAll]
  rw [hd]
  have hs := seqBlocks_wrap '{' '}' (by decide) (by decide) (by decide) [([], body)] rest (fun e he => by
    simp at he; subst he; exact ⟨by simp, (h (ws, body) (by simp)).2⟩)
  simp only [List.length_cons, List.length_nil] at hs
  rw [hs]
  simp [commandN, wrapAll]
  omega

theorem space_digit {c : Char} (h : isSpace c = true) : isDigit c = false := by
  cases hd : isDigit c with
  | false => rfl
  | true => rw [Envs.digit_nospace c hd] at h; cases h

theorem lit_miss (a b X : Str) (h : ¬ a <+: b ∧ ¬ b <+: a) : startsWith (a ++ X) b = false := by
  cases hs : startsWith (a ++ X) b with
  | false => rfl
  | true =>
    rcases List.prefix_or_prefix_of_prefix (List.prefix_append a X) (List.isPrefixOf_iff_prefix.1 hs) with h' | h'
    · exact absurd h' h.1
    · exact absurd h' h.2

theorem open_lit (a b X : Str) (c : Char) (h : ¬ a <+: b ∧ ¬ b <+: a) : openAfter b c (a ++ X) = none := openAfter_miss _ _ _ (lit_miss a b X h)

theorem fonts_lit (a X : Str) (h : (¬ a <+: "\\fontsize".toList ∧ ¬ "\\fontsize".toList <+: a) ∧ (¬ a <+: "\\selectfont".toList ∧ ¬ "\\selectfont".toList <+: a) ∧
    (¬ a <+: "\\usefont".toList ∧ ¬ "\\usefont".toList <+: a)) : fonts (a ++ X) = none := by
  unfold fonts
  rw [lit_miss _ _ X h.1, lit_miss _ _ X h.2.1, lit_miss _ _ X h.2.2]
  simp

theorem commandN_eq (n : String) (ws a : Str) (l : List (Str × Str)) (rest : Str) :
    commandN n ((ws, a) :: l) ++ rest = ('\\' :: n.toList) ++ (ws ++ '{' :: (a ++ '}' :: (wrapAll '{' '}' l ++ rest))) := by
  simp [commandN, wrapAll]

theorem two_blocks (n : Str) (ws a ws2 b rest : Str) (h : WellWrapped '{' '}' [(ws, a), (ws2, b)]) :
    seqBlocks ((n ++ (ws ++ '{' :: (a ++ '}' :: (wrapAll '{' '}' [(ws2, b)] ++ rest)))).drop (n.length + ws.length)) '{' '}' (some 2) =
      ([a, b], a.length + ws2.length + b.length + 4) := by
  have hd : (n ++ (ws ++ '{' :: (a ++ '}' :: (wrapAll '{' '}' [(ws2, b)] ++ rest)))).drop (n.length + ws.length) = wrapAll '{' '}' [([], a), (ws2, b)] ++ rest := by
    rw [← List.drop_drop, List.drop_left, List.drop_left]
    simp [wrapAll]
  rw [hd]
  have hs := seqBlocks_wrap '{' '}' (by decide) (by decide) (by decide) [([], a), (ws2, b)] rest (fun e he => by
    simp at he
    rcases he with rfl | rfl
    · exact ⟨by simp, (h (ws, a) (by simp)).2⟩
    · exact h (ws2, b) (by simp))
  simp only [List.length_cons, List.length_nil] at hs
  rw [hs]
  simp [wrapAll]
  omega

theorem commandN_len (n : String) (ws a ws2 b : Str) :
    (commandN n [(ws, a), (ws2, b)]).length = ('\\' :: n.toList).length + ws.length + (a.length + ws2.length + b.length + 4) := by
  simp [commandN, wrapAll]
  omega

/-- C57: a fraction is one text: the two parts, each on one line, with ` / ` between them. -/
theorem C57_frac {α} (parse : Str → List (PTok α)) (flat : List (PTok α) → Str) (n : String) (hn : n ∈ ["frac", "nicefrac", "textfrac"]) (ws a ws2 b rest : Str)
    (h : WellWrapped '{' '}' [(ws, a), (ws2, b)]) :
    handle parse flat (commandN n [(ws, a), (ws2, b)] ++ rest) =
      .ok (.one (.text (stripNewlines (flat (parse a)) ++ " / ".toList ++ stripNewlines (flat (parse b))) [])) (commandN n [(ws, a), (ws2, b)]).length := by
  have hws := (h (ws, a) (by simp)).1
  rw [commandN_eq, commandN_len]
  have hp : ∀ n ∈ ["frac", "nicefrac", "textfrac"], n.toList.all isLetter = true ∧ Dict.get? mapping n.toList = none ∧
      (¬ ('\\' :: n.toList) <+: "\\citetext".toList ∧ ¬ "\\citetext".toList <+: ('\\' :: n.toList)) ∧
      (¬ ('\\' :: n.toList) <+: "\\fontsize".toList ∧ ¬ "\\fontsize".toList <+: ('\\' :: n.toList)) ∧
      (¬ ('\\' :: n.toList) <+: "\\selectfont".toList ∧ ¬ "\\selectfont".toList <+: ('\\' :: n.toList)) ∧
      (¬ ('\\' :: n.toList) <+: "\\usefont".toList ∧ ¬ "\\usefont".toList <+: ('\\' :: n.toList)) := by decide +kernel
  obtain ⟨p1, p2, p3, p4⟩ := hp n hn
  unfold handle
  rw [show (('\\' :: n.toList) ++ (ws ++ '{' :: (a ++ '}' :: (wrapAll '{' '}' [(ws2, b)] ++ rest)))) = '\\' :: (n.toList ++ (ws ++ '{' :: (a ++ '}' :: (wrapAll '{' '}' [(ws2, b)] ++ rest)))) from rfl,
    styledName_miss _ _ p1 p2 (brace_letter ws _ hws)]
  rw [← List.cons_append, open_lit _ _ _ _ p3, fonts_lit _ _ p4]
  have ho : firstOpen '{' ('\\' :: n.toList ++ (ws ++ '{' :: (a ++ '}' :: (wrapAll '{' '}' [(ws2, b)] ++ rest)))) ["\\frac".toList, "\\nicefrac".toList, "\\textfrac".toList] =
      some (('\\' :: n.toList).length + ws.length) := by
    unfold firstOpen firstOpen firstOpen firstOpen
    simp only [List.mem_cons, List.not_mem_nil, or_false] at hn
    rcases hn with rfl | rfl | rfl
    · rw [show ('\\' :: "frac".toList) = "\\frac".toList from rfl, openAfter_hit _ _ ws _ hws (by decide)]
    · rw [show ('\\' :: "nicefrac".toList) = "\\nicefrac".toList from rfl, open_lit _ _ _ _ (by decide +kernel), openAfter_hit _ _ ws _ hws (by decide)]
    · rw [show ('\\' :: "textfrac".toList) = "\\textfrac".toList from rfl, open_lit _ _ _ _ (by decide +kernel), open_lit _ _ _ _ (by decide +kernel), openAfter_hit _ _ ws _ hws (by decide)]
  rw [ho]
  simp only
  rw [two_blocks _ ws a ws2 b rest h]

/-- C57: `\texorpdfstring` stands for its second argument. -/
theorem C57_texorpdf {α} (parse : Str → List (PTok α)) (flat : List (PTok α) → Str) (ws a ws2 b rest : Str) (h : WellWrapped '{' '}' [(ws, a), (ws2, b)]) :
    ∃ t, AsOne (parse b) t ∧ handle parse flat (commandN "texorpdfstring" [(ws, a), (ws2, b)] ++ rest) = .ok (.one t) (commandN "texorpdfstring" [(ws, a), (ws2, b)]).length := by
  refine ⟨normalize (parse b), asOne_normalize _, ?_⟩
  have hws := (h (ws, a) (by simp)).1
  rw [commandN_eq, commandN_len]
  unfold handle
  rw [show (('\\' :: "texorpdfstring".toList) ++ (ws ++ '{' :: (a ++ '}' :: (wrapAll '{' '}' [(ws2, b)] ++ rest)))) = '\\' :: ("texorpdfstring".toList ++ (ws ++ '{' :: (a ++ '}' :: (wrapAll '{' '}' [(ws2, b)] ++ rest)))) from rfl,
    styledName_miss _ _ (by decide) (by decide +kernel) (brace_letter ws _ hws)]
  rw [← List.cons_append, show ('\\' :: "texorpdfstring".toList) = "\\texorpdfstring".toList from rfl, open_lit _ _ _ _ (by decide +kernel), fonts_lit _ _ (by decide +kernel)]
  have ho : firstOpen '{' ("\\texorpdfstring".toList ++ (ws ++ '{' :: (a ++ '}' :: (wrapAll '{' '}' [(ws2, b)] ++ rest)))) ["\\frac".toList, "\\nicefrac".toList, "\\textfrac".toList] = none := by
    unfold firstOpen firstOpen firstOpen firstOpen
    rw [open_lit _ _ _ _ (by decide +kernel), open_lit _ _ _ _ (by decide +kernel), open_lit _ _ _ _ (by decide +kernel)]
  rw [ho, openAfter_hit _ _ ws _ hws (by decide)]
  simp only
  rw [two_blocks _ ws a ws2 b rest h]

theorem wordOption_hit (m r : Str) (h1 : m ≠ []) (h2 : ∀ c ∈ m, isWord c = true) : wordOption ('[' :: (m ++ ']' :: r)) = (some m, m.length + 2) := by
  have ht : (m ++ ']' :: r).takeWhile isWord = m := by
    rw [List.takeWhile_append_of_pos h2, List.takeWhile_cons_of_neg (by decide)]; simp
  unfold wordOption
  simp only [ht]
  rw [if_pos ⟨h1, by rw [List.drop_left]; rfl⟩]

theorem colorMatch_none (ws0 ws r : Str) (h0 : ∀ c ∈ ws0, isSpace c = true) (hws : ∀ c ∈ ws, isSpace c = true) :
    colorMatch ("\\textcolor".toList ++ (ws0 ++ (ws ++ '{' :: r))) = some (none, 10 + ws0.length + ws.length) := by
  have h : ∀ c ∈ ws0 ++ ws, isSpace c = true := fun c hc => by
    rcases List.mem_append.1 hc with hc | hc
    · exact h0 c hc
    · exact hws c hc
  obtain ⟨d1, d2⟩ := dropWhile_ws' (ws0 ++ ws) '{' r h (by decide)
  rw [List.append_assoc] at d1 d2
  unfold colorMatch
  rw [if_pos (show startsWith ("\\textcolor".toList ++ (ws0 ++ (ws ++ '{' :: r))) "\\textcolor".toList = true from List.isPrefixOf_iff_prefix.2 ⟨_, rfl⟩)]
  rw [show ("\\textcolor".toList ++ (ws0 ++ (ws ++ '{' :: r))).drop 10 = ws0 ++ (ws ++ '{' :: r) from rfl]
  simp only [d2]
  have e : (ws0 ++ (ws ++ '{' :: r)).drop (ws0 ++ ws).length = '{' :: r := by rw [← List.append_assoc, List.drop_left]
  rw [e]
  simp [wordOption, show isSpace '{' = false from rfl]
  omega

theorem colorMatch_some (ws0 m ws r : Str) (h0 : ∀ c ∈ ws0, isSpace c = true) (hm : m ≠ []) (hm2 : ∀ c ∈ m, isWord c = true) (hws : ∀ c ∈ ws, isSpace c = true) :
    colorMatch ("\\textcolor".toList ++ (ws0 ++ '[' :: (m ++ ']' :: (ws ++ '{' :: r)))) = some (some m, 10 + ws0.length + (m.length + 2) + ws.length) := by
  obtain ⟨d1, d2⟩ := dropWhile_ws' ws0 '[' (m ++ ']' :: (ws ++ '{' :: r)) h0 (by decide)
  obtain ⟨d3, d4⟩ := dropWhile_ws' ws '{' r hws (by decide)
  unfold colorMatch
  rw [if_pos (show startsWith ("\\textcolor".toList ++ (ws0 ++ '[' :: (m ++ ']' :: (ws ++ '{' :: r)))) "\\textcolor".toList = true from List.isPrefixOf_iff_prefix.2 ⟨_, rfl⟩)]
  rw [show ("\\textcolor".toList ++ (ws0 ++ '[' :: (m ++ ']' :: (ws ++ '{' :: r)))).drop 10 = ws0 ++ '[' :: (m ++ ']' :: (ws ++ '{' :: r)) from rfl]
  simp only [d2, List.drop_left, wordOption_hit m _ hm hm2]
  have e : ('[' :: (m ++ ']' :: (ws ++ '{' :: r))).drop (m.length + 2) = ws ++ '{' :: r := by
    rw [show '[' :: (m ++ ']' :: (ws ++ '{' :: r)) = ('[' :: (m ++ [']'])) ++ (ws ++ '{' :: r) by simp, show m.length + 2 = ('[' :: (m ++ [']'])).length by simp, List.drop_left]
  rw [e, d3, d4]
  simp

/-- C57: coloured text: the colour is the first style of the token, with its model if there is one; no style twice. -/
theorem C57_color {α} (parse : Str → List (PTok α)) (flat : List (PTok α) → Str) (ws0 : Str) (m : Option Str) (ws c ws2 b rest : Str)
    (h0 : ∀ x ∈ ws0, isSpace x = true) (hm : ∀ x ∈ m, x ≠ [] ∧ ∀ y ∈ x, isWord y = true) (h : WellWrapped '{' '}' [(ws, c), (ws2, b)]) :
    ∃ t t' d, AsOne (parse b) t ∧ Firsts (colorName m (strip c) :: t.styles) d ∧ SameBut d t t' ∧
      handle parse flat ("\\textcolor".toList ++ (ws0 ++ (colorModel m ++ (wrapAll '{' '}' [(ws, c), (ws2, b)] ++ rest)))) =
        .ok (.one t') ("\\textcolor".toList ++ (ws0 ++ (colorModel m ++ wrapAll '{' '}' [(ws, c), (ws2, b)]))).length := by
  have hc : colorStyle m (strip c) = colorName m (strip c) := by cases m <;> rfl
  refine ⟨normalize (parse b), _, _, asOne_normalize _, dedup_firsts _, setStyles_same _ _, ?_⟩
  have hws := (h (ws, c) (by simp)).1
  have hcol : colorMatch ("\\textcolor".toList ++ (ws0 ++ (colorModel m ++ (wrapAll '{' '}' [(ws, c), (ws2, b)] ++ rest)))) =
      some (m, (ws0 ++ colorModel m).length + 10 + ws.length) := by
    cases m with
    | none =>
      rw [show colorModel none ++ (wrapAll '{' '}' [(ws, c), (ws2, b)] ++ rest) = ws ++ '{' :: (c ++ '}' :: (wrapAll '{' '}' [(ws2, b)] ++ rest)) by simp [colorModel, wrapAll],
        colorMatch_none ws0 ws _ h0 hws]
      simp [colorModel]
      omega
    | some m =>
      obtain ⟨m1, m2⟩ := hm m rfl
      rw [show colorModel (some m) ++ (wrapAll '{' '}' [(ws, c), (ws2, b)] ++ rest) = '[' :: (m ++ ']' :: (ws ++ '{' :: (c ++ '}' :: (wrapAll '{' '}' [(ws2, b)] ++ rest)))) by simp [colorModel, wrapAll],
        colorMatch_some ws0 m ws _ h0 m1 m2 hws]
      simp [colorModel]
      omega
  have hlet : ∀ x ∈ (ws0 ++ (colorModel m ++ (wrapAll '{' '}' [(ws, c), (ws2, b)] ++ rest))).head?, isLetter x = false := by
    apply head_ws ws0 _ isLetter h0 (fun c => space_letter)
    cases m with
    | some m => intro x hx; cases hx; rfl
    | none =>
      rw [show colorModel none ++ (wrapAll '{' '}' [(ws, c), (ws2, b)] ++ rest) = ws ++ '{' :: (c ++ '}' :: (wrapAll '{' '}' [(ws2, b)] ++ rest)) by simp [colorModel, wrapAll]]
      exact head_ws ws _ isLetter hws (fun c => space_letter) (fun c hc => by cases hc; rfl)
  have hd := two_blocks ("\\textcolor".toList ++ (ws0 ++ colorModel m)) ws c ws2 b rest h
  have hl : ("\\textcolor".toList ++ (ws0 ++ (colorModel m ++ wrapAll '{' '}' [(ws, c), (ws2, b)]))).length = (ws0 ++ colorModel m).length + 10 + ws.length + (c.length + ws2.length + b.length + 4) := by
    simp [wrapAll]
    omega
  have e : ("\\textcolor".toList ++ (ws0 ++ colorModel m)) ++ (ws ++ '{' :: (c ++ '}' :: (wrapAll '{' '}' [(ws2, b)] ++ rest))) = "\\textcolor".toList ++ (ws0 ++ (colorModel m ++ (wrapAll '{' '}' [(ws, c), (ws2, b)] ++ rest))) := by
    simp [wrapAll]
  rw [e, show ("\\textcolor".toList ++ (ws0 ++ colorModel m)).length = (ws0 ++ colorModel m).length + 10 by simp] at hd
  rw [hl]
  generalize hX : ws0 ++ (colorModel m ++ (wrapAll '{' '}' [(ws, c), (ws2, b)] ++ rest)) = X at *
  unfold handle
  rw [show "\\textcolor".toList ++ X = '\\' :: ("textcolor".toList ++ X) from rfl, styledName_miss _ _ (by decide) (by decide +kernel) hlet,
    show '\\' :: ("textcolor".toList ++ X) = "\\textcolor".toList ++ X from rfl, open_lit _ _ _ _ (by decide +kernel), fonts_lit _ _ (by decide +kernel)]
  have ho : firstOpen '{' ("\\textcolor".toList ++ X) ["\\frac".toList, "\\nicefrac".toList, "\\textfrac".toList] = none := by
    unfold firstOpen firstOpen firstOpen firstOpen
    rw [open_lit _ _ _ _ (by decide +kernel), open_lit _ _ _ _ (by decide +kernel), open_lit _ _ _ _ (by decide +kernel)]
  rw [ho, open_lit _ _ _ _ (by decide +kernel), hcol]
  simp only
  rw [hd]
  simp only [hc]

/-- The name of a command of this handler that is none of the ones looked for before the colour. -/
theorem handle_late {α} (parse : Str → List (PTok α)) (flat : List (PTok α) → Str) (n : String) (hn : n ∈ ["onecolumn", "twocolumn", "subfloat", "romannumeral"]) (X : Str)
    (hX : ∀ c ∈ X.head?, isLetter c = false) : handle parse flat ('\\' :: (n.toList ++ X)) =
      match columnsMatch ('\\' :: (n.toList ++ X)) with
      | some (some i, _) =>
        match extractNestedContent (('\\' :: (n.toList ++ X)).drop i) '[' ']' with
        | some (b, e) => .ok (.one (normalize (parse b))) (i + e)
        | none => .ok .none i
      | some (none, e) => .ok .none e
      | none =>
        match openAfter "\\subfloat".toList '[' ('\\' :: (n.toList ++ X)) with
        | some i => handleSubfloat parse ('\\' :: (n.toList ++ X)) i
        | none =>
          match romanMatch ('\\' :: (n.toList ++ X)) with
          | some (ds, e) => .ok (.one (.text (intToRoman (digitsVal ds)) [])) e
          | none => .ok .none 0 := by
  have hp : ∀ n ∈ ["onecolumn", "twocolumn", "subfloat", "romannumeral"], n.toList.all isLetter = true ∧ Dict.get? mapping n.toList = none ∧
      ((¬ ('\\' :: n.toList) <+: "\\fontsize".toList ∧ ¬ "\\fontsize".toList <+: ('\\' :: n.toList)) ∧
      (¬ ('\\' :: n.toList) <+: "\\selectfont".toList ∧ ¬ "\\selectfont".toList <+: ('\\' :: n.toList)) ∧
      (¬ ('\\' :: n.toList) <+: "\\usefont".toList ∧ ¬ "\\usefont".toList <+: ('\\' :: n.toList))) ∧
      ∀ m ∈ ["\\citetext", "\\frac", "\\nicefrac", "\\textfrac", "\\texorpdfstring", "\\textcolor"], ¬ ('\\' :: n.toList) <+: m.toList ∧ ¬ m.toList <+: ('\\' :: n.toList) := by decide +kernel
  obtain ⟨p1, p2, p3, p4⟩ := hp n hn
  have hs := styledName_miss _ X p1 p2 hX
  rw [← List.cons_append] at hs ⊢
  conv => lhs; unfold handle
  rw [hs, open_lit _ _ _ _ (p4 "\\citetext" (by simp)), fonts_lit _ _ p3]
  have ho : firstOpen '{' ('\\' :: n.toList ++ X) ["\\frac".toList, "\\nicefrac".toList, "\\textfrac".toList] = none := by
    unfold firstOpen firstOpen firstOpen firstOpen
    rw [open_lit _ _ _ _ (p4 "\\frac" (by simp)), open_lit _ _ _ _ (p4 "\\nicefrac" (by simp)), open_lit _ _ _ _ (p4 "\\textfrac" (by simp))]
  have hc : colorMatch ('\\' :: n.toList ++ X) = none := by
    unfold colorMatch
    rw [lit_miss _ _ _ (p4 "\\textcolor" (by simp))]
    rfl
  rw [ho, open_lit _ _ _ _ (p4 "\\texorpdfstring" (by simp)), hc]
  rfl

/-- C57: `\romannumeral` and a number gives its numeral. -/
theorem C57_roman {α} (parse : Str → List (PTok α)) (flat : List (PTok α) → Str) (ws : Str) (n : Nat) (rest : Str) (hws : ∀ c ∈ ws, isSpace c = true) (hne : ws ≠ [])
    (hr : ∀ c ∈ rest.head?, isDigit c = false) :
    handle parse flat ("\\romannumeral".toList ++ (ws ++ (natStr n ++ rest))) = .ok (.one (.text (standardRoman n) [])) ("\\romannumeral".toList ++ (ws ++ natStr n)).length := by
  have hX : ∀ c ∈ (ws ++ (natStr n ++ rest)).head?, isLetter c = false := by
    cases ws with
    | nil => exact absurd rfl hne
    | cons w ws => intro c hc; cases hc; exact space_letter (hws _ (by simp))
  have h := handle_late parse flat "romannumeral" (by simp) _ hX
  have e : '\\' :: ("romannumeral".toList ++ (ws ++ (natStr n ++ rest))) = "\\romannumeral".toList ++ (ws ++ (natStr n ++ rest)) := rfl
  rw [e] at h
  rw [h]
  have h1 : columnsMatch ("\\romannumeral".toList ++ (ws ++ (natStr n ++ rest))) = none := by
    unfold columnsMatch
    rw [lit_miss _ _ _ (by decide +kernel), lit_miss _ _ _ (by decide +kernel)]
    simp
  have hd : ∀ c ∈ natStr n, isDigit c = true := Cmds.isDigit_nat
  have hw : (ws ++ (natStr n ++ rest)).takeWhile isSpace = ws := (takeWhile_wrap_ws ws _ hws (fun x hx => by
    cases hn : natStr n with
    | nil => exact absurd hn (natStr_ne_nil n)
    | cons y l =>
      rw [hn] at hx
      cases hx
      have := hd x (by rw [hn]; simp)
      cases hs : isSpace x with
      | false => rfl
      | true => exact absurd this (by simp [space_digit hs]))).1
  have ht : (natStr n ++ rest).takeWhile isDigit = natStr n := by
    rw [List.takeWhile_append_of_pos hd]
    cases rest with
    | nil => simp
    | cons c r => rw [List.takeWhile_cons_of_neg (by simp [hr c rfl])]; simp
  have h2 : romanMatch ("\\romannumeral".toList ++ (ws ++ (natStr n ++ rest))) = some (natStr n, 13 + ws.length + (natStr n).length) := by
    unfold romanMatch
    rw [if_pos (show startsWith ("\\romannumeral".toList ++ (ws ++ (natStr n ++ rest))) "\\romannumeral".toList = true from List.isPrefixOf_iff_prefix.2 ⟨_, rfl⟩),
      show ("\\romannumeral".toList ++ (ws ++ (natStr n ++ rest))).drop 13 = ws ++ (natStr n ++ rest) from rfl]
    simp only [hw, List.drop_left, ht]
    rw [if_neg]
    rintro (h | h)
    · exact hne (List.length_eq_zero_iff.1 h)
    · exact natStr_ne_nil n h
  rw [h1, open_lit _ _ _ _ (by decide +kernel), h2]
  simp only
  rw [show digitsVal (natStr n) = n from natStr_val n, C11_standard]
  congr 1
  simp
  omega

theorem extract_wrapped (o c : Char) (hos : isSpace o = false) (ho : o ≠ '\\') (hoc : o ≠ c) (body rest : Str) (h : Wrappable o c body) :
    extractNestedContent (o :: (body ++ c :: rest)) o c = some (body, body.length + 2) := by
  have := C01_round_trip [] body rest o c (by simp) hos ho hoc h.1 h.2
  simpa using this

/-- C57: `\onecolumn` and `\twocolumn` without an argument give nothing. -/
theorem C57_columns {α} (parse : Str → List (PTok α)) (flat : List (PTok α) → Str) (ws rest : Str) (hws : ∀ c ∈ ws, isSpace c = true) (hr : ∀ c ∈ rest.head?, isSpace c = false ∧ isLetter c = false ∧ c ≠ '[') :
    handle parse flat ("\\twocolumn".toList ++ (ws ++ rest)) = .ok .none ("\\twocolumn".toList ++ ws).length ∧
      ((∀ c ∈ rest.head?, isWord c = false) → handle parse flat ("\\onecolumn".toList ++ rest) = .ok .none "\\onecolumn".toList.length) := by
  constructor
  · have h := handle_late parse flat "twocolumn" (by simp) (ws ++ rest) (head_ws ws rest isLetter hws (fun c => space_letter) (fun c hc => (hr c hc).2.1))
    rw [show '\\' :: ("twocolumn".toList ++ (ws ++ rest)) = "\\twocolumn".toList ++ (ws ++ rest) from rfl] at h
    rw [h]
    have hm : columnsMatch ("\\twocolumn".toList ++ (ws ++ rest)) = some (none, 10 + ws.length) := by
      unfold columnsMatch
      rw [lit_miss _ _ _ (by decide +kernel), if_neg (by simp),
        if_pos (show startsWith ("\\twocolumn".toList ++ (ws ++ rest)) "\\twocolumn".toList = true from List.isPrefixOf_iff_prefix.2 ⟨_, rfl⟩),
        show ("\\twocolumn".toList ++ (ws ++ rest)).drop 10 = ws ++ rest from rfl]
      simp only [(takeWhile_wrap_ws ws rest hws (fun x hx => (hr x hx).1)).1, List.drop_left]
      rw [if_neg]
      intro h
      exact (hr _ h).2.2 rfl
    rw [hm]
    simp
    omega
  · intro hr2
    have h := handle_late parse flat "onecolumn" (by simp) rest (fun c hc => (hr c hc).2.1)
    rw [show '\\' :: ("onecolumn".toList ++ rest) = "\\onecolumn".toList ++ rest from rfl] at h
    rw [h]
    have hm : columnsMatch ("\\onecolumn".toList ++ rest) = some (none, 10) := by
      unfold columnsMatch
      rw [if_pos]
      refine ⟨List.isPrefixOf_iff_prefix.2 ⟨_, rfl⟩, ?_⟩
      rw [show ("\\onecolumn".toList ++ rest).drop 10 = rest from rfl]
      cases hc : rest.head? with
      | none => simp
      | some c => simp [hr2 c hc]
    rw [hm]
    rfl

/-- C57: the argument of `\twocolumn` is part of the text. -/
theorem C57_twocolumn {α} (parse : Str → List (PTok α)) (flat : List (PTok α) → Str) (ws body rest : Str) (hws : ∀ c ∈ ws, isSpace c = true) (hb : Wrappable '[' ']' body) :
    ∃ t, AsOne (parse body) t ∧ handle parse flat ("\\twocolumn".toList ++ (ws ++ '[' :: (body ++ ']' :: rest))) = .ok (.one t) ("\\twocolumn".toList ++ (ws ++ '[' :: (body ++ [']']))).length := by
  refine ⟨_, asOne_normalize _, ?_⟩
  have h := handle_late parse flat "twocolumn" (by simp) (ws ++ '[' :: (body ++ ']' :: rest)) (head_ws ws _ isLetter hws (fun c => space_letter) (fun c hc => by cases hc; rfl))
  obtain ⟨d1, d2⟩ := dropWhile_ws' ws '[' (body ++ ']' :: rest) hws (by decide)
  rw [show '\\' :: ("twocolumn".toList ++ (ws ++ '[' :: (body ++ ']' :: rest))) = "\\twocolumn".toList ++ (ws ++ '[' :: (body ++ ']' :: rest)) from rfl] at h
  rw [h]
  have hm : columnsMatch ("\\twocolumn".toList ++ (ws ++ '[' :: (body ++ ']' :: rest))) = some (some (10 + ws.length), 11 + ws.length) := by
    unfold columnsMatch
    rw [lit_miss _ _ _ (by decide +kernel), if_neg (by simp),
      if_pos (show startsWith ("\\twocolumn".toList ++ (ws ++ '[' :: (body ++ ']' :: rest))) "\\twocolumn".toList = true from List.isPrefixOf_iff_prefix.2 ⟨_, rfl⟩),
      show ("\\twocolumn".toList ++ (ws ++ '[' :: (body ++ ']' :: rest))).drop 10 = ws ++ '[' :: (body ++ ']' :: rest) from rfl]
    simp only [d2, List.drop_left]
    rfl
  rw [hm]
  simp only
  have hd : ("\\twocolumn".toList ++ (ws ++ '[' :: (body ++ ']' :: rest))).drop (10 + ws.length) = '[' :: (body ++ ']' :: rest) := by
    rw [← List.drop_drop, show ("\\twocolumn".toList ++ (ws ++ '[' :: (body ++ ']' :: rest))).drop 10 = ws ++ '[' :: (body ++ ']' :: rest) from rfl, List.drop_left]
  rw [hd, extract_wrapped _ _ (by decide) (by decide) (by decide) body rest hb]
  simp
  omega

theorem columns_subfloat (X : Str) : columnsMatch ("\\subfloat".toList ++ X) = none := by
  unfold columnsMatch
  rw [lit_miss _ _ _ (by decide +kernel), lit_miss _ _ _ (by decide +kernel)]
  simp

theorem subfloat_eq {α} (parse : Str → List (PTok α)) (flat : List (PTok α) → Str) (ws X : Str) (hws : ∀ c ∈ ws, isSpace c = true) :
    handle parse flat ("\\subfloat".toList ++ (ws ++ '[' :: X)) = handleSubfloat parse ("\\subfloat".toList ++ (ws ++ '[' :: X)) (9 + ws.length) := by
  have h := handle_late parse flat "subfloat" (by simp) (ws ++ '[' :: X) (head_ws ws _ isLetter hws (fun c => space_letter) (fun c hc => by cases hc; rfl))
  rw [show '\\' :: ("subfloat".toList ++ (ws ++ '[' :: X)) = "\\subfloat".toList ++ (ws ++ '[' :: X) from rfl] at h
  rw [h, columns_subfloat, openAfter_hit _ _ ws _ hws (by decide)]
  rfl

/-- C57: a subfloat is a group with its caption, trimmed, and then its content. -/
theorem C57_subfloat {α} (parse : Str → List (PTok α)) (flat : List (PTok α) → Str) (ws caption ws2 body rest : Str) (hws : ∀ c ∈ ws, isSpace c = true)
    (hc : Wrappable '[' ']' caption) (hws2 : ∀ c ∈ ws2, isSpace c = true) (hb : Wrappable '{' '}' body) (hne : body ≠ []) :
    ∃ t t', AsOne (parse (strip caption)) t ∧ AsOne (parse body) t' ∧
      handle parse flat ("\\subfloat".toList ++ (ws ++ '[' :: (caption ++ ']' :: (ws2 ++ '{' :: (body ++ '}' :: rest))))) =
        .ok (.one (.node "group".toList [.node "caption".toList [t] [], t'] [])) ("\\subfloat".toList ++ (ws ++ '[' :: (caption ++ ']' :: (ws2 ++ '{' :: (body ++ ['}']))))).length := by
  refine ⟨_, _, asOne_normalize _, asOne_normalize _, ?_⟩
  rw [subfloat_eq parse flat ws _ hws]
  have hd : ("\\subfloat".toList ++ (ws ++ '[' :: (caption ++ ']' :: (ws2 ++ '{' :: (body ++ '}' :: rest))))).drop (9 + ws.length) = '[' :: (caption ++ ']' :: (ws2 ++ '{' :: (body ++ '}' :: rest))) := by
    rw [← List.drop_drop, show ("\\subfloat".toList ++ (ws ++ '[' :: (caption ++ ']' :: (ws2 ++ '{' :: (body ++ '}' :: rest))))).drop 9 = ws ++ '[' :: (caption ++ ']' :: (ws2 ++ '{' :: (body ++ '}' :: rest))) from rfl, List.drop_left]
  have hd2 : ("\\subfloat".toList ++ (ws ++ '[' :: (caption ++ ']' :: (ws2 ++ '{' :: (body ++ '}' :: rest))))).drop (9 + ws.length + (caption.length + 2)) = ws2 ++ '{' :: (body ++ '}' :: rest) := by
    rw [← List.drop_drop, hd, show '[' :: (caption ++ ']' :: (ws2 ++ '{' :: (body ++ '}' :: rest))) = ('[' :: (caption ++ [']'])) ++ (ws2 ++ '{' :: (body ++ '}' :: rest)) by simp,
      show caption.length + 2 = ('[' :: (caption ++ [']'])).length by simp, List.drop_left]
  unfold handleSubfloat
  rw [hd, extract_wrapped _ _ (by decide) (by decide) (by decide) caption _ hc]
  simp only
  rw [hd2]
  obtain ⟨b, bs, rfl⟩ : ∃ b bs, body = b :: bs := by cases body with | nil => exact absurd rfl hne | cons b bs => exact ⟨b, bs, rfl⟩
  have he : extractNestedContent (ws2 ++ '{' :: (b :: bs ++ '}' :: rest)) '{' '}' = some (b :: bs, ws2.length + (b :: bs).length + 2) := by
    exact C01_round_trip ws2 (b :: bs) rest '{' '}' hws2 (by decide) (by decide) (by decide) hb.1 hb.2
  rw [he]
  simp
  omega

/-! Text on one line. -/

theorem starts_no {s p : Str} (h : ¬ p <+: s) : startsWith s p = false := by
  cases hs : startsWith s p with
  | false => rfl
  | true => exact absurd (List.isPrefixOf_iff_prefix.1 hs) h

theorem gap_breaks {g : Str} (h : Gap g) (X : Str) : ∃ g', (∀ c ∈ g', isSpace c = true) ∧ (g' = [] ↔ g = []) ∧ breaks 0 (g ++ X) = g' ++ breaks 0 X := by
  induction h with
  | nil => exact ⟨[], by simp, by simp, rfl⟩
  | @blank g c hc _ ih =>
    obtain ⟨g', h1, h2, h3⟩ := ih
    refine ⟨c :: g', ?_, by simp, ?_⟩
    · intro x hx
      rcases List.mem_cons.1 hx with rfl | hx
      · exact hc
      · exact h1 x hx
    · have hn : c ≠ '\\' := by rintro rfl; cases hc
      have e1 : startsWith (c :: (g ++ X)) "\\\\".toList = false := Style.starts_no (by rintro ⟨t, ht⟩; injection ht with h; exact hn h.symm)
      have e2 : startsWith (c :: (g ++ X)) "\\newline".toList = false := Style.starts_no (by rintro ⟨t, ht⟩; injection ht with h; exact hn h.symm)
      show breaks 0 (c :: (g ++ X)) = _
      conv => lhs; unfold breaks
      rw [e1, e2, if_neg (by simp), if_neg (by simp), h3]
      rfl
  | @double g _ ih =>
    obtain ⟨g', h1, h2, h3⟩ := ih
    refine ⟨' ' :: g', ?_, by simp, ?_⟩
    · intro x hx
      rcases List.mem_cons.1 hx with rfl | hx
      · decide
      · exact h1 x hx
    · show ' ' :: breaks 0 (g ++ X) = _
      rw [h3]
      rfl
  | @newline g _ ih =>
    obtain ⟨g', h1, h2, h3⟩ := ih
    refine ⟨' ' :: g', ?_, by simp, ?_⟩
    · intro x hx
      rcases List.mem_cons.1 hx with rfl | hx
      · decide
      · exact h1 x hx
    · show ' ' :: breaks 0 (g ++ X) = _
      rw [h3]
      rfl

theorem word_breaks (w X : Str) (hw : w.getLast? ≠ some '\\') (hf : ∀ u v, w = u ++ v → ¬ "\\\\".toList <+: v ∧ ¬ "\\newline".toList <+: v)
    (hX : ∀ c ∈ X.head?, isSpace c = true ∨ c = '\\') : breaks 0 (w ++ X) = w ++ breaks 0 X := by
  induction w with
  | nil => rfl
  | cons c w ih =>
    have h0 := hf [] (c :: w) rfl
    have e1 : startsWith (c :: (w ++ X)) "\\\\".toList = false := Style.starts_no fun hp => by
      cases w with
      | nil =>
        obtain ⟨t, ht⟩ := hp
        injection ht with h
        exact hw (by rw [← h]; rfl)
      | cons d w =>
        obtain ⟨t, ht⟩ := hp
        injection ht with a1 a2
        injection a2 with a2 a3
        exact h0.1 ⟨w, by rw [← a1, ← a2]; rfl⟩
    have e2 : startsWith (c :: (w ++ X)) "\\newline".toList = false := Style.starts_no fun hp => by
      rcases List.prefix_or_prefix_of_prefix hp (show c :: w <+: c :: (w ++ X) from ⟨X, rfl⟩) with h | ⟨t, ht⟩
      · exact h0.2 h
      · cases t with
        | nil => exact h0.2 ⟨[], by rw [← ht]; simp⟩
        | cons d t =>
          obtain ⟨t2, ht2⟩ := hp
          rw [← ht] at ht2
          have hX' : X = d :: (t ++ t2) := by
            have : (c :: w) ++ X = (c :: w) ++ (d :: (t ++ t2)) := by rw [List.append_assoc] at ht2; exact ht2.symm
            exact List.append_cancel_left this
          have hd : d ∈ "newline".toList := by
            have : "\\newline".toList = '\\' :: "newline".toList := rfl
            rw [this] at ht
            injection ht with _ ht
            rw [← ht]; simp
          have := hX d (by rw [hX']; rfl)
          revert hd this
          have : ∀ d ∈ "newline".toList, ¬ (isSpace d = true ∨ d = '\\') := by decide
          exact fun h1 h2 => this d h1 h2
    show breaks 0 (c :: (w ++ X)) = _
    conv => lhs; unfold breaks
    rw [e1, e2, if_neg (by simp), if_neg (by simp), ih]
    · rfl
    · cases w with
      | nil => simp
      | cons d w => simpa [List.getLast?_cons] using hw
    · intro u v h; exact hf (c :: u) v (by simp [h])

/-- A line end becomes a blank. -/
def oneBlank (c : Char) : Char := if c = '\n' then ' ' else c

theorem collapse_gap (b : Bool) (g Y : Str) (hg : ∀ c ∈ g, isSpace c = true) :
    collapse b (g ++ Y) = (if g = [] ∨ b = true then [] else [' ']) ++ collapse (b || !g.isEmpty) Y := by
  induction g generalizing b with
  | nil => simp
  | cons c g ih =>
    have hc := hg c (by simp)
    have hi := ih true (fun x hx => hg x (by simp [hx]))
    simp only [or_true, if_true, List.nil_append, Bool.true_or] at hi
    show (if isSpace c then (if b then collapse true (g ++ Y) else ' ' :: collapse true (g ++ Y)) else c :: collapse false (g ++ Y)) = _
    rw [hc, if_pos rfl, hi]
    cases b <;> simp

theorem collapse_word (b : Bool) (w Y : Str) (hne : w ≠ []) (hw : ∀ c ∈ w, isSpace c = false) : collapse b (w ++ Y) = w ++ collapse false Y := by
  induction w generalizing b with
  | nil => exact absurd rfl hne
  | cons c w ih =>
    have hc := hw c (by simp)
    show (if isSpace c then (if b then collapse true (w ++ Y) else ' ' :: collapse true (w ++ Y)) else c :: collapse false (w ++ Y)) = _
    rw [hc, if_neg (by simp)]
    by_cases h : w = []
    · subst h; rfl
    · rw [ih _ h (fun x hx => hw x (by simp [hx]))]
      rfl

theorem gap_head {g : Str} (h : Gap g) : ∀ c ∈ g.head?, isSpace c = true ∨ c = '\\' := by
  cases h with
  | nil => simp
  | blank c hc => intro x hx; cases hx; exact .inl hc
  | double => intro x hx; cases hx; exact .inr rfl
  | newline => intro x hx; cases hx; exact .inr rfl

theorem map_blank {g : Str} (hg : ∀ c ∈ g, isSpace c = true) : (∀ c ∈ g.map oneBlank, isSpace c = true) := by
  intro c hc
  obtain ⟨x, hx, rfl⟩ := List.mem_map.1 hc
  unfold oneBlank
  split
  · rfl
  · exact hg x hx

theorem map_word {w : Str} (hw : ∀ c ∈ w, isSpace c = false) : w.map oneBlank = w := by
  conv => rhs; rw [← List.map_id w]
  apply List.map_congr_left
  intro c hc
  have hn : c ≠ '\n' := by
    rintro rfl
    have := hw _ hc
    cases this
  simp [oneBlank, hn]

/-- The text after the line ends are gone. -/
theorem lines_step (g w X : Str) (hg : Gap g) (hw : Unbroken w) (hX : ∀ c ∈ X.head?, isSpace c = true ∨ c = '\\') (b : Bool) :
    collapse b ((breaks 0 (g ++ (w ++ X))).map oneBlank) = (if g = [] ∨ b = true then [] else [' ']) ++ (w ++ collapse false ((breaks 0 X).map oneBlank)) := by
  obtain ⟨g', h1, h2, h3⟩ := gap_breaks hg (w ++ X)
  obtain ⟨w1, w2, w3, w4⟩ := hw
  rw [h3, word_breaks w X w3 w4 hX, List.map_append, List.map_append, map_word w2, collapse_gap _ _ _ (map_blank h1), collapse_word _ _ _ w1 w2]
  simp only [List.map_eq_nil_iff, h2]

theorem lines_shape (l : List (Str × Str)) (last : Str) (hl : ∀ e ∈ l, Gap e.1 ∧ Unbroken e.2) (ht : ∀ e ∈ l.tail, e.1 ≠ []) (hlast : Gap last) (hne : l ≠ []) :
    ∃ a b : Str, (∀ c ∈ a, isSpace c = true) ∧ (∀ c ∈ b, isSpace c = true) ∧ (a = [] ∨ (∃ e l', l = e :: l' ∧ e.1 ≠ [] ∧ a = [' '])) ∧
      ((∃ e l', l = e :: l' ∧ e.1 = []) → a = []) ∧ collapse false ((breaks 0 (gapText l last)).map oneBlank) = a ++ (oneLine l ++ b) := by
  induction l with
  | nil => exact absurd rfl hne
  | cons e l ih =>
    obtain ⟨g, w⟩ := e
    obtain ⟨hg, hw⟩ := hl (g, w) (by simp)
    have e1 : gapText ((g, w) :: l) last = g ++ (w ++ gapText l last) := by simp [gapText]
    have hX : ∀ c ∈ (gapText l last).head?, isSpace c = true ∨ c = '\\' := by
      cases l with
      | nil => exact gap_head hlast
      | cons e2 l =>
        obtain ⟨g2, w2⟩ := e2
        have := ht (g2, w2) (by simp)
        have hg2 := (hl (g2, w2) (by simp)).1
        cases g2 with
        | nil => exact absurd rfl this
        | cons x g2 => intro c hc; exact gap_head hg2 c hc
    refine ⟨if g = [] then [] else [' '], ?_⟩
    have hs := lines_step g w _ hg hw hX false
    simp only [Bool.false_eq_true, or_false] at hs
    have ha : ∀ c ∈ (if g = [] then [] else [' ']), isSpace c = true := by
      split
      · simp
      · simp; decide
    have ha2 : (if g = [] then ([] : Str) else [' ']) = [] ∨ (∃ e l', (g, w) :: l = e :: l' ∧ e.1 ≠ [] ∧ (if g = [] then ([] : Str) else [' ']) = [' ']) := by
      by_cases h : g = []
      · left; simp [h]
      · right; exact ⟨_, _, rfl, h, by simp [h]⟩
    have ha3 : (∃ e l', (g, w) :: l = e :: l' ∧ e.1 = []) → (if g = [] then ([] : Str) else [' ']) = [] := by
      rintro ⟨e, l', h1, h2⟩
      injection h1 with h1 _
      rw [← h1] at h2
      simp only at h2
      simp [h2]
    cases l with
    | nil =>
      obtain ⟨g', k1, k2, k3⟩ := gap_breaks hlast []
      have hb : collapse false ((breaks 0 (gapText [] last)).map oneBlank) = if last = [] then [] else [' '] := by
        rw [show gapText [] last = last ++ [] by simp [gapText], k3, show breaks 0 [] = [] from rfl, List.map_append, List.map_nil, collapse_gap _ _ _ (map_blank k1)]
        simp [k2, collapse]
      refine ⟨if last = [] then [] else [' '], ha, ?_, ha2, ha3, ?_⟩
      · split
        · simp
        · simp; decide
      · rw [e1, hs, hb]
        rfl
    | cons e2 l =>
      obtain ⟨a, b, i1, i2, i3, i4, i5⟩ := ih (fun e he => hl e (by simp [he])) (fun e he => ht e (by simpa using List.mem_of_mem_tail he)) (by simp)
      refine ⟨b, ha, i2, ha2, ha3, ?_⟩
      rw [e1, hs, i5]
      have hne2 := ht e2 (by simp)
      have haa : a = [' '] := by
        have hcol := lines_step e2.1 e2.2 (gapText l last) (hl e2 (by simp)).1 (hl e2 (by simp)).2 (by
          cases l with
          | nil => exact gap_head hlast
          | cons e3 l =>
            obtain ⟨g3, w3⟩ := e3
            have := ht (g3, w3) (by simp)
            have hg3 := (hl (g3, w3) (by simp)).1
            cases g3 with
            | nil => exact absurd rfl this
            | cons x g3 => intro c hc; exact gap_head hg3 c hc) false
        rw [show e2.1 ++ (e2.2 ++ gapText l last) = gapText (e2 :: l) last by simp [gapText], i5, if_neg (by simp [hne2])] at hcol
        rcases i3 with h | ⟨_, _, _, _, h⟩
        · exfalso
          rw [h] at hcol
          obtain ⟨x, y, hxy⟩ : ∃ x y, oneLine (e2 :: l) = x :: y ∧ isSpace x = false := by
            obtain ⟨w1, w2, _⟩ := (hl e2 (by simp)).2
            obtain ⟨g2, w⟩ := e2
            cases w with
            | nil => exact absurd rfl w1
            | cons x w =>
              cases l with
              | nil => exact ⟨x, w, rfl, w2 x (by simp)⟩
              | cons e3 l => exact ⟨x, _, rfl, w2 x (by simp)⟩
          rw [hxy.1] at hcol
          injection hcol with h1 _
          rw [h1] at hxy
          have := hxy.2
          cases this
        · exact h
      rw [haa]
      simp [oneLine]

theorem oneLine_last (l : List (Str × Str)) (hl : ∀ e ∈ l, Unbroken e.2) (hne : l ≠ []) :
    (∃ x, (oneLine l).head? = some x ∧ isSpace x = false) ∧ ∃ x, (oneLine l).getLast? = some x ∧ isSpace x = false := by
  induction l with
  | nil => exact absurd rfl hne
  | cons e l ih =>
    obtain ⟨g, w⟩ := e
    obtain ⟨w1, w2, _⟩ := hl (g, w) (by simp)
    cases l with
    | nil =>
      refine ⟨⟨w.head w1, by simp [oneLine, List.head?_eq_some_head w1], w2 _ (List.head_mem w1)⟩, ⟨w.getLast w1, by simp [oneLine, List.getLast?_eq_some_getLast w1], w2 _ (List.getLast_mem w1)⟩⟩
    | cons e2 l =>
      obtain ⟨_, x, hx, hx2⟩ := ih (fun e he => hl e (by simp [he])) (by simp)
      refine ⟨⟨w.head w1, ?_, w2 _ (List.head_mem w1)⟩, x, ?_, hx2⟩
      · cases w with
        | nil => exact absurd rfl w1
        | cons x w => rfl
      · show (w ++ ' ' :: oneLine (e2 :: l)).getLast? = some x
        rw [List.getLast?_append, List.getLast?_cons, hx]
        rfl

/-- C57: the text of a part of a fraction is put on one line: words with one blank between them, whatever blanks, line ends, `\\` and
`\newline` there were. -/
theorem C57_lines (l : List (Str × Str)) (last : Str) (hl : GapWords l) (hlast : Gap last) : stripNewlines (gapText l last) = oneLine l := by
  show strip (collapse false ((breaks 0 (gapText l last)).map oneBlank)) = oneLine l
  by_cases hne : l = []
  · subst hne
    obtain ⟨g', k1, k2, k3⟩ := gap_breaks hlast []
    rw [show gapText [] last = last ++ [] by simp [gapText], k3, show breaks 0 [] = [] from rfl, List.map_append, List.map_nil, collapse_gap _ _ _ (map_blank k1)]
    split <;> rfl
  · obtain ⟨a, b, h1, h2, _, _, h3⟩ := lines_shape l last hl.1 hl.2 hlast hne
    obtain ⟨⟨x, x1, x2⟩, ⟨y, y1, y2⟩⟩ := oneLine_last l (fun e he => (hl.1 e he).2) hne
    rw [h3, Content.strip_left h1, Content.strip_right h2, Tab.strip_ends_eq x2 y2 x1 y1]

/-! Fonts. -/

theorem fields_hit : ∀ (l : List (Str × Str)) (rest : Str), (∀ e ∈ l, (∀ c ∈ e.1, isSpace c = true) ∧ e.2 ≠ [] ∧ '}' ∉ e.2) →
    fields l.length (wrapAll '{' '}' l ++ rest) = some (wrapAll '{' '}' l).length
  | [], _, _ => rfl
  | (ws, a) :: l, rest, h => by
    obtain ⟨h1, h2, h3⟩ := h (ws, a) (by simp)
    have hi := fields_hit l rest fun e he => h e (by simp [he])
    have e : wrapAll '{' '}' ((ws, a) :: l) ++ rest = ws ++ '{' :: (a ++ '}' :: (wrapAll '{' '}' l ++ rest)) := by simp [wrapAll]
    obtain ⟨d1, d2⟩ := dropWhile_ws' ws '{' (a ++ '}' :: (wrapAll '{' '}' l ++ rest)) h1 (by decide)
    have ht : (a ++ '}' :: (wrapAll '{' '}' l ++ rest)).takeWhile (· ≠ '}') = a := by
      rw [List.takeWhile_append_of_pos (fun c hc => by simp; rintro rfl; exact h3 hc), List.takeWhile_cons_of_neg (by simp)]
      simp
    rw [List.length_cons, e]
    unfold fields
    rw [d1, d2]
    simp only [ht]
    rw [List.drop_left, if_neg (by simp [h2]),
      show (a ++ '}' :: (wrapAll '{' '}' l ++ rest)).drop (a.length + 1) = wrapAll '{' '}' l ++ rest by rw [← List.drop_drop, List.drop_left]; rfl, hi]
    simp [wrapAll]
    omega

/-- C57: the commands that choose a font give nothing, whatever the font. -/
theorem C57_fonts {α} (parse : Str → List (PTok α)) (flat : List (PTok α) → Str) (n : String) (l : List (Str × Str)) (rest : Str)
    (hn : (n = "fontsize" ∧ l.length = 2) ∨ (n = "usefont" ∧ l.length = 4) ∨ (n = "selectfont" ∧ l = [] ∧ ∀ c ∈ rest.head?, isWord c = false))
    (hl : ∀ e ∈ l, (∀ c ∈ e.1, isSpace c = true) ∧ e.2 ≠ [] ∧ '}' ∉ e.2) :
    handle parse flat (commandN n l ++ rest) = .ok .none (commandN n l).length := by
  have hX : ∀ c ∈ (wrapAll '{' '}' l ++ rest).head?, isLetter c = false := by
    cases l with
    | nil =>
      rcases hn with ⟨_, h⟩ | ⟨_, h⟩ | ⟨_, _, h⟩
      · cases h
      · cases h
      · intro c hc
        have := h c hc
        cases hc : isLetter c with
        | false => rfl
        | true =>
          rw [Cmds.letter_word c (show Cmds.isLetter c = true from hc)] at this
          exact this
    | cons e l =>
      obtain ⟨ws, a⟩ := e
      have := (hl (ws, a) (by simp)).1
      rw [show wrapAll '{' '}' ((ws, a) :: l) ++ rest = ws ++ '{' :: (a ++ '}' :: (wrapAll '{' '}' l ++ rest)) by simp [wrapAll]]
      exact brace_letter ws _ this
  have hf := fields_hit l rest hl
  have e : commandN n l ++ rest = '\\' :: (n.toList ++ (wrapAll '{' '}' l ++ rest)) := by simp [commandN]
  have e2 : (commandN n l).length = 1 + n.toList.length + (wrapAll '{' '}' l).length := by simp [commandN]; omega
  have hp : n.toList.all isLetter = true ∧ Dict.get? mapping n.toList = none ∧ (¬ ('\\' :: n.toList) <+: "\\citetext".toList ∧ ¬ "\\citetext".toList <+: ('\\' :: n.toList)) := by
    have : ∀ n ∈ ["fontsize", "usefont", "selectfont"], n.toList.all isLetter = true ∧ Dict.get? mapping n.toList = none ∧
      (¬ ('\\' :: n.toList) <+: "\\citetext".toList ∧ ¬ "\\citetext".toList <+: ('\\' :: n.toList)) := by decide +kernel
    apply this
    rcases hn with h | h | h <;> simp [h.1]
  obtain ⟨p1, p2, p3⟩ := hp
  rw [e, e2]
  have hs := styledName_miss _ (wrapAll '{' '}' l ++ rest) p1 p2 hX
  generalize hY : wrapAll '{' '}' l ++ rest = Y at *
  have ho := open_lit _ _ Y '{' p3
  rw [List.cons_append] at ho
  unfold handle
  rw [hs, ho]
  simp only
  have hfo : fonts ('\\' :: (n.toList ++ Y)) = some (1 + n.toList.length + (wrapAll '{' '}' l).length) := by
    rcases hn with ⟨rfl, h⟩ | ⟨rfl, h⟩ | ⟨rfl, h, h2⟩
    · rw [h] at hf
      rw [show '\\' :: ("fontsize".toList ++ Y) = "\\fontsize".toList ++ Y from rfl]
      unfold fonts
      rw [show ("\\fontsize".toList ++ Y).drop 9 = Y from rfl, hf, if_pos ⟨List.isPrefixOf_iff_prefix.2 ⟨_, rfl⟩, rfl⟩]
      simp
      omega
    · rw [h] at hf
      rw [show '\\' :: ("usefont".toList ++ Y) = "\\usefont".toList ++ Y from rfl]
      unfold fonts
      rw [lit_miss _ _ _ (by decide +kernel), lit_miss _ _ _ (by decide +kernel), if_neg (by simp), if_neg (by simp),
        if_pos (show startsWith ("\\usefont".toList ++ Y) "\\usefont".toList = true from List.isPrefixOf_iff_prefix.2 ⟨_, rfl⟩), show ("\\usefont".toList ++ Y).drop 8 = Y from rfl, hf]
      simp
      omega
    · subst h
      rw [show '\\' :: ("selectfont".toList ++ Y) = "\\selectfont".toList ++ Y from rfl]
      unfold fonts
      rw [lit_miss _ _ _ (by decide +kernel), if_neg (by simp), show ("\\selectfont".toList ++ Y).drop 11 = Y from rfl, if_pos]
      · rfl
      · refine ⟨List.isPrefixOf_iff_prefix.2 ⟨_, rfl⟩, ?_⟩
        have hY' : Y = rest := hY.symm
        subst hY'
        cases hc : Y.head? with
        | none => simp
        | some c => simp [h2 c hc]
  rw [hfo]

/-! What goes wrong. -/

/-- C57 fails: a style command with nothing but blanks behind it (at the end of the text) raises an exception, whatever the command and the blanks. -/
theorem C57_violated_blanks {α} (parse : Str → List (PTok α)) (flat : List (PTok α) → Str) (n : String) (st : Option String) (h : (n, st) ∈ styleTable) (ws : Str)
    (hws : ∀ c ∈ ws, isSpace c = true) (hne : ws ≠ []) : handle parse flat ('\\' :: (n.toList ++ ws)) = .raised := by
  have he : ¬ "\\expandafter".toList <+: ws := by
    rintro ⟨t, ht⟩
    cases ws with
    | nil => exact hne rfl
    | cons w ws => injection ht with h; have := hws w (by simp); rw [← h] at this; cases this
  have hl : ∀ c ∈ ws.head?, isLetter c = false := fun c hc => space_letter (hws c (List.mem_of_mem_head? hc))
  unfold handle
  rw [styledName_hit h ws hl he]
  simp only
  have hd : ws.dropWhile isSpace = [] := dropWhile_all _ _ hws
  unfold handleStyled
  simp only [hd]
  rw [if_neg hne]

/-- C57 fails: without braces, a text that ends with an opening brace (escaped or not) is swallowed up to its end. -/
theorem C57_violated_swallow {α} (parse : Str → List (PTok α)) (flat : List (PTok α) → Str) (n : String) (st : Option String) (h : (n, st) ∈ styleTable) (x : Char) (text : Str)
    (hx : isSpace x = false ∧ x ≠ '\\' ∧ x ≠ '{') :
    handle parse flat ('\\' :: (n.toList ++ ' ' :: x :: (text ++ ['{']))) = .ok (applyStyle (st.map String.toList) (parse ['{'])) ('\\' :: (n.toList ++ ' ' :: x :: (text ++ ['{']))).length := by
  have he : ¬ "\\expandafter".toList <+: ' ' :: x :: (text ++ ['{']) := by
    rintro ⟨t, ht⟩
    injection ht with h
    cases h
  unfold handle
  rw [styledName_hit h _ (by simp; rfl) he]
  simp only
  have hd : (' ' :: x :: (text ++ ['{'])).dropWhile isSpace = x :: (text ++ ['{']) := by
    rw [List.dropWhile_cons_of_pos (by decide), List.dropWhile_cons_of_neg (by simp [hx.1])]
  unfold handleStyled
  simp only [hd]
  rw [(table_mapping _ h).1]
  split
  · rename_i heq; injection heq with heq _; exact absurd heq hx.2.2
  · rename_i heq; cases heq
  · rw [if_pos (by simp [List.getLast?_cons])]
    rfl

/-- C57 fails: the argument of `\subfloat` not closed raises an exception. -/
theorem C57_violated_subfloat {α} (parse : Str → List (PTok α)) (flat : List (PTok α) → Str) (ws t : Str) (hws : ∀ c ∈ ws, isSpace c = true) (ht : ']' ∉ t) :
    handle parse flat ("\\subfloat".toList ++ (ws ++ '[' :: t)) = .raised := by
  rw [subfloat_eq parse flat ws t hws]
  have hd : ("\\subfloat".toList ++ (ws ++ '[' :: t)).drop (9 + ws.length) = '[' :: t := by
    rw [← List.drop_drop, show ("\\subfloat".toList ++ (ws ++ '[' :: t)).drop 9 = ws ++ '[' :: t from rfl, List.drop_left]
  unfold handleSubfloat
  rw [hd]
  have : extractNestedContent ('[' :: t) '[' ']' = none := by
    cases hx : extractNestedContent ('[' :: t) '[' ']' with
    | none => rfl
    | some p =>
      obtain ⟨_, _, _, ws, _, h2⟩ := C01_content_balanced _ _ _ (by decide) p.1 p.2 hx
      have : ']' ∈ '[' :: t := List.mem_of_mem_take (i := p.2) (by rw [h2]; simp)
      simp [ht] at this
  rw [this]

/-- C57 fails: several tokens in the argument keep a style they had already, beside the same style of the command. -/
theorem C57_violated_repeated {α} (parse : Str → List (PTok α)) (flat : List (PTok α) → Str) (a b rest body : Str) (st : List Str) (hb : Wrappable '{' '}' body) (hne : strip body ≠ [])
    (h : parse body = [.text a ("bold".toList :: st), .text b []]) :
    handle parse flat (command "textbf" [] body ++ rest) =
      .ok (.many [.text a ("bold".toList :: "bold".toList :: st), .text b ["bold".toList]]) (command "textbf" [] body).length := by
  rw [styled_eq parse flat "textbf" (some "bold") (by simp [styleTable]) [] body rest (by simp) hb, if_neg hne, h]
  rfl

theorem get_none {β} (d : Dict β) (k : Str) (h : ∀ e ∈ d, e.1 ≠ k) : Dict.get? d k = none := by
  induction d with
  | nil => rfl
  | cons e d ih =>
    show (if e.1 = k then some e.2 else Dict.get? d k) = none
    rw [if_neg (h e (by simp)), ih fun x hx => h x (by simp [hx])]

/-- C57 fails: a command whose name only begins with `twocolumn` is taken for `\\twocolumn`, and its letters stay in the text. -/
theorem C57_violated_twocolumn {α} (parse : Str → List (PTok α)) (flat : List (PTok α) → Str) (n rest : Str) (hn : n ≠ []) (hl : ∀ c ∈ n, isLetter c = true)
    (hr : ∀ c ∈ rest.head?, isLetter c = false) : handle parse flat ("\\twocolumn".toList ++ (n ++ rest)) = .ok .none "\\twocolumn".toList.length := by
  have hs : styledName ("\\twocolumn".toList ++ (n ++ rest)) = none := by
    have := styledName_miss ("twocolumn".toList ++ n) rest (by
      rw [List.all_append, Bool.and_eq_true]
      exact ⟨by decide, List.all_eq_true.2 hl⟩) (by
      have : ∀ e ∈ mapping, ¬ "twocolumn".toList <+: e.1 := by decide +kernel
      exact get_none _ _ fun e he heq => this e he ⟨n, heq.symm⟩) hr
    rw [List.append_assoc] at this
    exact this
  obtain ⟨c, n', rfl⟩ : ∃ c n', n = c :: n' := by cases n with | nil => exact absurd rfl hn | cons c n' => exact ⟨c, n', rfl⟩
  have hc := hl c (by simp)
  have hcs : isSpace c = false := Content.letter_not_space (show Cmds.isLetter c = true from hc)
  have hcb : c ≠ '[' := by rintro rfl; cases hc
  unfold handle
  rw [hs, open_lit _ _ _ _ (by decide +kernel), fonts_lit _ _ (by decide +kernel)]
  have ho : firstOpen '{' ("\\twocolumn".toList ++ (c :: n' ++ rest)) ["\\frac".toList, "\\nicefrac".toList, "\\textfrac".toList] = none := by
    unfold firstOpen firstOpen firstOpen firstOpen
    rw [open_lit _ _ _ _ (by decide +kernel), open_lit _ _ _ _ (by decide +kernel), open_lit _ _ _ _ (by decide +kernel)]
  have hcm : colorMatch ("\\twocolumn".toList ++ (c :: n' ++ rest)) = none := by
    unfold colorMatch
    rw [lit_miss _ _ _ (by decide +kernel)]
    rfl
  rw [ho, open_lit _ _ _ _ (by decide +kernel), hcm]
  have hm : columnsMatch ("\\twocolumn".toList ++ (c :: n' ++ rest)) = some (none, 10) := by
    unfold columnsMatch
    rw [lit_miss _ _ _ (by decide +kernel), if_neg (by simp),
      if_pos (show startsWith ("\\twocolumn".toList ++ (c :: n' ++ rest)) "\\twocolumn".toList = true from List.isPrefixOf_iff_prefix.2 ⟨_, rfl⟩),
      show ("\\twocolumn".toList ++ (c :: n' ++ rest)).drop 10 = c :: (n' ++ rest) from rfl]
    simp [hcs, hcb]
  rw [hm]
  rfl

/-! Concrete cases. -/

/-- A parser for the examples: letters and blanks are one text, a styled text at the start is handled (`k` bounds the depth), the rest is a text. -/
def demo : Nat → Str → List (PTok Unit)
  | 0, _ => []
  | k + 1, s =>
    if s.all (fun c => isLetter c || isSpace c) then (if s = [] then [] else [.text s []])
    else match handle (demo k) (fun _ => []) s with
      | .ok (.one t) e => t :: (if s.drop e = [] then [] else demo k (s.drop e))
      | .ok (.many l) e => l ++ (if s.drop e = [] then [] else demo k (s.drop e))
      | _ => []

def shownTok : PTok Unit → String × List String
  | .text s st => (String.ofList s, st.map String.ofList)
  | .node ty _ st => (String.ofList ty, st.map String.ofList)
  | .other _ st => ("", st.map String.ofList)

example : (demo 5 "\\textbf{\\emph {\\textbf{a b}}}".toList).map shownTok = [("a b", ["bold", "italic"])] := by decide +kernel

example : (demo 5 "\\textbf{\\textbf{a}\\emph{b}}".toList).map shownTok = [("a", ["bold", "bold"]), ("b", ["bold", "italic"])] := by decide +kernel

example : (demo 5 "\\textcolor[rgb]{ x }{\\textit{b}}".toList).map shownTok = [("b", ["color={rgb:x}", "italic"])] := by decide +kernel

/-- `C57_nested` has an instance. -/
example : ∃ d, Firsts ["bold".toList, "italic".toList, "bold".toList] d ∧ demo 5 "\\textbf{\\emph {\\textbf{a b}}}".toList = [.text "a b".toList d] := by
  have h := C57_nested (demo 5) (fun _ => []) [("textbf", some "bold", []), ("emph", some "italic", " ".toList), ("textbf", some "bold", [])] "a b".toList
    (by decide +kernel) ⟨by decide +kernel, by decide +kernel⟩ (by decide +kernel) (by rfl) (by
      intro l' t hl hne ht
      simp only [List.suffix_cons_iff, List.suffix_nil] at hl
      have key : ∀ s t t', handle (demo 5) (fun _ => []) s = .ok (.one t') s.length → demo 5 s = [t'] → handle (demo 5) (fun _ => []) s = .ok (.one t) s.length → demo 5 s = [t] := by
        intro s t t' h1 h2 h3
        rw [h1] at h3
        injection h3 with h3
        injection h3 with h3
        rw [h2, h3]
      rcases hl with rfl | rfl | rfl | rfl
      · exact key _ _ (.text "a b".toList ["bold".toList, "italic".toList]) (by rfl) (by rfl) ht
      · exact key _ _ (.text "a b".toList ["italic".toList, "bold".toList]) (by rfl) (by rfl) ht
      · exact key _ _ (.text "a b".toList ["bold".toList]) (by rfl) (by rfl) ht
      · exact absurd rfl hne)
  exact h

example : GapWords [("\\\\".toList, "a".toList), (" \\newline\n".toList, "b\\c".toList)] ∧ gapText [("\\\\".toList, "a".toList), (" \\newline\n".toList, "b\\c".toList)] " ".toList = "\\\\a \\newline\nb\\c ".toList := by
  refine ⟨⟨?_, by decide⟩, by decide +kernel⟩
  intro e he
  simp only [List.mem_cons, List.not_mem_nil, or_false] at he
  have split : ∀ w : Str, (∀ i ∈ List.range (w.length + 1), ¬ "\\\\".toList <+: w.drop i ∧ ¬ "\\newline".toList <+: w.drop i) →
      ∀ u v, w = u ++ v → ¬ "\\\\".toList <+: v ∧ ¬ "\\newline".toList <+: v := by
    intro w hw u v h
    have := hw u.length (by simp [h]; omega)
    rw [h, List.drop_left] at this
    exact this
  rcases he with rfl | rfl
  · exact ⟨.double .nil, by decide, by decide, by decide, split _ (by decide +kernel)⟩
  · exact ⟨.blank ' ' rfl (.newline (.blank '\n' rfl .nil)), by decide, by decide, by decide, split _ (by decide +kernel)⟩

example := C57_fonts (demo 3) (fun _ => []) "fontsize" [([], "12pt".toList), (" ".toList, "14".toList)] " x".toList (by simp) (by decide)
example := C57_frac (demo 3) (fun _ => []) "nicefrac" (by simp) [] "a".toList " ".toList "{b}".toList "x".toList (by unfold WellWrapped; decide +kernel)
example := C57_texorpdf (demo 3) (fun _ => []) [] "a".toList " ".toList "{b}".toList "x".toList (by unfold WellWrapped; decide +kernel)
example := C57_color (demo 3) (fun _ => []) " ".toList (some "rgb".toList) [] "1,0,0".toList " ".toList "{b}".toList "x".toList (by decide) (by simp; decide)
  (by unfold WellWrapped; decide +kernel)
example := C57_subfloat (demo 3) (fun _ => []) [] " a[b] ".toList "\n".toList "{b}".toList "x".toList (by decide) (by unfold Wrappable; decide +kernel) (by decide)
  (by unfold Wrappable; decide +kernel) (by decide)
example := C57_twocolumn (demo 3) (fun _ => []) [] " a[b] ".toList "\n".toList (by decide) (by unfold Wrappable; decide +kernel)
example := C57_roman (demo 3) (fun _ => []) " ".toList 1994 " x".toList (by decide) (by decide) (by decide)
example := C57_styled (demo 3) (fun _ => []) "emph" (some "italic") (by simp [styleTable]) " ".toList "a {b}".toList "x".toList (by decide) (by unfold Wrappable; decide +kernel) (by decide)

end L2J.Style
