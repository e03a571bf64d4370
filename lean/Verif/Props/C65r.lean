import Verif.Props.C65p
/-! C65: documents with formulas. -/
namespace L2J.Psr
open Cmds Defn L2J.Spec

theorem symbols_plain {t : Str} (h : '\\' ∉ t) : Symbols t := by
  rintro a b rfl
  simp at h

theorem noLabel_plain {t : Str} (h : '\\' ∉ t) : NoLabel t := by
  rintro w _ ⟨a, b, rfl⟩
  simp at h

/-- A formula without commands. -/
theorem FormulaReads.plain {h : List (Def × Bool)} {w : Formula} {t : Str} (hb : strip w.body ≠ []) (ht : w.Text t) (hs : '\\' ∉ t) :
    FormulaReads h w (some ⟨t, w.isDisplay, w.isAligned, w.isNumbered, [], []⟩) :=
  .symbols t [] t hb ht ⟨noLabel_plain hs, by simp⟩ rfl (Eqn.noPair_plain hs) (unmet_of _ hs) (symbols_plain hs)

def exFormula : Formula := .inline "x + y".toList
def exEquation : Formula := .env "equation".toList [] false "\\label{e} a = \\alpha".toList [] false
def exDoc3 : Str := "\\newcommand{\\R}{real}Let $x + y$ be \\R :\\begin{equation}\\label{e} a = \\alpha\\end{equation}".toList

def exMathTok (id : Nat) (t : String) (display numbered : Bool) (labels : List Str) : Tok := .mk id "equation".toList (.eqn ⟨t.toList, display, false, numbered, labels, []⟩) [] none

theorem ex_equation (cur : Option Nat) (n : Nat) : FormulaReads (exAfter cur n).defs exEquation (some ⟨"a = \\alpha".toList, true, false, true, ["e".toList], []⟩) := by
  have key : ∀ a b : Str, "a = \\alpha".toList = a ++ '\\' :: b → b = "alpha".toList := by
    intro a b e
    match a, e with
    | [], e => simp at e
    | [_], e => simp at e
    | [_, _], e => simp at e
    | [_, _, _], e => simp at e
    | [_, _, _, _], e => simp at e; exact e.2.2.2.2.symm
    | _ :: _ :: _ :: _ :: _ :: a, e =>
      have : "alpha".toList = a ++ '\\' :: b := by simp at e; exact e.2.2.2.2.2
      exact absurd (show '\\' ∈ "alpha".toList by rw [this]; simp) (by decide)
  refine .symbols [] [([], "e".toList, " a = \\alpha".toList)] "a = \\alpha".toList (by decide +kernel) (show _ = _ by decide +kernel) ⟨noLabel_plain (by simp), ?_⟩ (by decide +kernel) ?_ ?_ ?_
  · intro e he
    rw [List.mem_singleton.1 he]
    refine ⟨by simp, by decide, by decide +kernel, noLabel_plain (by decide), ?_⟩
    rintro w _ ⟨a, b, e⟩
    have hn : ¬ Contains " a = \\alpha".toList "\\label".toList := by decide +kernel
    exact hn ⟨a, w ++ '{' :: b, by have e : " a = \\alpha".toList = _ := e; rw [e]; simp⟩
  · refine Pre.noPair_end fun a b e => ?_
    have hn : ¬ Contains "a = \\alpha".toList "\\end".toList := by decide +kernel
    exact absurd ⟨a, b, e⟩ hn
  · intro a b e
    rw [key a b e]
    exact ⟨"alpha".toList, [], by simp, .inl ⟨by decide, by decide, by simp⟩, not_R (by decide) _ _⟩
  · intro a b e
    rw [key a b e]
    exact ⟨"alpha".toList, [], by simp, .inl ⟨by decide, by decide, by simp⟩, by decide +kernel, by decide +kernel, by decide +kernel, by decide +kernel, by decide +kernel, by decide +kernel⟩

/-- A document with a definition and two formulas. -/
theorem ex_reading3 : Reading id id Doc.empty (.text [] false (stripLatexComments exDoc3)) (exAfter none 5)
    [exText 0 "Let ", exMathTok 1 "x + y" false false [], exText 2 "be real :", exMathTok 4 "a = \\alpha" true true ["e".toList]] := by
  have hen : entered exDef.meaning false = [(.newcommand "R".toList "real".toList 0 [] false, false)] := by decide +kernel
  have hs : stripLatexComments exDoc3 = '\\' :: ("newcommand".toList ++ ("{\\R}{real}".toList ++ ("Let ".toList ++ (exFormula.render ++ ([' '] ++ ("be ".toList ++ ('\\' :: ("R".toList ++ ([] ++ (" :".toList ++
    (exEquation.render ++ []))))))))))) := by decide +kernel
  rw [hs]
  refine .define "newcommand".toList "{\\R}{real}".toList _ exDef.meaning '}' ?_ (.inl ⟨by decide, by decide, by decide⟩) (by simp [Doc.empty]) ?_ ?_ rfl ?_
  · rw [show '\\' :: ("newcommand".toList ++ "{\\R}{real}".toList) = exDef.written by decide +kernel]
    exact .newcommand exDef _ ⟨by decide, by unfold Blank; decide, ⟨by decide, by decide⟩, by simp [exDef], by simp [exDef], by simp [exDef], by unfold Blank; decide, EnvT.wrappable_plain _ _ _ (by decide +kernel) (by decide +kernel)⟩
  · rw [hen]
    intro x hx
    rw [List.mem_singleton.1 hx]
    exact ⟨.inl ⟨by decide, by decide⟩, trivial⟩
  · intro n hn; cases hn
  rw [show Doc.learned Doc.empty exDef.meaning = exAfter none 0 by unfold Doc.learned; rw [hen]; rfl]
  have hfm : ∀ n, ∀ m ∈ formulaNames, ∀ x ∈ (exAfter none n).defs, ¬ Meant x.1 m := fun n m hm => not_R (by revert m hm; decide) _ _
  refine Reading.words (conv := id) (c := exAfter none 0) "Let ".toList _ 'L' ' ' (by decide) rfl (by decide) rfl ⟨by decide, .inr (.inl ⟨⟨_, .inl rfl⟩, fun e => absurd (show some '$' = some '{' from e) (by decide)⟩)⟩ (by decide) (by simp) ?_
  refine .formula exFormula _ _ (show _ ∉ _ by decide +kernel) (FormulaReads.plain (t := "x + y".toList) (by decide +kernel) ⟨by decide +kernel, by decide +kernel⟩ (by decide)) (hfm _) ?_
  refine .blank [' '] _ (by simp [Blank]; decide) (by simp) ?_
  refine Reading.words (conv := id) (c := exAfter none 2) "be ".toList _ 'b' ' ' (by decide) rfl (by decide) rfl ⟨by decide, .inr (.inl ⟨stops_word (by decide), by simp⟩)⟩ (by decide) ?_ ?_
  · exact fun u hu => notText (l := [exText 0 "Let "]) (u := exMathTok 1 "x + y" false false []) (by show "equation".toList ≠ _; decide) hu
  refine .use "R".toList [] _ "real".toList (.word _ _ _ (by decide) ⟨by decide, by decide⟩ ⟨[], [], _, rfl, .inl rfl, by simp, by simp, by decide +kernel, by decide +kernel⟩ (by decide)) (by decide +kernel) ?_
  rw [show ∀ r : Str, "real".toList ++ (" :".toList ++ r) = "real :".toList ++ r from fun r => by rw [← List.append_assoc]; rfl]
  refine .text (toks1 := [exText 0 "Let ", exMathTok 1 "x + y" false false [], exText 2 "be real :"]) "real :".toList _ 'r' ':' 4 (chunk_of (by decide)) rfl (by decide) rfl ⟨by decide, .inr (.inl ⟨?_, fun e => absurd (show some '\\' = some '{' from e) (by decide)⟩)⟩ (unmet_of _ (by decide))
    (.text _ _ _ (by simp) (.join [exText 0 "Let ", exMathTok 1 "x + y" false false []] (exText 2 "be ") "be ".toList "real :".toList ⟨rfl, rfl, rfl⟩ ⟨rfl, rfl, rfl⟩)) ?_
  · exact stops_word (c := 'b') (by decide)
  refine .formula exEquation _ _ ⟨⟨"equation", by decide, rfl⟩, by simp, by simp, ?_⟩ (ex_equation _ _) (hfm _) (.done _ _ _ [] (by simp [Blank]))
  rintro w s _ ⟨a, b, e⟩
  have hn : ¬ Contains "\\label{e} a = \\alpha".toList "\\end".toList := by decide +kernel
  exact hn ⟨a, w ++ ('{' :: ("equation".toList ++ (if s then ['*'] else []) ++ ['}'])) ++ b, by rw [e]; unfold tag; simp⟩

/-- The theorem about it. -/
example : ∃ st' N, st'.labels = [] ∧ ∀ n, N ≤ n → parse exCfg n .default (fresh ⟨Boxes.empty, []⟩ ()) exDoc3 =
    .ok st' [exText 0 "Let ", exMathTok 1 "x + y" false false [], exText 2 "be real :", exMathTok 4 "a = \\alpha" true true ["e".toList]] :=
  C65_fresh exCfg exOrder cfg0_letters exMath _ _ _ _ _ ex_reading3

/-- C65: whether a blank stands behind a formula cannot be told from the tokens: `$n$ th` and `$n$th` are read to the same. -/
theorem C65_violated_blank_after_formula : ∃ toks, Gives "$n$ th" [] toks ∧ Gives "$n$th" [] toks := by
  have key : ∀ (ws : Str), Blank ws → Reading id id (exAt [] none 0) (.text [] false ((Formula.inline "n".toList).render ++ (ws ++ "th".toList))) (exAt [] none 2) [exMathTok 0 "n" false false [], exText 1 "th"] := by
    intro ws hws
    have h : ∀ space, Reading id id (exAt [] none 1) (.text [exMathTok 0 "n" false false []] space "th".toList) (exAt [] none 2) [exMathTok 0 "n" false false [], exText 1 "th"] := fun space =>
      Reading.lastWords (conv := id) (c := exAt [] none 1) "th".toList 't' 'h' (by decide) rfl (by decide) rfl (by decide) (fun u hu => notText (l := []) (u := exMathTok 0 "n" false false []) (by show "equation".toList ≠ _; decide) hu)
    refine .formula (.inline "n".toList) _ _ (show _ ∉ _ by decide +kernel) (FormulaReads.plain (t := "n".toList) (by decide +kernel) ⟨by decide +kernel, by decide +kernel⟩ (by decide)) (by simp [exAt]) ?_
    cases ws with
    | nil => exact h _
    | cons a ws => exact .blank _ _ hws (by simp) (h _)
  exact ⟨_, gives_of (cur := none) (next := 2) (by decide +kernel) (key [' '] (by simp [Blank]; decide)), gives_of (cur := none) (next := 2) (by decide +kernel) (key [] (by simp [Blank]))⟩

theorem layout_ends {w rest : Str} (hw : w ≠ []) (hl : ∀ c ∈ w, isLetter c = true) (hr : NameEnds rest) : Ends w rest := .inl ⟨hw, hl, hr⟩

/-- `a\quad b\newpage`. -/
example : Gives "a\\quad b\\newpage" [] [exText 0 "a b\n"] := by
  refine gives_of (cur := none) (next := 4) (by decide +kernel) ?_
  rw [show "a\\quad b\\newpage".toList = "a".toList ++ ('\\' :: ("quad".toList ++ ([] ++ ([' '] ++ ("b".toList ++ ('\\' :: ("newpage".toList ++ ([] ++ [])))))))) by decide +kernel]
  refine Reading.words (conv := id) (c := exAt [] none 0) "a".toList _ 'a' 'a' (by decide) rfl (by decide) rfl ⟨by decide, .inr (.inl ⟨stops_word (by decide), by simp⟩)⟩ (by decide) (by simp) ?_
  refine .layout (toks1 := [exText 0 "a "]) "quad".toList [] _ " ".toList 'd' 2 (.blank "\\quad" _ (by decide) (by intro c hc; cases hc; decide)) (layout_ends (by decide) (by decide) (by intro c hc; cases hc; decide)) (by decide +kernel) (by simp [exAt])
    (by decide +kernel) (by intro c hc; cases hc; decide) (.text _ _ _ (by decide) (.join [] (exText 0 "a") "a".toList " ".toList ⟨rfl, rfl, rfl⟩ ⟨rfl, rfl, rfl⟩)) rfl ?_
  refine .blank [' '] _ (by simp [Blank]; decide) (by simp) ?_
  refine .text (toks1 := [exText 0 "a b"]) "b".toList _ 'b' 'b' 3 (chunk_of (by decide)) rfl (by decide) rfl ⟨by decide, .inr (.inl ⟨stops_word (by decide), by simp⟩)⟩ (unmet_of _ (by decide))
    (.text _ _ _ (by decide) (.join [] (exText 0 "a ") "a ".toList "b".toList ⟨rfl, rfl, rfl⟩ ⟨rfl, rfl, rfl⟩)) ?_
  exact .layout (toks1 := [exText 0 "a b\n"]) "newpage".toList [] _ "\n".toList 'e' 4 (.line "\\newpage" _ (by decide) (by intro c hc; cases hc)) (layout_ends (by decide) (by decide) (by intro c hc; cases hc)) (by decide +kernel) (by simp [exAt])
    (by decide +kernel) (by intro c hc; cases hc) (.text _ _ _ (by decide) (.join [] (exText 0 "a b") "a b".toList "\n".toList ⟨rfl, rfl, rfl⟩ ⟨rfl, rfl, rfl⟩)) rfl (.done _ _ _ [] (by simp [Blank]))

/-- C65: the end of a paragraph that is written `\par` is lost: what follows is joined as if there were a blank. -/
theorem C65_violated_par : Gives "One.\\par Two." [] [exText 0 "One. Two."] := by
  refine gives_of (cur := none) (next := 2) (by decide +kernel) ?_
  rw [show "One.\\par Two.".toList = "One.".toList ++ ('\\' :: ("par".toList ++ ([] ++ ([' '] ++ ("Two.".toList ++ []))))) by decide +kernel]
  refine Reading.words (conv := id) (c := exAt [] none 0) "One.".toList _ 'O' '.' (by decide) rfl (by decide) rfl ⟨by decide, .inr (.inl ⟨stops_word (by decide), by simp⟩)⟩ (by decide) (by simp) ?_
  refine .layout (toks1 := [exText 0 "One."]) "par".toList [] _ [] 'r' 1 (.silent "\\par" _ (by decide) (by intro c hc; cases hc; decide)) (layout_ends (by decide) (by decide) (by intro c hc; cases hc; decide)) (by decide +kernel) (by simp [exAt])
    (by decide +kernel) (by intro c hc; cases hc; decide) (.empty _) rfl ?_
  refine .blank [' '] _ (by simp [Blank]; decide) (by simp) ?_
  exact .text (toks1 := [exText 0 "One. Two."]) "Two.".toList _ 'T' '.' 2 (chunk_of (by decide)) rfl (by decide) rfl ⟨by decide, .inl rfl⟩ (unmet_of _ (by decide))
    (.text _ _ _ (by decide) (.join [] (exText 0 "One.") "One.".toList "Two.".toList ⟨rfl, rfl, rfl⟩ ⟨rfl, rfl, rfl⟩)) (.done _ _ _ [] (by simp [Blank]))

end L2J.Psr
