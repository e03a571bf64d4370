import Verif.Props.C65r
/-! C65: documents with code, comments, groups and user-defined environments. -/
namespace L2J.Psr
open Cmds Defn L2J.Spec

theorem reads_plain {x rest : Str} {ts : List Spec.Tok} (h : ∀ c ∈ x, c ≠ '#' ∧ c ≠ '\\') (hr : Spec.Reads rest ts) : Spec.Reads (x ++ rest) (x.map .lit ++ ts) := by
  induction x with
  | nil => exact hr
  | cons c x ih =>
    refine .lit c _ _ (fun e => (h c (by simp)).2 e.1) ?_ (ih fun d hd => h d (by simp [hd]))
    rintro ⟨k, d, t, hk, _, e⟩
    obtain ⟨k, rfl⟩ : ∃ j, k = j + 1 := ⟨k - 1, by omega⟩
    simp [List.replicate_succ] at e
    exact (h c (by simp)).1 e.1

/-- A command that does not stand in a text at all. -/
theorem commandFree_of {ok : Option Char → Bool} {w t : Str} (h : ¬ Contains t w) : CommandFree ok w t := by
  rintro u v rfl ⟨x, rfl, _⟩
  exact h ⟨u, x, by simp⟩

/-- `\newenvironment{memo}[1]{Note #1:}{.}`. -/
def exNewEnv : EnvDefine := ⟨0, false, "memo".toList, some ("1".toList, []), "Note #1:".toList, ".".toList⟩
def exUse : EnvUse := ⟨[], ["A".toList], "x".toList⟩
def exCode : CodeText := ⟨"\\verb|a_b|".toList, "a_b".toList, none, true⟩

def exDoc4 : Str := "\\newenvironment{memo}[1]{Note #1:}{.}\\begin{memo}{A}x\\end{memo}\\begin{comment}hidden\\end{comment}\\verb|a_b|".toList

/-- What is known after it. -/
def exWith (next : Nat) (cur : Option Nat) : Doc := ⟨[], ⟨[("memo".toList, ⟨"Note #1:".toList, ".".toList, 1, []⟩)], [], []⟩, [], [], [], cur, next⟩

theorem ex_stands : StandsForEnv exNewEnv exUse "Note A:\nx\n.".toList where
  fits := by
    refine ⟨by decide, by decide +kernel, by simp [exUse], ?_, by simp [exUse], by decide +kernel⟩
    intro a ha
    rw [List.mem_singleton.1 ha]
    exact EnvT.wrappable_plain _ _ _ (by decide +kernel) (by decide +kernel)
  body := .plain _ (noDelim_of (by decide +kernel)) (noDelim_of (by decide +kernel))
  text := by
    refine ⟨"Note A:".toList, ".".toList, ?_, ?_, by decide +kernel⟩
    · have h2 : Spec.Reads ":".toList (":".toList.map .lit ++ []) := reads_plain (x := ":".toList) (by decide) .nil
      have h1 : Spec.Reads "#1:".toList (.param 1 ['1'] :: (":".toList.map .lit ++ [])) := Spec.Reads.param 1 ['1'] ":".toList _ (by decide) (by decide) (by decide) (by decide) h2
      have h0 : Spec.Reads "Note #1:".toList ("Note ".toList.map .lit ++ .param 1 ['1'] :: (":".toList.map .lit ++ [])) := reads_plain (x := "Note ".toList) (by decide) h1
      refine ⟨_, h0, .inr ⟨1, by decide +kernel, ⟨⟨['1'], by simp⟩, ?_⟩, ?_, by decide +kernel⟩⟩
      · intro k ds h; simp at h; omega
      · intro ds h; simp at h; subst h; decide
    · exact ⟨_, reads_plain (x := ".".toList) (rest := []) (by decide) .nil, .inl ⟨.inr (by simp), rfl⟩⟩

/-- A document with the definition of an environment, its use, a comment and code. -/
theorem ex_reading4 : Reading id id Doc.empty (.text [] false (stripLatexComments exDoc4)) (exWith 3 none)
    [.mk 0 "environment".toList (.toks [exText 1 "Note A:\nx\n."]) [("name".toList, .str "memo".toList)] none, .mk 2 "code".toList (.str "a_b".toList) [("display".toList, .str "inline".toList)] none] := by
  have hs : stripLatexComments exDoc4 = exNewEnv.render ++ ("\\begin{memo}".toList ++ (exUse.inner ++ ("\\end{memo}".toList ++ ("\\begin{comment}".toList ++ ("hidden".toList ++ ("\\end{comment}".toList ++
    (exCode.written ++ []))))))) := by decide +kernel
  rw [hs]
  refine .newEnv exNewEnv _ ?_ (by simp [Doc.empty]) ?_
  · refine ⟨by decide, ?_, EnvT.wrappable_plain _ _ _ (by decide +kernel) (by decide +kernel), EnvT.wrappable_plain _ _ _ (by decide +kernel) (by decide +kernel)⟩
    intro n ds h
    cases h
    exact ⟨by decide, by decide, by simp⟩
  refine .userEnv (c := exWith 0 none) (c1 := exWith 2 none) (toks1 := [.mk 0 "environment".toList (.toks [exText 1 "Note A:\nx\n."]) [("name".toList, .str "memo".toList)] none]) exNewEnv exUse ⟨"", "environment", .never, 0⟩
    "Note A:\nx\n.".toList _ _ _ (show _ = _ by decide +kernel) ex_stands (.inr (.inr ⟨by decide +kernel, rfl, rfl, rfl⟩)) (by decide +kernel) (show Plainly "memo".toList by unfold Plainly; decide +kernel)
    ⟨[], by simp, by decide +kernel⟩ ⟨[], by simp, by decide +kernel⟩ (by simp [exWith]) ?_ ?_
  · refine .body 0 "environment".toList "Note A:\nx\n.".toList _ none _ (by decide) ⟨by decide, by decide⟩ (by decide) (c1 := exWith 2 (some 0)) (l := [exText 1 "Note A:\nx\n."]) ?_
      (.untitled _ _ (by decide +kernel) (adds_sized (t := .mk 0 "environment".toList (.toks [exText 1 "Note A:\nx\n."]) [("name".toList, .str "memo".toList)] none) (l := []) (n := 0) (by decide) rfl))
    rw [show stripLatexComments "Note A:\nx\n.".toList = "Note A:\nx\n.".toList by decide +kernel]
    exact Reading.lastWords (conv := id) (c := exWith 1 (some 0)) "Note A:\nx\n.".toList 'N' '.' (by decide) rfl (by decide) rfl (by decide) (by simp)
  refine .comment _ _ _ _ ⟨[], by simp, by decide +kernel⟩ ⟨[], by simp, by decide +kernel⟩ (.plain _ (noDelim_of (by decide +kernel)) (noDelim_of (by decide +kernel))) (by simp [exWith]) ?_
  exact .code exCode _ '|' (.verb '|' "a_b".toList (by decide) (by decide) (by decide) (by decide)) (by intro _ a ha; cases ha; decide) (by simp [exWith]) rfl (.done _ _ _ [] (by simp [Blank]))

/-- The theorem about it. -/
example : ∃ st' N, st'.labels = [] ∧ ∀ n, N ≤ n → parse exCfg n .default (fresh ⟨Boxes.empty, []⟩ ()) exDoc4 = .ok st'
    [.mk 0 "environment".toList (.toks [exText 1 "Note A:\nx\n."]) [("name".toList, .str "memo".toList)] none, .mk 2 "code".toList (.str "a_b".toList) [("display".toList, .str "inline".toList)] none] :=
  C65_fresh exCfg exOrder cfg0_letters exMath _ _ _ _ _ ex_reading4

/-- C65: a percent sign in code is taken for the start of a comment: the rest of the line is lost. -/
theorem C65_violated_code_percent : Gives "\\begin{verbatim}\nx = 5 % 3\ny\n\\end{verbatim}" [] [.mk 0 "code".toList (.str "x = 5\ny".toList) [] none] := by
  refine C65_fresh exCfg exOrder cfg0_letters exMath ⟨Boxes.empty, []⟩ () (exAt [] none 1) _ _ ?_
  rw [show stripLatexComments "\\begin{verbatim}\nx = 5 % 3\ny\n\\end{verbatim}".toList = CodeText.written ⟨"\\begin{verbatim}".toList ++ ("\nx = 5\ny\n".toList ++ "\\end{verbatim}".toList), "\nx = 5\ny\n".toList, none, false⟩ ++ [] by
    decide +kernel]
  exact .code (c := exAt [] none 0) (toks := []) _ _ '}' (.verbatim _ _ _ ⟨[], by simp, by decide +kernel⟩ (noDelim_of (by decide +kernel)) ⟨[], by simp, by decide +kernel⟩) (fun h => by cases h) (by simp [exAt]) rfl
    (.done _ _ _ [] (by simp [Blank]))

/-- A group written with commands, and an environment. -/
theorem ex_reading5 : Reading id id (exAt [] none 0) (.text [] false "\\begingroup c\\endgroup\\center d\\endcenter".toList) (exAt [] none 4)
    [.mk 0 "group".toList (.toks [exText 1 "c"]) [("name".toList, .str "group".toList)] none, .mk 2 "group".toList (.toks [exText 3 "d"]) [("name".toList, .str "center".toList)] none] := by
  rw [show "\\begingroup c\\endgroup\\center d\\endcenter".toList = (groupCommands false).1 ++ (" c".toList ++ ((groupCommands false).2 ++ ('\\' :: ("center".toList ++ (EnvInner.render ⟨[' '], none, [], "d".toList⟩ ++
    ("\\end".toList ++ "center".toList ++ [])))))) by decide +kernel]
  refine .groupCmd (c1 := exAt [] none 2) (toks1 := [.mk 0 "group".toList (.toks [exText 1 "c"]) [("name".toList, .str "group".toList)] none]) false _ _ ?_ ?_ ?_ (by decide +kernel) (by simp [exAt])
    (by intro a ha; cases ha; decide) ?_ ?_
  · exact .plain _ (commandFree_of (by decide +kernel)) (commandFree_of (by decide +kernel))
  · unfold MayFollow; decide +kernel
  · intro x hx; cases hx; decide
  · refine .body 0 "group".toList " c".toList _ none _ (by decide) ⟨by decide, by decide⟩ (by decide) (c1 := exAt [] (some 0) 2) (l := [exText 1 "c"]) ?_
      (.untitled _ _ (by decide +kernel) (adds_sized (t := .mk 0 "group".toList (.toks [exText 1 "c"]) [("name".toList, .str "group".toList)] none) (l := []) (n := 0) (by decide) rfl))
    rw [show stripLatexComments " c".toList = [' '] ++ "c".toList by decide +kernel]
    refine .blank _ _ (by simp [Blank]; decide) (by simp) ?_
    exact Reading.lastWords (conv := id) (c := exAt [] (some 0) 1) "c".toList 'c' 'c' (by decide) rfl (by decide) rfl (by decide) (by simp)
  refine .pair (c1 := exAt [] none 4) ⟨"center", "group", .never, 0⟩ "center".toList [] ⟨[' '], none, [], "d".toList⟩ (by decide) (by decide +kernel) (by decide) (by decide) rfl (.inl ⟨by decide +kernel, by decide +kernel⟩) ?_ (by
    intro x hx; cases hx; decide) ?_ ?_ ?_ (.done _ _ _ [] (by simp [Blank]))
  · exact ⟨by decide +kernel, by simp, (fun e he => by cases he), Nat.le_refl 0, fun h => absurd h (by decide), by decide +kernel⟩
  · exact .plain _ (commandFree_of (by decide +kernel)) (commandFree_of (by decide +kernel))
  · exact ⟨passes_spec (by decide +kernel) (by intro c hc; cases hc; decide) (by simp [exAt]), notFirsts_spec (by decide +kernel) (by intro c hc; cases hc; decide) (by intro c hc; cases hc; decide), notContents_spec (by decide +kernel) (by intro c hc; cases hc; decide), by decide +kernel⟩
  · refine .body 2 "group".toList " d".toList _ none _ (by decide) ⟨by decide, by decide⟩ (by decide) (c1 := exAt [] (some 2) 4) (l := [exText 3 "d"]) ?_
      (.untitled _ _ (by decide +kernel) (adds_sized (t := .mk 2 "group".toList (.toks [exText 3 "d"]) [("name".toList, .str "center".toList)] none) (n := 0) (by decide) rfl))
    rw [show stripLatexComments " d".toList = [' '] ++ "d".toList by decide +kernel]
    refine .blank _ _ (by simp [Blank]; decide) (by simp) ?_
    exact Reading.lastWords (conv := id) (c := exAt [] (some 2) 3) "d".toList 'd' 'd' (by decide) rfl (by decide) rfl (by decide) (by simp)

/-- The theorem about it. -/
example : Gives "\\begingroup c\\endgroup\\center d\\endcenter" []
    [.mk 0 "group".toList (.toks [exText 1 "c"]) [("name".toList, .str "group".toList)] none, .mk 2 "group".toList (.toks [exText 3 "d"]) [("name".toList, .str "center".toList)] none] :=
  gives_of (cur := none) (next := 4) (by decide +kernel) ex_reading5

end L2J.Psr
