import Verif.Props.C65l
/-! C65: documents with definitions, conditionals, switches and styled text. -/
namespace L2J.Psr
open Cmds Defn L2J.Spec

/-- `\newcommand{\R}{real}`. -/
def exDef : NewCommandText := ⟨"\\newcommand", false, [], true, "R".toList, none, [], [], "real".toList⟩

/-- What is known after it. -/
def exAfter (cur : Option Nat) (next : Nat) : Doc := ⟨[(.newcommand "R".toList "real".toList 0 [] false, false)], ⟨[], [], []⟩, [], [], [], cur, next⟩

theorem not_R {w : Str} (h : w ≠ "R".toList) (cur : Option Nat) (next : Nat) : ∀ x ∈ (exAfter cur next).defs, ¬ Meant x.1 w := by
  intro x hx
  rw [List.mem_singleton.1 hx]
  exact h

theorem adds_styled {space : Bool} {id : Nat} {v : Val} {fs : List (Str × Val)} {sty : List Str} {l : List Tok} : Adds space (.mk id "text".toList v fs (some sty)) l (l ++ [.mk id "text".toList v fs (some sty)]) := by
  refine .new _ (fun e => ?_) (fun e => ?_) (fun u _ _ => ?_)
  · exact absurd e (by show ¬ ("text".toList = _ ∨ "text".toList = _ ∨ "text".toList = _); decide)
  · exact absurd e.1 (by show ¬ ("text".toList = _ ∨ "text".toList = _ ∨ "text".toList = _); decide)
  · rintro ⟨b, _, _, hb⟩; cases hb

/-- A text with a style, one word. -/
theorem ex_styled {c : Doc} {toks toks' : List Tok} {c' : Doc} {space : Bool} (n sty : String) (x : String) (a z : Char) (rest : Str) (ht : (n, some sty) ∈ styleTable) (hn : n ≠ "textup" ∧ n ≠ "textnormal")
    (hx : Wrappable '{' '}' x.toList) (hs : strip x.toList ≠ []) (hu : ∀ y ∈ c.defs, ¬ Meant y.1 n.toList) (hp : ¬ Contains ('{' :: (x.toList ++ ['}']) ++ rest) ("\\end".toList ++ n.toList))
    (h : ∀ c ∈ x.toList, c ∉ "\\$%{".toList) (ha : x.toList.head? = some a) (hsp : isSpace a = false) (hz : x.toList.getLast? = some z) (hc : stripLatexComments x.toList = x.toList)
    (hr : Reading id id { c with next := c.next + 1 } (.text (toks ++ [.mk c.next "text".toList (.str x.toList) [] (some [sty.toList])]) false rest) c' toks') :
    Reading id id c (.text toks space ('\\' :: (n.toList ++ ('{' :: (x.toList ++ ['}']) ++ rest)))) c' toks' := by
  have hx0 : x.toList ≠ [] := by intro e; rw [e] at ha; cases ha
  refine .styled (l := [.mk c.next "text".toList (.str x.toList) [] none]) (c1 := { c with next := c.next + 1 }) (c2 := { c with next := c.next + 1 }) n (some sty) ('{' :: (x.toList ++ ['}'])) x.toList rest ht hn
    (.braces [] _ (by simp [Blank]) hx) hs hu hp ?_ (.one _ _ [sty.toList] (.new (l := []) (d := []) .nil (by simp)))
    (.tokensCons _ [] _ (.ready (.mk c.next "text".toList (.str x.toList) [] (some [sty.toList])) _ (by show "text".toList ∉ _; decide) adds_styled) (.tokensNil _)) hr
  rw [hc]
  exact Reading.lastWords (conv := id) (c := c) x.toList a z h ha hsp hz (by simpa using hx0) (by simp)

theorem ex_bold (cur : Option Nat) (n : Nat) : Reading id id (exAfter cur n) (.text [] false (stripLatexComments "\\bf bold".toList)) (exAfter cur (n + 1)) [.mk n "text".toList (.str "bold".toList) [] (some ["bold".toList])] := by
  rw [show stripLatexComments "\\bf bold".toList = '\\' :: ("bf".toList ++ ([' '] ++ (pieces [] "bold".toList ++ ([] ++ [])))) by decide +kernel]
  refine .switch "bf".toList _ _ _ (.switch (k := .font) (n := "bf") (style := "bold") (cmd := "textbf") [' '] [] "bold".toList [] [] (by decide +kernel) (by decide +kernel) (by decide) (by decide) (by unfold NoLetterAt; decide)
    (EnvT.wrappable_plain _ _ _ (by decide +kernel) (by decide +kernel)) (.inl rfl) (by simp) (.inl rfl) (EnvT.noPairs_of (by decide +kernel)) ?_ ?_) (.inl ⟨by decide, by decide, by decide⟩) (not_R (by decide) _ _) ?_
  · exact Legacy.quiet_of (by decide +kernel)
  · exact Legacy.notEnds_of (by decide +kernel)
  rw [show command "textbf" [] (pieces [] "bold".toList) ++ ([] ++ []) = '\\' :: ("textbf".toList ++ ('{' :: ("bold".toList ++ ['}']) ++ [])) by decide +kernel]
  exact ex_styled (c := exAfter cur n) "textbf" "bold" "bold" 'b' 'd' [] (by decide) (by decide) (EnvT.wrappable_plain _ _ _ (by decide +kernel) (by decide +kernel)) (by decide +kernel) (not_R (by decide) _ _) (by decide +kernel)
    (by decide) rfl (by decide) rfl (by decide +kernel) (.done _ _ _ [] (by simp [Blank]))

def exDoc2 : Str := "\\newcommand{\\R}{real}A \\R -number \\iffalse no\\fi{\\bf bold}".toList

/-- A document with a definition, its use, a conditional and a switch. -/
theorem ex_reading2 : Reading id id Doc.empty (.text [] false (stripLatexComments exDoc2)) (exAfter none 3) [exText 0 "A real -number ", .mk 2 "text".toList (.str "bold".toList) [] (some ["bold".toList])] := by
  have hen : entered exDef.meaning false = [(.newcommand "R".toList "real".toList 0 [] false, false)] := by decide +kernel
  have hs : stripLatexComments exDoc2 = '\\' :: ("newcommand".toList ++ ("{\\R}{real}".toList ++ ("A ".toList ++ ('\\' :: ("R".toList ++ ([] ++ (" -number ".toList ++ ('\\' :: ("if".toList ++ "false".toList ++ (" no".toList ++ ("\\fi".toList ++
    ('{' :: ("\\bf bold".toList ++ '}' :: []))))))))))))) := by decide +kernel
  rw [hs]
  refine .define "newcommand".toList "{\\R}{real}".toList _ exDef.meaning '}' ?_ (.inl ⟨by decide, by decide, by decide⟩) (by simp [Doc.empty]) ?_ ?_ rfl ?_
  · rw [show '\\' :: ("newcommand".toList ++ "{\\R}{real}".toList) = exDef.written by decide +kernel]
    exact .newcommand exDef _ ⟨by decide, by unfold Blank; decide, ⟨by decide, by decide⟩, by simp [exDef], by simp [exDef], by simp [exDef], by unfold Blank; decide, EnvT.wrappable_plain _ _ _ (by decide +kernel) (by decide +kernel)⟩
  · rw [hen]
    intro x hx
    rw [List.mem_singleton.1 hx]
    exact ⟨.inl ⟨by decide, by decide⟩, trivial⟩
  · intro n hn; cases hn
  rw [show Doc.learned Doc.empty exDef.meaning = exAfter none 0 by unfold Doc.learned; rw [hen]; rfl]
  refine Reading.words (conv := id) (c := exAfter none 0) "A ".toList _ 'A' ' ' (by decide) rfl (by decide) rfl ⟨by decide, .inr (.inl ⟨stops_word (by decide), by simp⟩)⟩ (by decide) (by simp) ?_
  refine .use "R".toList [] _ "real".toList (.word _ _ _ (by decide) ⟨by decide, by decide⟩ ⟨[], [], _, rfl, .inl rfl, by simp, by simp, by decide +kernel, by decide +kernel⟩ (by decide)) (by decide +kernel) ?_
  rw [show ∀ r : Str, "real".toList ++ (" -number ".toList ++ r) = "real -number ".toList ++ r from fun r => by rw [← List.append_assoc]; rfl]
  refine .text (toks1 := [exText 0 "A real -number "]) "real -number ".toList _ 'r' ' ' 2 (chunk_of (by decide)) rfl (by decide) rfl ⟨by decide, .inr (.inl ⟨stops_word (by decide), by simp⟩)⟩ (unmet_of _ (by decide))
    (.text _ _ _ (by simp) (.join [] (exText 0 "A ") "A ".toList "real -number ".toList ⟨rfl, rfl, rfl⟩ ⟨rfl, rfl, rfl⟩)) ?_
  refine .cond _ [] _ (.fi "false".toList " no".toList _ ?_ (by decide) (.undeclared ⟨⟨by decide, by decide⟩, by decide, by decide, by decide⟩ ⟨' ', by decide, by decide⟩) (by decide)
    (.plain _ _ ⟨by decide +kernel, fun _ => by decide +kernel⟩) (by decide)) ?_
  · exact ⟨.inl ⟨by decide, by decide, by decide⟩, by decide, by decide +kernel, by decide +kernel, not_R (by decide) _ _⟩
  refine .group (c1 := exAfter none 3) _ [] (by decide +kernel) (ex_bold none 2) (.cons adds_styled (.nil _)) (.done _ _ _ [] (by simp [Blank]))

/-- The theorem about it. -/
example : ∃ st' N, st'.labels = [] ∧ ∀ n, N ≤ n → parse exCfg n .default (fresh ⟨Boxes.empty, []⟩ ()) exDoc2 = .ok st' [exText 0 "A real -number ", .mk 2 "text".toList (.str "bold".toList) [] (some ["bold".toList])] :=
  C65_fresh exCfg exOrder cfg0_letters exMath _ _ _ _ _ ex_reading2

/-- C65: whether a blank stands behind styled text cannot be told from the tokens: two documents that differ are read to the same. -/
theorem C65_violated_blank_after : ∃ toks, Gives "\\textbf{a} b" [] toks ∧ Gives "\\textbf{a}b" [] toks := by
  have key : ∀ (ws : Str), Blank ws → Reading id id (exAt [] none 1) (.text [.mk 0 "text".toList (.str "a".toList) [] (some ["bold".toList])] false (ws ++ "b".toList)) (exAt [] none 2)
      [.mk 0 "text".toList (.str "a".toList) [] (some ["bold".toList]), exText 1 "b"] := by
    intro ws hws
    have h : ∀ space, Reading id id (exAt [] none 1) (.text [.mk 0 "text".toList (.str "a".toList) [] (some ["bold".toList])] space "b".toList) (exAt [] none 2)
        [.mk 0 "text".toList (.str "a".toList) [] (some ["bold".toList]), exText 1 "b"] := fun space =>
      Reading.lastWords (conv := id) (c := exAt [] none 1) "b".toList 'b' 'b' (by decide) rfl (by decide) rfl (by decide) (by
        intro u hu
        cases hu
        rintro ⟨a, _, _, h⟩; cases h)
    cases ws with
    | nil => exact h _
    | cons a ws => exact .blank _ _ hws (by simp) (h _)
  refine ⟨[.mk 0 "text".toList (.str "a".toList) [] (some ["bold".toList]), exText 1 "b"], gives_of (cur := none) (next := 2) (by decide +kernel) ?_, gives_of (cur := none) (next := 2) (by decide +kernel) ?_⟩
  · rw [show "\\textbf{a} b".toList = '\\' :: ("textbf".toList ++ ('{' :: ("a".toList ++ ['}']) ++ ([' '] ++ "b".toList))) by decide +kernel]
    exact ex_styled (c := exAt [] none 0) "textbf" "bold" "a" 'a' 'a' _ (by decide) (by decide) (EnvT.wrappable_plain _ _ _ (by decide +kernel) (by decide +kernel)) (by decide +kernel) (by simp [exAt]) (by decide +kernel)
      (by decide) rfl (by decide) rfl (by decide +kernel) (key _ (by simp [Blank]; decide))
  · rw [show "\\textbf{a}b".toList = '\\' :: ("textbf".toList ++ ('{' :: ("a".toList ++ ['}']) ++ ([] ++ "b".toList))) by decide +kernel]
    exact ex_styled (c := exAt [] none 0) "textbf" "bold" "a" 'a' 'a' _ (by decide) (by decide) (EnvT.wrappable_plain _ _ _ (by decide +kernel) (by decide +kernel)) (by decide +kernel) (by simp [exAt]) (by decide +kernel)
      (by decide) rfl (by decide) rfl (by decide +kernel) (key _ (by simp [Blank]))

/-- C65: a switch back to the normal size becomes a switch to the normal font: the token has the style `normal`, not the size `medium`. -/
theorem C65_violated_normalsize : Gives "{\\normalsize a}" [] [.mk 0 "text".toList (.str "a".toList) [] (some ["normal".toList])] := by
  refine gives_of (cur := none) (next := 1) (by decide +kernel) ?_
  rw [show "{\\normalsize a}".toList = '{' :: ("\\normalsize a".toList ++ '}' :: []) by decide +kernel]
  refine .group (c1 := exAt [] none 1) (l := [.mk 0 "text".toList (.str "a".toList) [] (some ["normal".toList])]) _ [] (by decide +kernel) ?_ (.cons adds_styled (.nil _)) (.done _ _ _ [] (by simp [Blank]))
  rw [show stripLatexComments "\\normalsize a".toList = '\\' :: ("normalsize".toList ++ ([' '] ++ (pieces [] "a".toList ++ ([] ++ [])))) by decide +kernel]
  refine .switch "normalsize".toList _ _ _ (.switch (k := .size) (n := "normalsize") (style := "medium") (cmd := "textnormal") [' '] [] "a".toList [] [] (by decide +kernel) (by decide +kernel) (by decide) (by decide) (by unfold NoLetterAt; decide)
    (EnvT.wrappable_plain _ _ _ (by decide +kernel) (by decide +kernel)) (.inl rfl) (by simp) (.inl rfl) (EnvT.noPairs_of (by decide +kernel)) (Legacy.quiet_of (by decide +kernel)) (Legacy.notEnds_of (by decide +kernel)))
    (.inl ⟨by decide, by decide, by decide⟩) (by simp [exAt]) ?_
  rw [show command "textnormal" [] (pieces [] "a".toList) ++ ([] ++ []) = '\\' :: ("textnormal".toList ++ "{a}".toList) by decide +kernel]
  refine .switch "textnormal".toList "{a}".toList (command "textrm" [] (strip "a".toList)) [] ?_ (.inl ⟨by decide, by decide, by decide⟩) (by simp [exAt]) ?_
  · rw [show '\\' :: ("textnormal".toList ++ "{a}".toList) = command "textnormal" [] "a".toList ++ [] by decide +kernel]
    exact .braces (k := .font) (n := "textnormal") (style := "normal") (cmd := "textrm") [] "a".toList [] (by decide +kernel) (by decide +kernel) (by simp) (EnvT.wrappable_plain _ _ _ (by decide +kernel) (by decide +kernel))
  rw [show command "textrm" [] (strip "a".toList) ++ [] = '\\' :: ("textrm".toList ++ ('{' :: ("a".toList ++ ['}']) ++ [])) by decide +kernel]
  exact ex_styled (c := exAt [] none 0) "textrm" "normal" "a" 'a' 'a' [] (by decide) (by decide) (EnvT.wrappable_plain _ _ _ (by decide +kernel) (by decide +kernel)) (by decide +kernel) (by simp [exAt]) (by decide +kernel)
    (by decide) rfl (by decide) rfl (by decide +kernel) (.done _ _ _ [] (by simp [Blank]))

end L2J.Psr
