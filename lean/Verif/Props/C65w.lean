import Verif.Props.C65u
/-! C65: accents in a document. -/
namespace L2J.Psr
open Cmds Defn L2J.Spec

/-- `caf\'{e} x`. -/
example : Gives "caf\\'{e} x" [] [.mk 0 "text".toList (.str ("cafe".toList ++ Char.ofNat 0x301 :: " x".toList)) [] none] := by
  refine gives_of (cur := none) (next := 3) (by decide +kernel) ?_
  rw [show "caf\\'{e} x".toList = "caf".toList ++ ('\\' :: ("'".toList ++ ("{e}".toList ++ ([' '] ++ ("x".toList ++ []))))) by decide +kernel]
  refine Reading.words (conv := id) (c := exAt [] none 0) "caf".toList _ 'c' 'f' (by decide) rfl (by decide) rfl ⟨by decide, .inr (.inl ⟨stops_word (by decide), by simp⟩)⟩ (by decide) (by simp) ?_
  refine .accent (toks1 := [.mk 0 "text".toList (.str ("cafe".toList ++ [Char.ofNat 0x301])) [] none]) "'" 0x301 "{e}".toList ['e'] _ (by decide) (by decide)
    (AccentArg.group [] ['e'] (by simp) (by unfold Wrappable Balanced; decide +kernel) (by simp)) (by simp [exAt]) (by decide +kernel) (by intro c hc; cases hc; decide)
    (.join [] (exText 0 "caf") "caf".toList ['e', Char.ofNat 0x301] ⟨rfl, rfl, rfl⟩ ⟨rfl, rfl, rfl⟩) ?_
  refine .blank [' '] _ (by simp [Blank]; decide) (by simp) ?_
  exact .text "x".toList _ 'x' 'x' 3 (chunk_of (by decide)) rfl (by decide) rfl ⟨by decide, .inl rfl⟩ (unmet_of _ (by decide))
    (.text _ _ _ (by decide) (.join [] (.mk 0 "text".toList (.str ("cafe".toList ++ [Char.ofNat 0x301])) [] none) ("cafe".toList ++ [Char.ofNat 0x301]) "x".toList ⟨rfl, rfl, rfl⟩ ⟨rfl, rfl, rfl⟩)) (.done _ _ _ [] (by simp [Blank]))

/-- A setting, a picture and a loop. -/
example : Gives "\\usetikzlibrary{a}\\begin{picture} p \\end{picture}\\forloop{i}{0}{c}{d}" [] [.mk 0 "diagram".toList (.str "p".toList) [("name".toList, .str "picture".toList)] none] := by
  have w : ∀ x : Str, x ∈ [['a'], ['i'], ['0'], ['c'], ['d']] → Wrappable '{' '}' x := by unfold Wrappable Balanced; decide +kernel
  refine gives_of (cur := none) (next := 1) (by decide +kernel) ?_
  rw [show "\\usetikzlibrary{a}\\begin{picture} p \\end{picture}\\forloop{i}{0}{c}{d}".toList = ("\\use".toList ++ ("tikz".toList ++ ("library".toList ++ ([] ++ '{' :: (['a'] ++ ['}']))))) ++
    (("\\begin{picture}".toList ++ " p ".toList ++ "\\end{picture}".toList) ++ ('\\' :: ("forloop".toList ++ (wrapAll '{' '}' [([], ['i']), ([], ['0']), ([], ['c']), ([], ['d'])] ++ [])))) by decide +kernel]
  refine .package (c := exAt [] none 0) _ _ none (.setting _ (.library "tikz" [] ['a'] (by decide) (by simp [Blank]) (w _ (by simp)))) (by simp [exAt]) ?_
  refine .package (c := exAt [] none 0) _ _ _ (.picture "picture" _ _ (by decide) (.mk _ _ _ ⟨[], by simp, by decide +kernel⟩ (.plain _ (Pkg.noDelim_short (by decide) (by decide)) (Pkg.noDelim_short (by decide) (by decide)))
    ⟨[], by simp, by decide +kernel⟩)) (by simp [exAt]) ?_
  refine .loop _ _ _ (.forloop _ rfl fun e he => ?_) (by simp [exAt]) (by decide +kernel) ?_
  · simp only [List.mem_cons, List.not_mem_nil, or_false] at he
    rcases he with rfl | rfl | rfl | rfl <;> exact ⟨by simp, w _ (by simp)⟩
  · exact .done (exAt [] none 1) _ _ [] (by simp [Blank])

end L2J.Psr
