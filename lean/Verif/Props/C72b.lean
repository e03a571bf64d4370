import Verif.Props.C72
namespace L2J.Pream
open Cmds Defn L2J.Spec

/-- C72, violated: what stands before the class declaration is not read: the package is lost. -/
theorem C72_violated_before_class : getPreamble "\\RequirePackage{fix-cm}\n\\documentclass{article}\n\\usepackage{tikz}".toList = .ok "\\usepackage{tikz}\n".toList := by decide +kernel

/-- C72, violated: a definition that contains `\begin{document}` ends the preamble: a stump of it is given, and what follows is lost. -/
theorem C72_violated_begin : getPreamble "\\newcommand{\\bd}{\\begin{document}}\n\\usepackage{tikz}".toList = .ok "\\newcommand{\\bd}{\n".toList := by decide +kernel

/-- C72, violated: a bracket in the options of a package hides it. -/
theorem C72_violated_option : getPreamble "\\usepackage[a={[b]}]{x}".toList = .ok [] := by decide +kernel

/-- C72, violated: conditionals are not read: what is switched off is given. -/
theorem C72_violated_conditional : getPreamble "\\iffalse\\usepackage{x}\\fi".toList = .ok "\\usepackage{x}\n".toList := by decide +kernel

/-- C72, violated: definitions of environments are left out. -/
theorem C72_violated_environment : getPreamble "\\newenvironment{a}{\\bf}{}\\def\\b{c}".toList = .ok "\\def\\b{c}\n".toList := by decide +kernel

theorem lacks {t w : Str} (h : (List.range (t.length + 1)).all (fun k => !(w.isPrefixOf (t.drop k))) = true) : ¬ Contains t w := by
  rintro ⟨a, b, rfl⟩
  rw [List.all_eq_true] at h
  have := h a.length (by rw [List.mem_range]; simp; omega)
  rw [List.append_assoc, List.drop_left] at this
  simp only [Bool.not_eq_true', ← Bool.not_eq_true, List.isPrefixOf_iff_prefix] at this
  exact this ⟨b, rfl⟩

theorem not_begun {s a : Str} (h : (List.range a.length).all (fun k => !("\\begin".toList.isPrefixOf (s.drop k))) = true) :
    ∀ a' t' b', isBeginDocument t' → s = a' ++ t' ++ b' → a.length ≤ a'.length := by
  rintro a' t' b' ⟨ws, _, rfl⟩ e
  refine Nat.le_of_not_lt fun hl => ?_
  rw [List.all_eq_true] at h
  have := h a'.length (List.mem_range.2 hl)
  rw [e, List.append_assoc, List.drop_left, List.append_assoc] at this
  simp only [Bool.not_eq_true', ← Bool.not_eq_true, List.isPrefixOf_iff_prefix] at this
  exact this ⟨_, rfl⟩

/-- A use of packages with options and blanks. -/
def exUse : UseText := ⟨"\\usepackage".toList, [' '], some ['x'], [], "a,b".toList⟩
/-- `\usetheme{q}`. -/
def exTheme : UseText := ⟨"\\usetheme".toList, [], none, [], ['q']⟩
/-- `\newcounter{k}`. -/
def exCounter : Str := "\\newcounter".toList ++ ([] ++ '{' :: (['k'] ++ ['}']))
/-- The text behind the class declaration. -/
def exBody : Str := ['\n'] ++ (exUse.written ++ ([' '] ++ ('\\' :: ("title".toList ++ ("{T}".toList ++ ('\\' :: '%' :: '\\' :: '\\' :: (['\n'] ++
  (("\\makeatletter".toList ++ "\\x@".toList ++ "\\makeatother".toList) ++ ([' '] ++ (exCounter ++ (exTheme.written ++ [])))))))))))

theorem blank_one : Blank [' '] := by
  intro c hc
  simp at hc
  subst hc
  decide

theorem exBody_reads : Preamble exBody [exUse.written, "\\makeatletter".toList ++ "\\x@".toList ++ "\\makeatother".toList, exCounter, exTheme.written] := by
  unfold exBody
  refine .text ['\n'] _ (by decide) (.use exUse _ ?_ (.text [' '] _ (by decide) (.cmd "title".toList _ (by decide) (by decide) ?_ (by decide) (by decide) (by decide) ?_
    (.text "{T}".toList _ (by decide) (.symbol '%' _ (by decide) (by decide) (.break_ _ ?_ (.text ['\n'] _ (by decide) (.block "\\x@".toList _ ?_ ?_ ?_
      (.text [' '] _ (by decide) (.defn exCounter _ _ (.newcounter "\\newcounter" [] ['k'] _ (.inl rfl) ?_ (by decide) (by decide)) (.use exTheme _ ?_ .done)))))))))))
  · refine ⟨.inl rfl, ?_, ?_, ?_, ?_, by decide, by decide⟩
    · exact blank_one
    · intro o ho; cases ho; decide
    · intro c hc; cases hc
    · intro h; cases h
  · intro c hc; cases hc; decide
  · intro w hw hp
    revert w
    simp only [← List.isPrefixOf_iff_prefix]
    decide +kernel
  · intro c hc; cases hc; decide
  · intro c hc; cases hc; decide
  · exact lacks (by decide +kernel)
  · intro c hc; cases hc; decide
  · intro c hc; cases hc
  · exact ⟨.inr (.inr ⟨"theme".toList, by decide, by decide, rfl⟩), fun c hc => List.not_mem_nil hc |>.elim, fun c hc => (by cases hc), fun c hc => List.not_mem_nil hc |>.elim, fun _ => rfl, by decide, by decide⟩

/-- A block that is not closed, and a longer word. -/
example : Preamble "\\makeatletterx \\makeatletter\\y".toList [] := by
  refine .opened ['x'] " \\makeatletter\\y".toList (by decide) ?_ (.inl ⟨'x', rfl, by decide⟩) ?_
    (.text [' '] "\\makeatletter\\y".toList (by decide) (.opened [] "\\y".toList (by decide) ?_ (.inr (lacks (by decide +kernel))) ?_
      (.cmd ['y'] [] (by decide) (by decide) ?_ (by decide) (by decide) (by decide) ?_ .done)))
  · intro c hc; cases hc; decide
  · intro w hw hp
    revert w
    simp only [← List.isPrefixOf_iff_prefix]
    decide +kernel
  · intro c hc; cases hc; decide
  · intro w hw hp
    revert w
    simp only [← List.isPrefixOf_iff_prefix]
    decide +kernel
  · intro c hc; cases hc
  · intro w hw hp
    revert w
    simp only [← List.isPrefixOf_iff_prefix]
    decide +kernel

/-- A document with a comment, a class with an option, text, a command, packages, a block and a definition, and a body. -/
example : getPreamble "% mine\n\\documentclass[a4]{article}\n\\usepackage [x]{a,b} \\title{T}\\%\\\\\n\\makeatletter\\x@\\makeatother \\newcounter{k}\\usetheme{q}\n\\begin {document} \\usepackage{no}".toList =
    .ok "\\usepackage [x]{a,b}\n\\makeatletter\\x@\\makeatother\n\\newcounter{k}\n\\usetheme{q}\n".toList := by
  have e := C72_preamble_partial (content := "% mine\n\\documentclass[a4]{article}\n\\usepackage [x]{a,b} \\title{T}\\%\\\\\n\\makeatletter\\x@\\makeatother \\newcounter{k}\\usetheme{q}\n\\begin {document} \\usepackage{no}".toList)
    (a := "\n\\documentclass[a4]{article}\n\\usepackage [x]{a,b} \\title{T}\\%\\\\\n\\makeatletter\\x@\\makeatother \\newcounter{k}\\usetheme{q}\n".toList)
    (.inr ⟨"\\begin {document}".toList, " \\usepackage{no}".toList, ⟨[' '], blank_one, by decide +kernel⟩, by decide +kernel, not_begun (by decide +kernel)⟩)
    (.inr ⟨[], ⟨"\\documentclass", [], some "a4".toList, [], "article".toList⟩, lacks (by decide +kernel), rfl, ?_, by decide +kernel⟩) exBody_reads
  · rw [e]; decide +kernel
  · exact ⟨fun c hc => (by cases hc), fun c hc => (by cases hc; decide), fun c hc => (by cases hc), fun _ => rfl, by decide, by decide⟩

end L2J.Pream
