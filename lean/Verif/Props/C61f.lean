import Verif.Props.C61e
import Verif.Props.C51
/-! C61, continued: a command that is defined and then used, and where reading goes wrong. -/
namespace L2J.Defn
open Cmds L2J.Spec

/-- C61, with C51: a `\newcommand` that is read from a text and registered after any history of plain definitions makes a use of its name
stand for its body with the arguments put in. -/
theorem C61_define_then_use_partial (cfg : Cfg) (hcfg : Letters cfg) (before : List (Def × Bool)) (c : NewCommandText) (hc : c.Ok)
    (hm : c.word ≠ "\\DeclareMathOperator") (hd : c.defaults.length ≤ (c.num.map (·.2)).getD 0) (rest : Str) :
    ∃ d, handle (c.written ++ rest) = .ok (some (.cmd d), c.written.length) ∧
      ((∀ x ∈ before ++ [(d, false)], PlainDef x.1) → ∀ p0 p, registerAll cfg Proc.empty before = some (.ok p0) →
        registerAll cfg Proc.empty (before ++ [(d, false)]) = some (.ok p) → c.name ∉ whitelisted →
        (newcommandUsage cfg c.name).search c.body = none → startsWith (strip c.body) "\\@ifstar".toList = false →
        (∀ x ∈ before, Meant x.1 c.name → x.1.place = ⟨false, c.name⟩) → (∀ x ∈ c.name, isLetter x = true) →
        ∀ u : CmdUse, u.Fits ((c.num.map (·.2)).getD 0) (c.defaults.map (·.2)) →
        ∃ out, Substitutes c.body (u.arguments ((c.num.map (·.2)).getD 0) (c.defaults.map (·.2))) out ∧
          (out ≠ '\\' :: c.name → p.handle cfg ('\\' :: (c.name ++ u.tail)) =
            (out, ('\\' :: c.name).length + (wrapAll '[' ']' u.opts).length + (wrapAll '{' '}' u.reqs).length))) := by
  have hread := C61_newcommand c hc rest
  unfold NewCommandText.meaning at hread
  have hw : (c.word == "\\DeclareMathOperator") = false := by simp [hm]
  rw [hw] at hread
  refine ⟨_, hread, ?_⟩
  intro hpl p0 p h0 h hwl hself hstar hsame hl u hu
  exact C51_use_partial cfg hcfg before [] c.name c.body _ _ (by simpa using hd) hpl p0 p h0 h hwl hself hstar hsame (by simp) ⟨hc.2.2.1.1, hl⟩ u hu

/-- Its hypotheses can be met: the definition is read, registered, and used. -/
example : (handle "\\newcommand*{\\foo}[2][d]{<#2|#1>} text".toList = .ok (some (.cmd (.newcommand "foo".toList "<#2|#1>".toList 2 ["d".toList] false)), 33)) ∧
    ((registerAll cfg0 Proc.empty [(.newcommand "foo".toList "<#2|#1>".toList 2 ["d".toList] false, false)]).isSome = true) := by
  constructor <;> decide +kernel

/-- C61 fails: blanks inside the braces of the name. -/
theorem C61_violated_name_blank : handle "\\newcommand{ \\foo }{x}rest".toList = .ok (none, 0) := by decide +kernel

/-- C61 fails: blanks around the number of arguments make it a default, and there is no argument. -/
theorem C61_violated_number_blank :
    handle "\\newcommand{\\foo}[ 1 ]{x#1}".toList = .ok (some (.cmd (.newcommand "foo".toList "x#1".toList 0 [" 1 ".toList] false)), 27) := by decide +kernel

/-- C61 fails: a default that runs over a line is dropped, so that the argument is no longer optional. -/
theorem C61_violated_default_line :
    handle "\\newcommand{\\foo}[1][a\nb]{x#1}".toList = .ok (some (.cmd (.newcommand "foo".toList "x#1".toList 1 [] false)), 30) := by decide +kernel

/-- C61 fails: a default that has a closing bracket in braces. -/
theorem C61_violated_default_bracket : handle "\\newcommand{\\foo}[1][{[]}]{x#1}".toList = .ok (none, 0) := by decide +kernel

/-- C61 fails: a command that is named by a symbol and has an empty body takes the next braces with it. -/
theorem C61_violated_symbol :
    handle "\\newcommand{\\,}{}{x}".toList = .ok (some (.cmd (.newcommand ",}{".toList "x".toList 0 [] false)), 20) := by decide +kernel

/-- C61 fails: text after the target of a `\let` without white space between becomes part of the target. -/
theorem C61_violated_let_target (l : LetText) (h : l.Ok) (more rest : Str) (hm : ∀ c ∈ more, isSpace c = false ∧ c ≠ '{')
    (hr : ∀ c ∈ rest.head?, isSpace c = true ∨ c = '{') :
    handle (l.written ++ (more ++ rest)) = .ok (some (.cmd (.let_ l.name ('\\' :: (l.target ++ more)) none)), (l.written ++ more).length) := by
  have := C61_let { l with target := l.target ++ more } ⟨h.1, h.2.1, h.2.2.1, by simp [h.2.2.2.1], fun c hc => by
    rcases List.mem_append.1 hc with hc | hc
    · exact h.2.2.2.2 c hc
    · exact hm c hc⟩ rest hr
  unfold LetText.written at this ⊢
  simpa [List.append_assoc] using this

example : handle "\\let\\foo\\bar, text".toList = .ok (some (.cmd (.let_ "foo".toList "\\bar,".toList none)), 13) ∧
    handle "\\let\\a\\b\\section{A}".toList = .ok (some (.cmd (.let_ "a".toList "\\b\\section".toList none)), 16) := by
  constructor <;> decide +kernel

example : handle "\\let\\foo = \\bar\n\nAll the text".toList = .ok (some (.cmd (.let_ "foo".toList " \\bar\n\nAll the text".toList none)), 29) := by decide +kernel

/-- C61 fails: `\let` with a character. The rest of the text is used up; or, if a command follows, another name is defined to be that. -/
theorem C61_violated_let_char :
    handle "\\let\\foo=x some text".toList = .ok (some (.cmd (.let_ "foo".toList "x some text".toList none)), 20) ∧
    handle "\\let\\foo=x \\section{A}".toList = .ok (some (.cmd (.let_ "foo=x".toList "\\section".toList none)), 19) := by
  constructor <;> decide +kernel

/-- C61 fails: parameter text that does not begin with `#` or white space becomes part of the name. -/
theorem C61_violated_def_param :
    handle "\\def\\foo(#1){ab}".toList = .ok (some (.cmd (.def_ "foo(".toList "#1)".toList "ab".toList false none)), 16) := by decide +kernel

/-- C61 fails: the definition of a command whose name is a backslash raises. -/
theorem C61_violated_def_backslash : handle "\\def\\\\#1{ab}".toList = .error () := by decide +kernel

/-- C61 fails: white space before the argument of `\newlength` and `\setlength`. -/
theorem C61_violated_length_blank :
    handle "\\newlength {\\foo} x".toList = .ok (none, 17) ∧
    handle "\\newlength \\foo x".toList = .ok (some (.cmd (.newlength " \\foo".toList)), 15) ∧
    handle "\\setlength \\parindent {0pt} x".toList = .ok (some (.cmd (.newlength " \\parindent ".toList)), 27) := by
  refine ⟨?_, ?_, ?_⟩ <;> decide +kernel

/-- C61 fails: what follows `\newcount\foo` becomes part of the name. -/
theorem C61_violated_register : handle "\\newcount\\foo\\foo=3 x".toList = .ok (some (.cmd (.newX "foo\\foo=3".toList)), 19) := by decide +kernel

/-- C61 fails: `scaled` is left in the text. -/
theorem C61_violated_font : handle "\\font\\x=cmr10 scaled 1200".toList = .ok (some (.font "x".toList "cmr10".toList none), 13) := by decide +kernel

/-- C61 fails: a `\newtheorem` with white space before its arguments is not one, and a title with braces is cut. -/
theorem C61_violated_newtheorem :
    handle "\\newtheorem {thm}{Theorem}".toList = .ok (none, 0) ∧
    handle "\\newtheorem{thm}{\\textbf{Theorem}}[section]".toList = .ok (some (.theorem_ "thm".toList "\\textbf{Theorem".toList none none), 33) := by
  constructor <;> decide +kernel

/-- C61 fails: a `\csname` with braces in it. The body is left in the text. -/
theorem C61_violated_csname_brace :
    handle "\\def\\csname a{b}c\\endcsname{body}".toList = .ok (some (.cmd (.def_ "a".toList [] "b".toList false (some " a{b}c".toList))), 26) := by decide +kernel

/-- C61 fails: `\@namedef` without a body ends before it begins. -/
theorem C61_violated_namedef : handle "\\@namedef{foo}".toList = .ok (none, -13) ∧ handle "\\expandafter\\@namedef{a}".toList = .ok (none, -1) := by
  constructor <;> decide +kernel

/-- Examples for the readings. -/
example : handle "\\newtheorem*{lem}[thm]{Lemma} text".toList = .ok (some (.theorem_ "lem".toList "Lemma".toList (some "thm".toList) none), 29) ∧
    handle "\\newif \\ifdraft\\drafttrue".toList = .ok (some (.cmd (.newif "draft".toList)), 15) ∧
    handle "\\setcounter {page} {3}".toList = .ok (some (.cmd (.newcounter "page".toList)), 22) ∧
    handle "\\crefname{eq}{equation}{equations}.".toList = .ok (some (.cref "eq".toList "equation".toList "equations".toList), 34) ∧
    handle "\\definecolor {c} {rgb}{0,0,1}x".toList = .ok (some (.color "c".toList "rgb".toList "0,0,1".toList), 29) := by
  refine ⟨?_, ?_, ?_, ?_, ?_⟩ <;> decide +kernel

example : handle "\\DeclarePairedDelimiter\\abs{|}{|}x".toList = .ok (some (.cmd (.paired "abs".toList "|".toList "|".toList)), 33) ∧
    handle "\\setlength{\\parindent} {0pt} x".toList = .ok (some (.cmd (.newlength "parindent".toList)), 28) ∧
    handle "\\newcolumntype{L}[1]{>{\\raggedright}p{#1}} x".toList = .ok (none, 42) ∧
    handle "\\DeclareMathAlphabet{\\mathx}{OT1}{cmr}{m}{n} x".toList = .ok (some (.cmd (.alphabet "\\mathx".toList)), 44) ∧
    handle "\\long\\edef\\foo #1,#2{ab}x".toList = .ok (some (.cmd (.def_ "foo".toList "#1,#2".toList "ab".toList true none)), 24) := by
  refine ⟨?_, ?_, ?_, ?_, ?_⟩ <;> decide +kernel

end L2J.Defn
