import Verif.Model.Nested
import Verif.Model.Args
import Verif.Model.Formatting
/-
Model of the handlers of latex2json/parser/packages that are a few lines each: overpic.py, tikz_pgf.py, titlesec.py. The loops of
handlers/for_loop_statements.py are `Psr.forLoop` in Model/Parser.
-/
namespace L2J.Psr

/-- The patterns of the packages: overpic.py:11, tikz_pgf.py:17-23, titlesec.py:26-34. -/
def overpicRe : Re := .seq (.lit "\\begin".toList) (.seq (.star reSpace) (.lit "{overpic}".toList))
def libraryRe : Re := .seq (.lit "\\use".toList) (.seq (.alt (.lit "tikz".toList) (.alt (.lit "pgf".toList) (.lit "pgfplots".toList)))
  (.seq (.lit "library".toList) (.seq (.star reSpace) (.lit ['{']))))
def pictureRe : Re := .seq (.lit "\\begin".toList) (.seq (.star reSpace) (.seq (.lit ['{'])
  (.seq (.alt (.lit "tikzpicture".toList) (.alt (.lit "picture".toList) (.lit "pgfpicture".toList))) (.lit ['}']))))
def plotsRe : Re := .seq (.lit "\\pgfplotsset".toList) (.seq (.star reSpace) (.lit ['{']))
def titleRe (w : Str) (star : Bool) (opt : Bool) : Re :=
  .seq (.lit w) (.seq (if star then .opt (.lit ['*']) else .eps) (.seq (.star reSpace) (.seq (if opt then .seq Fmt.optArg (.star reSpace) else .eps) (.lit ['{']))))
def titleRes : List Re := [titleRe "\\titleformat".toList false false, titleRe "\\titlespacing".toList true false, titleRe "\\titlelabel".toList false false,
  titleRe "\\titlecontents".toList false false, titleRe "\\titleline".toList false true]
end L2J.Psr

namespace L2J.Pkg
open Psr (overpicRe libraryRe plotsRe titleRe)

/-- The tokens they make. -/
inductive Tok where
  | diagram (name content : Str)
  | graphic (file : Str)
deriving DecidableEq, Repr

/-- tikz_pgf.py:21 `begin_picture`, with its group. -/
def pictureRe : Re := .seq (.lit "\\begin".toList) (.seq (.star reSpace) (.seq (.lit ['{'])
  (.seq (.group 1 (.alt (.lit "tikzpicture".toList) (.alt (.lit "picture".toList) (.lit "pgfpicture".toList)))) (.lit ['}']))))

/-- tikz_pgf.py:40-47: a command whose group is dropped. If the group is not closed `extract_nested_content` gives the position 0. -/
def dropGroup (s : Str) (m : Match) : Option Tok × Int :=
  (none, (m.stop - 1 + (match extractNestedContent (s.drop (m.stop - 1)) '{' '}' with | some (_, e) => e | none => 0) : Nat))

/-- `TikzPGFHandler.handle`, tikz_pgf.py:33-60; `none`: not accepted. -/
def tikz (s : Str) : Option (Option Tok × Int) :=
  match libraryRe.matchAt [] s with
  | some m => some (dropGroup s m)
  | none =>
  match pictureRe.matchAt [] s with
  | some m =>
    let n := (m.group 1).getD []
    some (match findMatchingEnvBlock s n 0 with
      | some (_, e, c) => (some (.diagram n c), (e : Int))
      | none => (some (.diagram n []), -1))
  | none => (plotsRe.matchAt [] s).map (dropGroup s)

/-- `OverpicHandler.handle`, overpic.py:22-44; `none`: not accepted. -/
def overpic (s : Str) : Option (Option Tok × Int) :=
  (overpicRe.matchAt [] s).map fun _ =>
    let r : Int × Str := match findMatchingEnvBlock s "overpic".toList 0 with
      | some (_, e, c) => ((e : Int), c)
      | none => (-1, [])
    (match (extractArgs r.2 1 1).req with | f :: _ => some (.graphic f) | [] => none, r.1)

/-- PATTERNS and DELIMITERS, titlesec.py:26-45. -/
def titles : List (Re × Str) :=
  [(titleRe "\\titleformat".toList false false, "{[{{{{".toList), (titleRe "\\titlespacing".toList true false, "{{{{".toList),
   (titleRe "\\titlelabel".toList false false, "{".toList), (titleRe "\\titlecontents".toList false false, "{[{{{{".toList),
   (titleRe "\\titleline".toList false true, "{".toList)]

/-- The first pattern that matches. -/
def firstTitle (s : Str) : List (Re × Str) → Option (Match × Str)
  | [] => none
  | t :: l =>
    match t.1.matchAt [] s with
    | some m => some (m, t.2)
    | none => firstTitle s l

/-- `TitlesecHandler.handle`, titlesec.py:55-70; `none`: not accepted. -/
def titlesec (s : Str) : Option (Option Tok × Int) :=
  (firstTitle s titles).map fun (m, d) => (none, (m.stop - 1 + (extractDelimitedArgs (s.drop (m.stop - 1)) d).2 : Nat))

/-- The three of them, packages/__init__.py:11-20. -/
def handle (s : Str) : Option (Option Tok × Int) :=
  match overpic s with
  | some r => some r
  | none =>
  match tikz s with
  | some r => some r
  | none => titlesec s

end L2J.Pkg
