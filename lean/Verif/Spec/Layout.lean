import Verif.Spec.Wrapped
import Verif.Spec.Definitions
/-! Layout commands of LaTeX and what is to be left of them. -/
namespace L2J.Spec

/-- Commands without an argument that leave nothing. -/
def silentWords : List String :=
  ["\\today", "\\makeatletter", "\\makeatother", "\\tableofcontents", "\\@title", "\\contentspage", "\\startcontents", "\\centering", "\\raggedright",
   "\\raggedleft", "\\allowdisplaybreaks", "\\samepage", "\\thepage", "\\noindent", "\\par", "\\clearpage", "\\cleardoublepage", "\\nopagebreak", "\\hss",
   "\\hfill", "\\hfil", "\\vfill", "\\vfil", "\\break", "\\sloppy", "\\flushbottom", "\\flushleft", "\\flushright", "\\flushtop", "\\bigskip", "\\medskip",
   "\\smallskip", "\\lastskip", "\\unskip", "\\abovedisplayshortskip", "\\abovedisplayskip", "\\abovecaptionshortskip", "\\abovecaptionskip",
   "\\belowdisplayshortskip", "\\belowdisplayskip", "\\belowcaptionshortskip", "\\belowcaptionskip", "\\printbibliography", "\\rightmargin", "\\leftmargin",
   "\\linewidth", "\\columnwidth", "\\hsize", "\\labelwidth", "\\ProcessOptions", "\\hline", "\\center", "\\hrulefill", "\\centerline", "\\topsep", "\\parsep",
   "\\partopsep", "\\hrule", "\\morecmidrules", "\\tabcolsep", "\\colrule", "\\noalign", "\\endfirsthead", "\\c@page", "\\stackMath", "\\ignorespaces",
   "\\relax", "\\repeat", "\\@tempboxa", "\\box", "\\global", "\\@plus", "\\@minus", "\\null", "\\FloatBarrier", "\\footins", "\\phantomsection", "\\string",
   "\\escapechar", "\\showthe", "\\the"]

/-- Commands without an argument that end a line. -/
def lineWords : List String :=
  ["\\pagebreak", "\\filbreak", "\\newpage", "\\allowbreak", "\\goodbreak", "\\smallbreak", "\\medbreak", "\\bigbreak"]

/-- Commands without an argument that are a blank. -/
def blankWords : List String := ["\\quad", "\\qquad", "\\xspace", "\\space", "\\,", "\\;", "\\:"]

/-- Commands that leave nothing, with the number of their arguments in braces; the arguments have no brace inside. The first list: the
arguments may be empty. -/
def flatWords : List (String × Nat) :=
  [("\\addcontentsline", 3), ("\\enlargethispage", 1), ("\\pagestyle", 1), ("\\urlstyle", 1), ("\\thispagestyle", 1), ("\\theoremstyle", 1),
   ("\\bibliographystyle", 1), ("\\documentstyle", 1), ("\\setcitestyle", 1), ("\\pagenumbering", 1), ("\\specialrule", 3), ("\\rule", 2),
   ("\\counterwithin", 2), ("\\counterwithout", 2), ("\\@addtoreset", 2)]

/-- The same, where an argument must not be empty. -/
def flatWords1 : List (String × Nat) :=
  [("\\NeedsTeXFormat", 1), ("\\setdefaultlanguage", 1), ("\\value", 1), ("\\mathtoolsset", 1), ("\\PassOptionsToPackage", 2), ("\\PassOptionsToClass", 2),
   ("\\ExecuteBibliographyOptions", 1), ("\\cline", 1), ("\\cdashline", 1), ("\\fboxsep", 1), ("\\Xhline", 1)]

/-- Commands with one argument, which may have groups inside, that leave nothing. -/
def groupWords : List String :=
  ["\\pdfinfo", "\\date", "\\lstset", "\\geometry", "\\hyphenation", "\\typeout"]

/-- Commands with so many arguments, which may have groups inside, that leave nothing. -/
def groupsWords : List (String × Nat) := [("\\printcontents", 3), ("\\tcbset", 1), ("\\tcbuselibrary", 1), ("\\AddEnumerateCounter", 3)]

/-- Declarations, with the number of their arguments. -/
def declareWords : List (String × Nat) :=
  [("\\DeclareFontShape", 6), ("\\DeclareFontFamily", 3), ("\\DeclareOption", 2), ("\\DeclareSymbolFont", 5), ("\\SetMathAlphabet", 6), ("\\DeclareGraphicsExtensions", 1)]

/-- Lengths that may be followed by a value. -/
def lengthWords : List String :=
  ["\\topmargin", "\\oddsidemargin", "\\evensidemargin", "\\textwidth", "\\textheight", "\\skip", "\\footskip", "\\headheight", "\\headsep", "\\footnotesep",
   "\\marginparsep", "\\marginparwidth", "\\parindent", "\\itemindent", "\\parskip", "\\vfuzz", "\\hfuzz", "\\hoffset", "\\voffset"]

/-- No name goes on here. -/
def NameEnds (X : Str) : Prop := ∀ c ∈ X.head?, Cmds.isNameChar c = false

/-- No word and no name goes on here. -/
def WordEnds (X : Str) : Prop := ∀ c ∈ X.head?, isWord c = false ∧ c ≠ '@'

end L2J.Spec
