import Verif.Spec.Definitions
import Verif.Spec.Files
/-! What the preprocessor is supposed to do to a document: the commands it knows. -/
namespace L2J.Spec
open Cmds

/-- The commands that define something. -/
def defineWords : List String :=
  ["\\newcommand", "\\renewcommand", "\\providecommand", "\\futurelet", "\\let", "\\DeclareRobustCommand", "\\DeclarePairedDelimiter", "\\DeclareMathOperator",
   "\\DeclareMathAlphabet", "\\DeclareSymbolFontAlphabet", "\\long\\edef", "\\long\\gdef", "\\long\\xdef", "\\long\\def", "\\edef", "\\gdef", "\\xdef", "\\def",
   "\\@namedef", "\\newtheorem", "\\newtheoremstyle", "\\crefname", "\\Crefname", "\\newtoks", "\\renewif", "\\newif", "\\renewboolean", "\\newboolean",
   "\\renewlength", "\\newlength", "\\setlength", "\\addtolength", "\\settoheight", "\\settodepth", "\\settowidth", "\\renewcounter", "\\newcounter",
   "\\stepcounter", "\\renewcount", "\\renewdimen", "\\renewskip", "\\renewmuskip", "\\newcount", "\\newdimen", "\\newskip", "\\newmuskip", "\\newcolumntype",
   "\\renewcolumntype", "\\newfam", "\\setcounter", "\\floatname", "\\expandafter", "\\noexpand", "\\endcsname", "\\definecolor", "\\font"]

/-- The other commands with an effect of their own, apart from conditionals, layout commands and formulas. -/
def effectWords : List String := ["\\addto", "\\usepackage", "\\RequirePackage", "\\define@key", "\\setkeys"]

/-- What conditionals begin with. -/
def condWords : List String := ["\\if", "\\@if", "\\IfFileExists"]

/-- No word of a list begins the text. -/
def Without (ws : List String) (s : Str) : Prop := ∀ w ∈ ws, ¬ w.toList <+: s

/-- The layout commands. -/
def layoutWords : List String :=
  ["\\NeedsTeXFormat", "\\ProvidesClass", "\\ProvidesPackage", "\\pdfoutput", "\\pdfsuppresswarningpagegroup", "\\pdfinfo", "\\setdefaultlanguage",
   "\\tracinglostchars", "\\date", "\\today", "\\subjclass", "\\hypersetup", "\\captionsetup", "\\makeatletter", "\\makeatother", "\\tableofcontents",
   "\\@title", "\\addcontentsline", "\\addtocontents", "\\addtocounter", "\\titlecontents", "\\contentspage", "\\startcontents", "\\printcontents",
   "\\enlargethispage", "\\pagecolor", "\\centering", "\\raggedright", "\\raggedleft", "\\allowdisplaybreaks", "\\samepage", "\\thepage", "\\noindent",
   "\\par", "\\clearpage", "\\cleardoublepage", "\\nopagebreak", "\\hss", "\\hfill", "\\hfil", "\\vfill", "\\vfil", "\\break", "\\sloppy", "\\flushbottom",
   "\\flushleft", "\\flushright", "\\flushtop", "\\pagebreak", "\\filbreak", "\\newpage", "\\allowbreak", "\\goodbreak", "\\smallbreak", "\\medbreak",
   "\\bigbreak", "\\linebreak", "\\vskip", "\\penalty", "\\clubpenalty", "\\widowpenalty", "\\interfootnotelinepenalty", "\\bigskip", "\\medskip",
   "\\smallskip", "\\lastskip", "\\unskip", "\\abovedisplayshortskip", "\\abovedisplayskip", "\\abovecaptionshortskip", "\\abovecaptionskip",
   "\\belowdisplayshortskip", "\\belowdisplayskip", "\\belowcaptionshortskip", "\\belowcaptionskip", "\\pagestyle", "\\urlstyle", "\\thispagestyle",
   "\\theoremstyle", "\\bibliographystyle", "\\documentstyle", "\\setcitestyle", "\\printbibliography", "\\renewbibmacro", "\\newpagestyle",
   "\\renewpagestyle", "\\lstset", "\\setlist", "\\value", "\\rightmargin", "\\leftmargin", "\\topmargin", "\\oddsidemargin", "\\evensidemargin",
   "\\textwidth", "\\textheight", "\\skip", "\\footskip", "\\headheight", "\\headsep", "\\footnotesep", "\\marginparsep", "\\marginparwidth", "\\parindent",
   "\\itemindent", "\\parskip", "\\vfuzz", "\\hfuzz", "\\hoffset", "\\voffset", "\\indent", "\\lineskip", "\\linewidth", "\\columnwidth", "\\hsize",
   "\\labelwidth", "\\quad", "\\qquad", "\\xspace", "\\space", "\\hspace", "\\hskip", "\\linespread", "\\mathtoolsset", "\\kern", "\\tcbset",
   "\\tcbuselibrary", "\\ProcessOptions", "\\PassOptionsToPackage", "\\PassOptionsToClass", "\\ExecuteBibliographyOptions", "\\DeclareFontShape",
   "\\DeclareFontFamily", "\\DeclareOption", "\\DeclareSymbolFont", "\\SetMathAlphabet", "\\DeclareGraphicsExtensions", "\\textfont", "\\scriptfont",
   "\\scriptscriptfont", "\\setmathfont", "\\num", "\\arabic", "\\roman", "\\alph", "\\fnsymbol", "\\pagenumbering", "\\itemsep", "\\hline", "\\center",
   "\\hrulefill", "\\centerline", "\\cline", "\\topsep", "\\parsep", "\\partopsep", "\\labelsep", "\\midrule", "\\toprule", "\\bottomrule", "\\cmidrule",
   "\\hdashline", "\\cdashline", "\\specialrule", "\\addlinespace", "\\rule", "\\hrule", "\\morecmidrules", "\\fboxsep", "\\Xhline", "\\tabcolsep",
   "\\colrule", "\\noalign", "\\endfirsthead", "\\arrayrulewidth", "\\heavyrulewidth", "\\overfullrule", "\\paperwidth", "\\paperheight", "\\protect",
   "\\c@page", "\\counterwithin", "\\counterwithout", "\\refstepcounter", "\\@addtoreset", "\\AddEnumerateCounter", "\\backslash", "\\textbackslash",
   "\\arraybackslash", "\\geometry", "\\ensuremath", "\\stackMath", "\\hyphenation", "\\vspace", "\\hphantom", "\\vphantom", "\\phantom", "\\raise", "\\lower",
   "\\ignorespaces", "\\relax", "\\repeat", "\\@tempboxa", "\\box", "\\global", "\\@plus", "\\@minus", "\\null", "\\FloatBarrier", "\\footins",
   "\\phantomsection", "\\newmdenv", "\\@empty", "\\advance", "\\divide", "\\multiply", "\\typeout", "\\pacs", "\\Hy@", "\\unvbox", "\\string", "\\escapechar",
   "\\wd", "\\ht", "\\dp", "\\showthe", "\\the", "\\rowcolor", "\\columncolor", "\\cellcolor", "\\baselineskip"]

/-- The layout commands that are recognised in capitals too. -/
def anyCaseWords : List String := ["linenumbers", "linesnumbered", "numberwithin"]

/-- A letter in lower case; a few letters outside ASCII count as `i`, `s` and `k`. -/
def lowerChar (c : Char) : Char :=
  if 'A' ≤ c ∧ c ≤ 'Z' then Char.ofNat (c.toNat + 32)
  else if c.toNat = 0x130 ∨ c.toNat = 0x131 then 'i'
  else if c.toNat = 0x17f then 's'
  else if c.toNat = 0x212a then 'k'
  else c

/-- The layout commands that are recognised also where the name goes on, as in `\skipped`. -/
def openWords : List String :=
  ["\\linebreak", "\\vskip", "\\topmargin", "\\oddsidemargin", "\\evensidemargin", "\\textwidth", "\\textheight", "\\skip", "\\footskip", "\\headheight",
   "\\headsep", "\\footnotesep", "\\marginparsep", "\\marginparwidth", "\\parindent", "\\itemindent", "\\parskip", "\\vfuzz", "\\hfuzz", "\\hoffset", "\\voffset",
   "\\baselineskip", "\\labelsep", "\\midrule", "\\toprule", "\\bottomrule", "\\hdashline", "\\addlinespace", "\\arrayrulewidth", "\\heavyrulewidth",
   "\\overfullrule", "\\paperwidth", "\\paperheight", "\\advance", "\\divide", "\\multiply", "\\Hy@"]

/-- Horizontal space; the first four are recognised also where the name goes on. -/
def spaceWords : List String := ["\\quad", "\\qquad", "\\xspace", "\\space", "\\hspace", "\\hskip", "\\linespread"]

/-- `\w` followed by `rest` is not a layout command, except perhaps for horizontal space, which is kept in formulas. -/
def NotLayoutMath (w rest : Str) : Prop :=
  ('\\' :: w ∈ layoutWords.map String.toList → '\\' :: w ∈ spaceWords.map String.toList) ∧ Without openWords ('\\' :: w) ∧
  (∀ v ∈ anyCaseWords, ¬ v.toList <+: (w ++ rest).map lowerChar) ∧ ¬ Contains w "maketitle".toList ∧ w.head? ≠ some '/'

/-- `\w` followed by `rest` is not a layout command. -/
def NotLayout (w rest : Str) : Prop :=
  NotLayoutMath w rest ∧ Without spaceWords ('\\' :: w) ∧ ∀ c ∈ w.head?, c ∉ [',', ';', ':', '!']

end L2J.Spec
