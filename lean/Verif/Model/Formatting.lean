import Verif.Model.Definitions
import Verif.Model.Content
/-! Model of the layout commands: latex2json/parser/handlers/formatting.py, `FormattingHandler`.

Each pattern is written as a list of alternatives in the order in which the engine tries them, each a literal beginning (with the backslash)
and what follows it. `\d` and `\w` are ASCII only; `\b` behind a letter is "no word character follows". -/
namespace L2J.Fmt
open Defn Cmds

/-- What is done with a match, `handle` (:350-481). -/
inductive Act where
  /-- nothing is produced, the match is used up (:479) -/
  | drop
  /-- a text -/
  | text (t : Str)
  /-- :364-369 -/
  | number
  /-- :370-378: also numbers at the end of the previous text are removed -/
  | strips
  /-- :370-378, for "lineskip": the same where the match begins with `\baselineskip` -/
  | lineskip
  /-- :383-386 -/
  | spacing
  /-- :393-412, :423-428: up to the brace that closes the one the match ends with -/
  | nested
  /-- :387-392, :433-446: up to so many groups, the first of which opens at the end of the match -/
  | blocks (n : Nat)
  /-- :413-422 -/
  | ensuremath
  /-- `_handle_titlecontents`, :483-504 -/
  | titlecontents
  /-- `_handle_declare`, :506-515 -/
  | declare
  /-- :453-460 -/
  | classSetup
  /-- :461-478 -/
  | phantom
deriving DecidableEq

/-- An alternative of a pattern. -/
structure Alt where
  head : Str
  tail : Re

/-- A pattern with its name in `PATTERNS`. -/
structure Entry where
  name : String
  act : Act
  alts : List Alt

/-- Alternatives that differ in the literal only. -/
def words (heads : List String) (tail : Re) : List Alt := heads.map fun h => ⟨h.toList, tail⟩

/-- An alternative as a pattern; group 0 is the literal. -/
def Alt.re (a : Alt) : Re := .seq (.group 0 (.lit a.head)) a.tail

/-- An alternation. -/
def altsRe : List Alt → Re
  | [] => .fail
  | a :: l => .alt a.re (altsRe l)

def Entry.re (e : Entry) : Re := altsRe e.alts

/-- `\b` behind a word character. -/
def wordEnd : Re := .nlook (.chr isWord)

/-- `\b` where there is a character before. -/
def boundary : Re := .alt (.seq (.nbehind fun c => !isWord c) wordEnd) (.seq (.nbehind isWord) (.look (.chr isWord)))

/-- `[-+]?\d*\.?\d+`, patterns.py:8. -/
def numRe : Re :=
  .seq (.opt (.chr fun c => c == '-' || c == '+')) (.seq (.star (.chr isDigit)) (.seq (.opt (.lit ['.'])) (.plus (.chr isDigit))))

/-- `(?:pt|mm|cm|in|em|ex|sp|bp|dd|cc|nd|nc)?`, patterns.py:18. -/
def pointUnits : Re := .opt (anyOf (["pt", "mm", "cm", "in", "em", "ex", "sp", "bp", "dd", "cc", "nd", "nc"].map String.toList))

/-- `number_points_suffix`, patterns.py:17-19; `(?=[^a-zA-Z]|$)` says that no letter follows. -/
def pointsRe : Re := .seq numRe (.seq spaces (.seq pointUnits (.nlook (.chr isLetter))))

/-- `OPTIONAL_BRACE_PATTERN`, patterns.py:6. -/
def optArg : Re := .opt (.seq (.lit ['[']) (.seq (.star (.chr (· != ']'))) (.lit [']'])))

/-- `{[^}]*}`. -/
def braces0 : Re := .seq (.lit ['{']) (.seq (.star (.chr (· != '}'))) (.lit ['}']))

/-- `{[^}]+}`. -/
def braces1 : Re := .seq (.lit ['{']) (.seq (.plus (.chr (· != '}'))) (.lit ['}']))

/-- `\s*` and then. -/
def ws (r : Re) : Re := .seq spaces r

/-- `\s*{`. -/
def wsOpen : Re := ws (.lit ['{'])

/-- `\*?`. -/
def star? (r : Re) : Re := .seq (.opt (.lit ['*'])) r

/-- `NUMBER\w+\b`. -/
def lengthRe : Re := .seq numRe (.seq (.plus (.chr isWord)) wordEnd)

/-- `[a-zA-Z@]`. -/
def nameRe : Re := .plus (.chr isNameChar)

/-- `[a-zA-Z@*\d]+`. -/
def advanceName : Re := .plus (.chr fun c => isNameChar c || c == '*' || isDigit c)

/-- `(?:\[([^\]]*)\])?` with a group. -/
def optGroupArg (g : Nat) : Re := .opt (.seq (.lit ['[']) (.seq (.group g (.star (.chr (· != ']')))) (.lit [']'])))

/-- `RAW_PATTERNS`, :43-103, up to "style". -/
def entries1 : List Entry := [
  ⟨"comment", .drop, [⟨['%'], .star (.chr (· != '\n'))⟩]⟩,
  ⟨"class_setup", .classSetup, words ["\\NeedsTeXFormat"] (ws braces1) ++ words ["\\ProvidesClass", "\\ProvidesPackage"] (ws (.seq braces1 (ws (.lit ['[']))))⟩,
  ⟨"pdf", .drop, words ["\\pdfoutput", "\\pdfsuppresswarningpagegroup"] (ws (.seq (.lit ['=']) (ws (.plus (.chr isDigit)))))⟩,
  ⟨"pdfinfo", .nested, words ["\\pdfinfo"] wsOpen⟩,
  ⟨"language", .drop, words ["\\setdefaultlanguage"] (ws braces1)⟩,
  ⟨"tracing", .drop, words ["\\tracinglostchars"] (ws (.seq (.lit ['=']) (ws (.plus (.chr isDigit)))))⟩,
  ⟨"date", .nested, words ["\\date"] wsOpen⟩,
  ⟨"today", .drop, words ["\\today"] wordEnd⟩,
  ⟨"subjclass", .drop, words ["\\subjclass"] (ws (.seq optArg (ws braces1)))⟩,
  ⟨"setup", .nested, words ["\\hypersetup", "\\captionsetup"] (.seq optArg wsOpen)⟩,
  ⟨"make_or_contents", .drop, [⟨['\\'], .seq (.opt nameRe) (.seq (.lit "maketitle".toList) wordEnd)⟩] ++
    words ["\\makeatletter", "\\makeatother", "\\tableofcontents", "\\@title"] wordEnd⟩,
  ⟨"addcontentsline", .drop, words ["\\addcontentsline"] (ws (.seq braces0 (ws (.seq braces0 (ws braces0)))))⟩,
  -- `[^}]*\s*\}`: the white space is in `[^}]*` already
  ⟨"addtocontents", .nested, words ["\\addtocontents", "\\addtocounter"] (ws (.seq braces0 wsOpen))⟩,
  ⟨"titlecontents", .titlecontents, words ["\\titlecontents"] wsOpen⟩,
  ⟨"contents", .drop, words ["\\contentspage", "\\startcontents"] wordEnd⟩,
  ⟨"printcontents", .blocks 3, words ["\\printcontents"] wsOpen⟩,
  ⟨"page", .drop, words ["\\enlargethispage"] (ws braces0) ++ words ["\\pagecolor"] (star? braces0) ++
    words ["\\centering", "\\raggedright", "\\raggedleft", "\\allowdisplaybreaks", "\\samepage", "\\thepage", "\\noindent", "\\par", "\\clearpage",
      "\\cleardoublepage", "\\nopagebreak", "\\hss", "\\hfill", "\\hfil", "\\vfill", "\\vfil", "\\break", "\\sloppy", "\\flushbottom", "\\flushleft",
      "\\flushright", "\\flushtop"] wordEnd⟩,
  ⟨"pagebreak", .text ['\n'], words ["\\pagebreak", "\\filbreak", "\\newpage", "\\allowbreak", "\\goodbreak", "\\smallbreak", "\\medbreak", "\\bigbreak", "\\break"] wordEnd ++
    words ["\\linebreak"] (.opt (.seq (.lit ['[']) (.seq (.plus (.chr isDigit)) (.lit [']']))))⟩,
  ⟨"vskip", .drop, words ["\\vskip"] (ws (.alt lengthRe (.alt (.seq (.opt (.lit ['-'])) (.seq (.lit ['\\']) nameRe)) boundary)))⟩,
  ⟨"penalty", .drop, words ["\\penalty", "\\clubpenalty", "\\widowpenalty", "\\interfootnotelinepenalty"] (ws (.seq (.opt (.lit ['='])) (.seq numRe wordEnd)))⟩,
  ⟨"skip", .drop, words ["\\bigskip", "\\medskip", "\\smallskip", "\\lastskip", "\\unskip", "\\abovedisplayshortskip", "\\abovedisplayskip", "\\abovecaptionshortskip",
    "\\abovecaptionskip", "\\belowdisplayshortskip", "\\belowdisplayskip", "\\belowcaptionshortskip", "\\belowcaptionskip"] wordEnd⟩,
  ⟨"style", .drop, words ["\\pagestyle", "\\urlstyle", "\\thispagestyle", "\\theoremstyle", "\\bibliographystyle", "\\documentstyle", "\\setcitestyle"] (ws braces0)⟩]

/-- `RAW_PATTERNS`, :104-194, up to "numbering_style"; "options" is `_handle_options`, :517-527, whose matches never end with a brace. -/
def entries2 : List Entry := [
  ⟨"bib", .drop, words ["\\printbibliography"] wordEnd⟩,
  ⟨"bibmacro", .nested, words ["\\renewbibmacro"] (star? (ws (.seq braces1 wsOpen)))⟩,
  ⟨"newstyle", .nested, words ["\\newpagestyle", "\\renewpagestyle"] (ws (.seq braces0 wsOpen))⟩,
  ⟨"lstset", .nested, words ["\\lstset"] wsOpen⟩,
  ⟨"setlist", .nested, words ["\\setlist"] (ws (.seq optArg wsOpen))⟩,
  ⟨"value", .drop, words ["\\value"] (ws braces1)⟩,
  ⟨"margins", .drop, words ["\\rightmargin", "\\leftmargin"] wordEnd ++
    words ["\\topmargin", "\\oddsidemargin", "\\evensidemargin", "\\textwidth", "\\textheight", "\\skip", "\\footskip", "\\headheight", "\\headsep", "\\footnotesep",
      "\\marginparsep", "\\marginparwidth", "\\parindent", "\\itemindent", "\\parskip", "\\vfuzz", "\\hfuzz", "\\hoffset", "\\voffset"]
      (ws (.opt (.seq (.opt (.lit ['='])) (ws pointsRe))))⟩,
  ⟨"indent", .text ['\t'], words ["\\indent"] wordEnd⟩,
  ⟨"lineskip", .lineskip, words ["\\lineskip"] (ws pointsRe) ++ [⟨[], .seq (.opt numRe) (.seq (.lit "\\baselineskip".toList) (.opt (ws pointsRe)))⟩]⟩,
  ⟨"width", .drop, words ["\\linewidth", "\\columnwidth", "\\textwidth", "\\hsize", "\\labelwidth"] wordEnd⟩,
  ⟨"spacing", .spacing, words ["\\quad", "\\qquad", "\\xspace", "\\space", "\\,", "\\;", "\\:", "\\!"] .eps ++ words ["\\hspace"] (star? (ws braces1)) ++
    words ["\\hskip"] (ws pointsRe) ++ words ["\\linespread"] (ws braces0)⟩,
  ⟨"toolset", .drop, words ["\\mathtoolsset"] (ws braces1)⟩,
  ⟨"kern", .drop, words ["\\kern"] (ws pointsRe)⟩,
  ⟨"tcb", .blocks 1, words ["\\tcbset", "\\tcbuselibrary"] wsOpen⟩,
  ⟨"options", .drop, words ["\\ProcessOptions"] wordEnd ++ words ["\\PassOptionsToPackage", "\\PassOptionsToClass"] (ws (.seq braces1 (ws braces1))) ++
    words ["\\ExecuteBibliographyOptions"] (ws braces1)⟩,
  ⟨"declare", .declare, words ["\\DeclareFontShape", "\\DeclareFontFamily", "\\DeclareOption", "\\DeclareSymbolFont", "\\SetMathAlphabet", "\\DeclareGraphicsExtensions"] (star? wsOpen)⟩,
  ⟨"fontsetters", .drop, words ["\\textfont\\", "\\scriptfont\\", "\\scriptscriptfont\\"]
      (.seq nameRe (ws (.seq (.lit ['=']) (ws (.seq (.lit ['\\']) (.seq nameRe boundary)))))) ++
    words ["\\setmathfont"] (ws (.seq optArg (ws braces1)))⟩,
  ⟨"number", .number, words ["\\num"] (.seq (optGroupArg 1) (ws (.seq (.lit ['{']) (.seq (.group 2 (.star (.chr (· != '}')))) (.lit ['}'])))))⟩,
  -- IGNORECASE; the letters outside ASCII that fold into ASCII are left out
  ⟨"linenumbers", .drop, [⟨['\\'], .seq (Content.ciLit "linenumbers".toList) wordEnd⟩, ⟨['\\'], .seq (Content.ciLit "linesnumbered".toList) wordEnd⟩,
    ⟨['\\'], .seq (Content.ciLit "numberwithin".toList) (ws (.seq braces0 (ws braces0)))⟩]⟩,
  ⟨"numbering_style", .drop, words ["\\arabic", "\\roman", "\\alph", "\\fnsymbol"] (.alt (ws braces0) wordEnd) ++ words ["\\pagenumbering"] (ws braces0)⟩]

/-- `RAW_PATTERNS`, :195-280, from "itemsep", and `COLOR_CELLS_PATTERN`, :19-27. -/
def entries3 : List Entry := [
  ⟨"itemsep", .drop, words ["\\itemsep"] (ws (.seq (.opt (.seq (.lit ['=']) spaces)) (.seq (.opt (.lit ['-'])) (.seq (.star (.chr isDigit)) (.seq (.opt (.lit ['.']))
    (.seq (.plus (.chr isDigit)) (.seq (.chr isWord) (.seq (.lazyStar (.chr isWord)) wordEnd))))))))⟩,
  ⟨"separators", .drop, words ["\\hline", "\\center", "\\hrulefill", "\\centerline"] wordEnd ++ words ["\\cline"] (ws braces1) ++
    words ["\\topsep", "\\parsep", "\\partopsep"] wordEnd ++
    words ["\\labelsep"] (ws (.seq (.opt (.lit ['{'])) (.seq (.star (.chr (· != '}'))) (.opt (.lit ['}']))))) ++
    words ["\\midrule", "\\toprule", "\\bottomrule"] optArg ++
    words ["\\cmidrule"] (ws (.seq (.opt (.seq (.lit ['(']) (.seq (.plus (.chr (· != ')'))) (.seq (.lit [')']) spaces))))
      (.seq (.opt (.seq (.lit ['[']) (.seq (.star (.chr (· != ']'))) (.seq (.lit [']']) spaces)))) braces1))) ++
    words ["\\hdashline"] (.opt (.seq (.lit ['[']) (.seq (.star (.chr fun c => isDigit c || c == ',' || isSpace c)) (.lit [']'])))) ++
    words ["\\cdashline"] (ws braces1) ++ words ["\\specialrule"] (ws (.seq braces0 (ws (.seq braces0 (ws braces0))))) ++
    words ["\\addlinespace"] optArg ++ words ["\\rule"] (ws (.seq braces0 (ws braces0))) ++ words ["\\hrule", "\\morecmidrules"] wordEnd ++
    words ["\\fboxsep", "\\Xhline"] (ws braces1) ++ words ["\\tabcolsep", "\\colrule", "\\noalign", "\\endfirsthead"] wordEnd⟩,
  ⟨"rulewidth", .drop, words ["\\arrayrulewidth", "\\heavyrulewidth", "\\overfullrule"] (.opt (ws (.seq (.opt (.lit ['='])) (ws (.seq numRe (.opt (.plus (.chr isWord))))))))⟩,
  ⟨"paper", .drop, words ["\\paperwidth", "\\paperheight"] (.opt (ws (.seq (.lit ['=']) (ws (.seq numRe (.opt (.plus (.chr isWord))))))))⟩,
  ⟨"protect", .drop, words ["\\protect\\"] (.seq (.plus (.chr isLetter)) (.opt (ws (.star (.alt (.seq (.lit ['[']) (.seq (.star (.chr (· != ']'))) (.lit [']']))) braces0)))))⟩,
  ⟨"counters", .drop, words ["\\c@page"] wordEnd ++ words ["\\counterwithin", "\\counterwithout"] (ws (.seq braces0 (ws braces0))) ++ words ["\\refstepcounter"] braces1 ++
    words ["\\@addtoreset"] (ws (.seq braces0 (ws braces0)))⟩,
  ⟨"add_enumerate_counter", .blocks 3, words ["\\AddEnumerateCounter"] wsOpen⟩,
  ⟨"backslash", .text ['\\', '\\'], words ["\\backslash", "\\textbackslash", "\\arraybackslash"] wordEnd⟩,
  ⟨"geometry", .nested, words ["\\geometry"] wsOpen⟩,
  ⟨"ensuremath", .ensuremath, words ["\\ensuremath"] wsOpen⟩,
  ⟨"stackmath", .drop, words ["\\stackMath"] wordEnd⟩,
  ⟨"hyphenation", .nested, words ["\\hyphenation"] wsOpen⟩,
  ⟨"vspace", .text ['\n'], words ["\\vspace"] (star? (ws braces0))⟩,
  ⟨"phantom", .phantom, words ["\\hphantom", "\\vphantom", "\\phantom"] wsOpen⟩,
  ⟨"raise", .drop, words ["\\raise", "\\lower"] (ws (.seq (.alt lengthRe braces0) (.star (ws braces0))))⟩,
  ⟨"other", .drop, words ["\\ignorespaces", "\\relax", "\\repeat", "\\@tempboxa", "\\box", "\\global", "\\@plus", "\\@minus", "\\null", "\\FloatBarrier", "\\footins",
    "\\phantomsection"] wordEnd⟩,
  ⟨"newmdenv", .drop, words ["\\newmdenv"] (ws (.seq (.opt (.seq (.lit ['[']) (.seq (.lazyStar (.chr fun _ => true)) (.lit [']']))))
    (ws (.seq (.lit ['{']) (.seq (.lazyStar (.chr fun _ => true)) (.lit ['}']))))))⟩,
  ⟨"pz@", .strips, [⟨[], .seq (.opt numRe) (.seq (.lit ['\\']) (.seq (.chr fun c => c == 'p' || c == 'z') (.seq (.lit ['@']) (.nlook (.chr isNameChar)))))⟩]⟩,
  ⟨"slash", .drop, words ["\\/"] .eps⟩,
  ⟨"@empty", .drop, words ["\\@empty"] (.nlook (.chr isNameChar))⟩,
  ⟨"advance", .drop, words ["\\advance", "\\divide", "\\multiply"] (.seq (.opt (.seq (.lit ['\\']) advanceName)) (.seq (.opt (.seq (.plus reSpace) (.lit "by".toList)))
    (.seq (.opt (ws (.lit ['-']))) (.opt (ws (.seq (.opt (.lit ['\\'])) advanceName))))))⟩,
  ⟨"typeout", .nested, words ["\\typeout"] wsOpen⟩,
  ⟨"physics", .drop, words ["\\pacs"] (ws (.seq (.lit ['{']) (.seq (.lazyStar (.chr (· != '\n'))) (.lit ['}']))))⟩,
  ⟨"Hy@", .nested, words ["\\Hy@"] (.seq (.plus (.chr isLetter)) wsOpen)⟩,
  ⟨"unvbox", .drop, words ["\\unvbox"] (ws (.alt numRe (.seq (.lit ['\\']) (.seq nameRe boundary))))⟩,
  ⟨"string_or_chars", .drop, words ["\\string", "\\escapechar"] wordEnd⟩,
  ⟨"dims", .drop, words ["\\wd", "\\ht", "\\dp"] (.alt (.plus (.chr isDigit)) cmdOrBrace)⟩,
  ⟨"debug", .drop, words ["\\showthe", "\\the"] wordEnd⟩,
  ⟨"color_cells", .drop, words ["\\rowcolor", "\\columncolor", "\\cellcolor"] (star? (ws (.seq optArg (ws braces0))))⟩]

/-- `PATTERNS`, :283-287. -/
def entries : List Entry := entries1 ++ entries2 ++ entries3

/-- The first pattern that matches, :357-361. -/
def firstEntry (s : Str) : List Entry → Option (Entry × Match)
  | [] => none
  | e :: l =>
    match e.re.matchAt [] s with
    | some m => some (e, m)
    | none => firstEntry s l

/-- `can_handle`, :347-348. -/
def canHandle (s : Str) : Bool := (firstEntry s entries).isSome

/-- What comes out: nothing, a text, or an inline equation; `none` as its content is Python's `None`. -/
inductive Out where
  | nothing
  | text (t : Str)
  | equation (content : Option Str)
deriving DecidableEq

/-- What `handle` gives: what comes out, the end, and whether numbers at the end of the previous token are removed. -/
structure Result where
  out : Out
  stop : Nat
  strips : Bool
deriving DecidableEq

/-- `end_pos` of `extract_nested_content`. -/
def blockEnd (s : Str) (o c : Char) : Nat :=
  match extractNestedContent s o c with
  | some (_, e) => e
  | none => 0

/-- `_handle_titlecontents`, :483-504. -/
def titleEnd (s : Str) (p : Nat) : Nat :=
  let p := p + (seqBlocks (s.drop p) '{' '}' (some 1)).2
  let p := p + (seqBlocks (s.drop p) '[' ']' (some 1)).2
  let p := p + (seqBlocks (s.drop p) '{' '}' (some 4)).2
  p + (seqBlocks (s.drop p) '[' ']' (some 1)).2

/-- `declare_pattern_N_blocks.get(cmd, 1)`, :31-40, :511. -/
def declareBlocks (head : Str) : Nat :=
  if head = "\\DeclareFontFamily".toList then 3
  else if head = "\\DeclareFontShape".toList then 6
  else if head = "\\DeclareOption".toList then 2
  else if head = "\\SetMathAlphabet".toList then 6
  else if head = "\\DeclareSymbolFont".toList then 5
  else 1

/-- What is done for a match, :361-479. `fmt` is `format_number` (:316-345). `error`: raises (:471, the length of `None`). -/
def Act.run (fmt : Str → Option Str → Str) (a : Act) (s : Str) (m : Match) : Except Unit Result :=
  let p := m.stop - 1
  match a with
  | .drop => .ok ⟨.nothing, m.stop, false⟩
  | .text t => .ok ⟨.text t, m.stop, false⟩
  | .number => .ok ⟨.text (fmt ((m.group 2).getD []) (m.group 1)), m.stop, false⟩
  | .strips => .ok ⟨.nothing, m.stop, true⟩
  | .lineskip => .ok ⟨.nothing, m.stop, startsWith m.text "\\baselineskip".toList⟩
  | .spacing => .ok ⟨if m.text = "\\!".toList then .nothing else .text [' '], m.stop, false⟩
  | .nested => .ok ⟨.nothing, p + blockEnd (s.drop p) '{' '}', false⟩
  | .blocks n => .ok ⟨.nothing, p + (seqBlocks (s.drop p) '{' '}' (some n)).2, false⟩
  | .ensuremath => .ok ⟨.equation ((extractNestedContent (s.drop p) '{' '}').map (·.1)), p + blockEnd (s.drop p) '{' '}', false⟩
  | .titlecontents => .ok ⟨.nothing, titleEnd s p, false⟩
  | .declare => .ok ⟨.nothing, p + (seqBlocks (s.drop p) '{' '}' (some (declareBlocks ((m.group 0).getD [])))).2, false⟩
  | .classSetup => if endsWith m.text ['['] then .ok ⟨.nothing, p + blockEnd (s.drop p) '[' ']', false⟩ else .ok ⟨.nothing, m.stop, false⟩
  | .phantom =>
    match extractNestedContent (s.drop p) '{' '}' with
    | some (x, e) => .ok ⟨.text (if startsWith m.text "\\hphantom".toList then List.replicate x.length ' ' else ['\n']), p + e, false⟩
    | none => if startsWith m.text "\\hphantom".toList then .error () else .ok ⟨.text ['\n'], p, false⟩

/-- `handle`, :350-481, with the patterns that are not excluded. -/
def handleWith (fmt : Str → Option Str → Str) (l : List Entry) (s : Str) : Except Unit Result :=
  match firstEntry s l with
  | none => .ok ⟨.nothing, 0, false⟩
  | some (e, m) => e.act.run fmt s m

/-- `handle(content)`. -/
def handle (fmt : Str → Option Str → Str) (s : Str) : Except Unit Result := handleWith fmt entries s

/-- `handle(content, exclude_patterns=["spacing"])`, equation.py:77-79. -/
def handleMath (fmt : Str → Option Str → Str) (s : Str) : Except Unit Result := handleWith fmt (entries.filter fun e => e.name != "spacing") s

/-- `number_regex_compiled.match(text)`. -/
def startsNumber (s : Str) : Bool := (numRe.matchAt [] s).isSome

/-- The loop from the end, :305-309: up to the last position at which no number begins; all of the text if there is a number at every
position. -/
def lastNonNumber (text : Str) : Nat → Str
  | 0 => text
  | i + 1 => if startsNumber (text.drop i) then lastNonNumber text i else text.take (i + 1)

/-- `strip_trailing_number_from_token`, :292-311, on the text of a token. `$` also matches before a newline at the end. -/
def stripTrailingNumber (text : Str) : Str :=
  if text.isEmpty then text
  else if ((Re.seq numRe .eos).matchAt [] text).isSome then []
  else lastNonNumber text text.length

end L2J.Fmt
