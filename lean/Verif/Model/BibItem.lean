import Verif.Model.Bib
import Verif.Model.Formatting
import Verif.Model.Comments
import Verif.Model.Whitespace
/-
Model of latex2json/parser/bib/bibitem_parser.py and of `BibParser.parse` (bib_parser.py).

Simplifications: `\w` is ASCII. In a replacement text (`re.sub` with a text as replacement) a backslash before a digit or before `g` is
taken to raise; Python also knows `\0`, octal numbers and `\g<0>` there.
-/
namespace L2J.BibI

/-- bibtex_parser.py:18-29 `BibTexEntry` as far as it is set for a `\bibitem`. -/
structure Entry where
  key : Str
  label : Option Str
  content : Str
deriving DecidableEq, Repr

/-- Any character (`.` with DOTALL, `[\s\S]`). -/
def anyRe : Re := .chr fun _ => true

/-- bibitem_parser.py:9-10 `\{(.*?)\}\s*([\s\S]*?)(?=\\bibitem|$)`. -/
def keyRe : Re := .seq (.lit ['{']) (.seq (.group 2 (.lazyStar anyRe)) (.seq (.lit ['}']) (.seq (.star reSpace)
  (.seq (.group 3 (.lazyStar anyRe)) (.look (.alt (.lit "\\bibitem".toList) .eos))))))

/-- bibitem_parser.py:8-11 `BibItemPattern`.  -/
def bibitemRe : Re := .seq (.lit "\\bibitem".toList) (.seq (.star reSpace) (.seq
  (.opt (.seq (.lit ['[']) (.seq (.group 1 (.lazyStar anyRe)) (.lit [']'])))) (.seq (.star reSpace) keyRe)))

/-- bibitem_parser.py:13 `NewblockPattern`. -/
def newblockRe : Re := .seq (.lit "\\newblock".toList) Fmt.wordEnd

/-- bibitem_parser.py:36 `bysame_pattern`. -/
def bysameRe : Re := .seq (.lit "\\bysame".toList) Fmt.wordEnd

/-- The letters that stand for a character after a backslash in a replacement text (`\a`, `\b`, …; sre `ESCAPES`). -/
def escapes : List (Char × Char) := [('a', Char.ofNat 7), ('b', Char.ofNat 8), ('f', Char.ofNat 12), ('n', '\n'), ('r', '\r'), ('t', '\t'), ('v', Char.ofNat 11), ('\\', '\\')]

/-- How `re.sub` reads a replacement text; `none`: `re.error` is raised. -/
def template : Str → Option Str
  | [] => some []
  | ['\\'] => none
  | '\\' :: c :: t =>
    match escapes.find? (·.1 == c) with
    | some e => (template t).map (e.2 :: ·)
    | none => if Cmds.isLetter c || isDigit c then none else (template t).map fun x => '\\' :: c :: x
  | c :: t => (template t).map (c :: ·)

/-- bibitem_parser.py:20 and 26-28 `\\begin{(\w*bibliography)}(.*?)\\end{\1}` at a place: group 2. -/
def bibEnvAt (s : Str) : Option Str :=
  if startsWith s "\\begin{".toList then
    let r := s.drop 7
    let name := r.takeWhile isWord
    match r.drop name.length with
    | '}' :: r' =>
      if endsWith name "bibliography".toList then
        (findSub ("\\end{".toList ++ name ++ ['}']) r').map fun i => r'.take i
      else none
    | _ => none
  else none

/-- The search for it. -/
def bibEnv : Str → Option Str
  | [] => none
  | c :: s => match bibEnvAt (c :: s) with
    | some x => some x
    | none => bibEnv s

/-- bibitem_parser.py:18-23 `can_handle`. -/
def canHandle (s : Str) : Bool := (bibEnv s).isSome || (findSub "\\bibitem".toList s).isSome

/-- `str.split(",")[0]`. -/
def firstPart (s : Str) : Str := s.takeWhile (· != ',')

/-- bibitem_parser.py:45-50: `\bysame` is replaced; `none`: `re.error` is raised. -/
def sameAuthor (prev item : Str) : Option Str :=
  if !prev.isEmpty && (bysameRe.search item).isSome then
    if (firstPart prev).isEmpty then some item
    else (template (firstPart prev)).map fun t => bysameRe.sub (fun _ => t) item
  else some item

/-- bibitem_parser.py:38-60, the loop; `none`: an exception. -/
def entries : Str → List Match → Option (List Entry)
  | _, [] => some []
  | prev, m :: ms =>
    let item := strip ((m.group 3).getD [])
    if item.isEmpty then entries prev ms
    else
      match sameAuthor prev (newblockRe.sub (fun _ => []) item) with
      | none => none
      | some item =>
        (entries item ms).map (⟨strip ((m.group 2).getD []), (match m.group 1 with | some l => if l.isEmpty then none else some (strip l) | none => none), item⟩ :: ·)

/-- bibitem_parser.py:25-61 `BibItemParser.parse`. -/
def parse (content : Str) : Option (List Entry) :=
  entries [] (bibitemRe.findIter 0 [] ((bibEnv content).getD content))

/-- bib_parser.py:19-23 `preprocess`. -/
def preprocess (s : Str) : Str := strip (normalizeWs (stripLatexComments s))

/-- bibdiv_parser.py:11 `\\begin\s*{bibdiv}`. -/
def bibdivRe : Re := .seq (.lit "\\begin".toList) (.seq (.star reSpace) (.lit "{bibdiv}".toList))

/-- What `BibParser.parse` returns: the entries of one of the three parsers. -/
inductive Parsed where
  | bibdiv (es : Option (List BibEntry))
  | bibtex (es : Option (List BibEntry))
  | bibitem (es : Option (List Entry))
  | nothing

/-- bib_parser.py:41-66 `BibParser.parse`; `convert` is `process_compiled_bibtex_to_bibtex`. -/
def parseAny (convert : Str → List Str) (content : Str) : Parsed :=
  let s := preprocess content
  if (bibdivRe.search s).isSome then .bibdiv (parseBibdiv s)
  else if !(entryStarts 0 s).isEmpty || isCompiledBibtex s then .bibtex (parseBibtex convert s)
  else if canHandle s then .bibitem (parse s)
  else .nothing

end L2J.BibI
