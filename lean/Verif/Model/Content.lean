import Verif.Model.Commands
import Verif.Model.Files
/-! Model of the content commands: latex2json/parser/handlers/content_command.py (headings, references, citations, links,
graphics, footnotes, captions, file inclusion). -/
namespace L2J.Content

/-- A character of a pattern under `re.IGNORECASE` (the flag of content_command.py:78): the letter in both cases, and the
non-ASCII characters CPython folds to `i`, `s` and `k`. The patterns are written in lower case. -/
def ciChar (c x : Char) : Bool :=
  x == c || (('a' ≤ c && c ≤ 'z') && x.toNat + 32 == c.toNat) || (c == 'i' && (x.toNat == 0x130 || x.toNat == 0x131)) ||
    (c == 's' && x.toNat == 0x17f) || (c == 'k' && x.toNat == 0x212a)

/-- A literal under `re.IGNORECASE`. -/
def ciLit : Str → Re
  | [] => .eps
  | c :: cs => .seq (.chr (ciChar c)) (ciLit cs)

/-- A choice of literals, tried in order. -/
def ciAlts : List Str → Re
  | [] => .fail
  | [w] => ciLit w
  | w :: ws => .alt (ciLit w) (ciAlts ws)

/-- `\s*{`. -/
def openBrace : Re := .seq (.star reSpace) (.lit ['{'])

/-- `OPTIONAL_BRACE_PATTERN`, content_command.py:20: `(?:\[([^\]]*)\])?`. -/
def optArg (n : Nat) : Re :=
  .opt (.seq (.lit ['[']) (.seq (.group n (.star (.chr (· != ']')))) (.lit [']'])))

/-- `\s*{([^}]*)}`. -/
def braceArg (n : Nat) : Re :=
  .seq openBrace (.seq (.group n (.star (.chr (· != '}')))) (.lit ['}']))

/-- `\*?`. -/
def starred : Re := .opt (.lit ['*'])

/-- The keys of `RAW_PATTERNS`, content_command.py:22-74. -/
inductive Kind
  | abstract | «section» | part | chapter | paragraph | footnote | caption | captionof | input_file
  | ref | cref | hyperref | href | bookmark | pdfbookmark | footnotemark | footnotetext | url | doi
  | includegraphics | includepdf | graphicspath | citation | defcitealias | citealias | title | appendix
  | keywords | bibliography_file
deriving DecidableEq, Repr

/-- The key as a string. -/
def Kind.key : Kind → Str
  | .abstract => "abstract".toList | .section => "section".toList | .part => "part".toList
  | .chapter => "chapter".toList | .paragraph => "paragraph".toList | .footnote => "footnote".toList
  | .caption => "caption".toList | .captionof => "captionof".toList | .input_file => "input_file".toList
  | .ref => "ref".toList | .cref => "cref".toList | .hyperref => "hyperref".toList | .href => "href".toList
  | .bookmark => "bookmark".toList | .pdfbookmark => "pdfbookmark".toList | .footnotemark => "footnotemark".toList
  | .footnotetext => "footnotetext".toList | .url => "url".toList | .doi => "doi".toList
  | .includegraphics => "includegraphics".toList | .includepdf => "includepdf".toList
  | .graphicspath => "graphicspath".toList | .citation => "citation".toList | .defcitealias => "defcitealias".toList
  | .citealias => "citealias".toList | .title => "title".toList | .appendix => "appendix".toList
  | .keywords => "keywords".toList | .bibliography_file => "bibliography_file".toList

/-- The names a pattern accepts after the backslash. `(?:sub)*` is only used with one word behind it. -/
inductive Names
  | words (l : List Str)
  | subs (w : Str)
  /-- in a group with the number -/
  | grouped (n : Nat) (l : List Str)

/-- As a pattern. -/
def Names.re : Names → Re
  | .words l => ciAlts l
  | .subs w => .seq (.star (ciLit "sub".toList)) (ciLit w)
  | .grouped n l => .group n (ciAlts l)

/-- The words of the citation pattern, content_command.py:60. -/
def citeWords : List Str := ["cite", "citep", "citet", "cites", "citealt", "citealp", "citeauthor", "citenum", "citeyear",
  "citeyearpar", "citefullauthor"].map String.toList

/-- `RAW_PATTERNS`, content_command.py:22-74, in order: the names and what follows them. An optional prefix such as
`(?:auto|eq|page)?ref` is written as the list of the words, in the order in which the matcher tries them, and
`\\[cC]ref` as `cref`, which is the same under IGNORECASE. -/
def patterns : List (Kind × Names × Re) :=
  [(.abstract, .words ["abstract".toList], openBrace),
   (.section, .subs "section".toList, .seq starred openBrace),
   (.part, .words ["part".toList], .seq starred openBrace),
   (.chapter, .words ["chapter".toList], .seq starred openBrace),
   (.paragraph, .subs "paragraph".toList, .seq starred openBrace),
   (.footnote, .words ["footnote".toList], .seq starred (.seq (optArg 1) openBrace)),
   (.caption, .grouped 1 ["caption".toList, "subcaption".toList],
      .seq starred (.seq (.star reSpace) (.seq (optArg 2) openBrace))),
   (.captionof, .words ["captionof".toList], .seq starred (.seq openBrace
      (.seq (.group 1 (.lazyStar (.chr (· != '}')))) (.seq (.lit ['}']) openBrace)))),
   (.input_file, .words ["input".toList, "include".toList], openBrace),
   (.ref, .words ["autoref".toList, "eqref".toList, "pageref".toList, "ref".toList], .seq starred openBrace),
   (.cref, .words ["cref".toList], .seq starred openBrace),
   (.hyperref, .words ["hyperref".toList], .seq (.star reSpace) (.seq (optArg 1) openBrace)),
   (.href, .words ["href".toList], .seq (braceArg 1) openBrace),
   (.bookmark, .words ["bookmark".toList], .seq (.star reSpace) (.seq (optArg 1) openBrace)),
   (.pdfbookmark, .words ["belowpdfbookmark".toList, "currentpdfbookmark".toList, "pdfbookmark".toList],
      .seq (.star reSpace) (.seq (optArg 1) (.seq (braceArg 2) openBrace))),
   (.footnotemark, .words ["footnotemark".toList], optArg 1),
   (.footnotetext, .words ["footnotetext".toList], .seq (optArg 1) openBrace),
   (.url, .words ["url".toList, "path".toList], openBrace),
   (.doi, .words ["doi".toList], openBrace),
   (.includegraphics, .words ["includegraphics".toList], .seq (.star reSpace) (.seq (optArg 1) openBrace)),
   (.includepdf, .words ["includepdf".toList], .seq (.star reSpace) (.seq (optArg 1) openBrace)),
   (.graphicspath, .words ["graphicspath".toList], openBrace),
   (.citation, .words citeWords, .seq (.star reSpace) (.seq (optArg 1) (.seq (optArg 2) openBrace))),
   (.defcitealias, .words ["defcitealias".toList], .seq (braceArg 1) openBrace),
   (.citealias, .words ["citetalias".toList, "citepalias".toList], openBrace),
   (.title, .words ["title".toList], .seq (.star reSpace) (.seq (optArg 1) openBrace)),
   (.appendix, .words ["appendix".toList, "appendices".toList], reWordEnd),
   (.keywords, .words ["keywords".toList], openBrace),
   (.bibliography_file, .words ["bibliography".toList, "addbibresource".toList], openBrace)]

/-- A whole pattern. -/
def patternRe (p : Kind × Names × Re) : Re := .seq (.lit ['\\']) (.seq p.2.1.re p.2.2)

/-- The loop of content_command.py:100-102: the first pattern that matches at the start. -/
def firstPattern (content : Str) : List (Kind × Names × Re) → Option (Kind × Match)
  | [] => none
  | p :: ps =>
    match (patternRe p).matchAt [] content with
    | some m => some (p.1, m)
    | none => firstPattern content ps

/-- The value under "content". -/
inductive Cont
  | absent
  | str (s : Str)
  | keys (l : List Str)
deriving DecidableEq, Repr

/-- A token, with the keys the handler sets. -/
structure CTok where
  type : Str
  content : Cont
  title : Option Str := none
  level : Option Nat := none
  numbered : Option Bool := none
  page : Option Nat := none
  pages : Option Str := none
deriving DecidableEq, Repr

/-- What `handle` returns first: nothing, a token or a list of tokens. -/
inductive Out
  | none
  | tok (t : CTok)
  | toks (l : List CTok)
deriving DecidableEq, Repr

/-- `s.count(sub)` for a non-empty `sub`: occurrences that do not overlap; `k` characters are still to be passed. -/
def countSub (sub : Str) : Nat → Str → Nat
  | _, [] => 0
  | k + 1, _ :: cs => countSub sub k cs
  | 0, c :: cs => if sub.isPrefixOf (c :: cs) then countSub sub (sub.length - 1) cs + 1 else countSub sub 0 cs

/-- `SECTION_LEVELS`, content_command.py:7-13, for the three keys it is used with. -/
def sectionLevel : Kind → Nat
  | .part => 0
  | _ => 1

/-- `x.strip() if x else ""`. -/
def noteOf (g : Option Str) : Str := strip (g.getD [])

/-- `page=(\d+)`, content_command.py:228. -/
def pageRe : Re := .seq (.lit "page=".toList) (.group 1 (.plus (.chr isDigit)))

/-- `[0-9-,]`. -/
def rangeChar (c : Char) : Bool := isDigit c || c == '-' || c == ','

/-- `pages=(?:{([0-9-,]+)}|([0-9-,]+))`, content_command.py:245. -/
def pagesRe : Re :=
  .seq (.lit "pages=".toList)
    (.alt (.seq (.lit ['{']) (.seq (.group 1 (.plus (.chr rangeChar))) (.lit ['}']))) (.group 2 (.plus (.chr rangeChar))))

/-- The tokens of the citation aliases, content_command.py:203-221. -/
def aliasTok (aliases : Dict Str) (key : Str) : CTok :=
  { type := "citation".toList, content := .keys [key],
    title := (aliases.get? key).bind fun t => if t.isEmpty then Option.none else some t }

/-- `_create_token`, content_command.py:137-267: the aliases afterwards and the token. `none`: raises (AttributeError, the optional
argument of `\hyperref` is missing, line 184). -/
def createToken (aliases : Dict Str) (k : Kind) (m : Match) (text : Str) : Option (Dict Str × Out) :=
  let content := strip text
  let same (t : CTok) : Option (Dict Str × Out) := some (aliases, .tok t)
  match k with
  | .paragraph =>
    same { type := "paragraph".toList, content := .absent, title := some content,
           level := some (countSub "sub".toList 0 m.text + 1) }
  | .section | .chapter | .part =>
    same { type := "section".toList, content := .absent, title := some content,
           level := some (countSub "sub".toList 0 m.text + sectionLevel k),
           numbered := some (findSub (k.key ++ ['*']) m.text).isNone }
  | .title => same { type := "title".toList, content := .str content }
  | .captionof =>
    same { type := "caption".toList, content := .str content, title := some (strip ((m.group 1).getD [])) }
  | .footnote | .footnotetext => same { type := "footnote".toList, content := .str content }
  | .ref => same { type := "ref".toList, content := .keys [strip content] }
  | .cref => same { type := "ref".toList, content := .keys ((splitComma content).map strip) }
  | .hyperref =>
    match m.group 1 with
    | Option.none => Option.none
    | some g => same { type := "ref".toList, content := .keys [strip g], title := some content }
  | .href =>
    same { type := "url".toList, content := .str (strip ((m.group 1).getD [])), title := some content }
  | .url => same { type := "url".toList, content := .str content }
  | .doi => same { type := "url".toList, content := .str ("https://doi.org/".toList ++ content) }
  | .citation =>
    let notes := [noteOf (m.group 1), noteOf (m.group 2)].filter fun n => !n.isEmpty
    same { type := "citation".toList, content := .keys ((splitComma content).map strip),
           title := if notes.isEmpty then Option.none else some (joinWith ", ".toList notes) }
  | .defcitealias => some (aliases.set (strip ((m.group 1).getD [])) content, .none)
  | .citealias =>
    match ((splitComma content).map strip).map (aliasTok aliases) with
    | [t] => same t
    | ts => some (aliases, .toks ts)
  | .includegraphics =>
    same { type := "includegraphics".toList, content := .str content,
           page := (m.group 1).bind fun o => (pageRe.search o).map fun p => digitsVal ((p.group 1).getD []) }
  | .includepdf =>
    same { type := "includepdf".toList, content := .str content,
           pages := (m.group 1).bind fun o => (pagesRe.search o).bind fun p => (p.group 1).or (p.group 2) }
  | .graphicspath | .pdfbookmark | .bookmark => some (aliases, .none)
  | k => same { type := k.key, content := .str content }

/-- The result of `handle`. -/
inductive Res
  | raised
  | ok (aliases : Dict Str) (out : Out) (pos : Nat)
deriving DecidableEq, Repr

/-- The branches of content_command.py:103-132 for a pattern that matched. `process` is `process_content_fn` (or nothing). -/
def handleMatch (process : Str → Str) (aliases : Dict Str) (content : Str) (k : Kind) (m : Match) : Res :=
  match k with
  | .footnotemark =>
    let g := noteOf (m.group 1)
    -- `if match.group(1)`: a present but blank argument gives ""
    let mark := if (m.group 1).getD [] = [] then ['*'] else g
    .ok aliases (.tok { type := "footnote".toList, content := .str mark }) m.stop
  | .appendix => .ok aliases (.tok { type := "appendix".toList, content := .absent }) m.stop
  | k =>
    match extractNestedContent (content.drop (m.stop - 1)) '{' '}' with
    | none => .ok aliases .none m.stop
    | some (inner, e) =>
      match createToken aliases k m (process inner) with
      | none => .raised
      | some (aliases', out) => .ok aliases' out (m.stop + e - 1)

/-- `handle`, content_command.py:96-134; `ok aliases none 0` if nothing matches (then `can_handle` is false). -/
def handle (process : Str → Str) (aliases : Dict Str) (content : Str) : Res :=
  match firstPattern content patterns with
  | none => .ok aliases .none 0
  | some (k, m) => handleMatch process aliases content k m

/-- `can_handle`, content_command.py:93-94. -/
def canHandle (content : Str) : Bool := (firstPattern content patterns).isSome

end L2J.Content
