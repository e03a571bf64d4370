import Verif.Model.Delim
import Verif.Model.Tabular
import Verif.Model.IfElse
/-
Model of latex2json/parser/bib/bibtex_parser.py and bibdiv_parser.py.

Simplifications: `\w` and `str.lower` are the ASCII ones. Every search in the field loops works on a slice
`text[pos:]`, so the loops are modelled on the remaining text instead of a position. Loops that Python does
not bound carry fuel; `none` means that the fuel ran out.
-/
namespace L2J

/-- A Python `dict` with insertion order: assigning to an existing key keeps its place. -/
def dictSet (d : List (Str × Str)) (k v : Str) : List (Str × Str) :=
  match d with
  | [] => [(k, v)]
  | (k', v') :: d' => if k' = k then (k, v) :: d' else (k', v') :: dictSet d' k v

/-- `dict.get`. -/
def dictGet (d : List (Str × Str)) (k : Str) : Option Str :=
  match d with
  | [] => none
  | (k', v') :: d' => if k' = k then some v' else dictGet d' k

/-- `str.lower` (ASCII). -/
def lower (s : Str) : Str := s.map Char.toLower

/-- bibtex_parser.py:47 `BibTexFieldPattern = (\w+)\s*=\s*` at the current position: the length of the match.
Deterministic: giving back characters of a `\w` run never helps. -/
def matchField (s : Str) : Option Nat :=
  let w := (s.takeWhile isWord).length
  let r := s.drop w
  let n := (r.takeWhile isSpace).length
  if w = 0 then none
  else match r.drop n with
    | '=' :: r' => some (w + n + 1 + (r'.takeWhile isSpace).length)
    | _ => none

/-- bibtex_parser.py:140 `\s*"([^"]*)"` at the current position: group 1 and the length of the match. -/
def matchQuoted (s : Str) : Option (Str × Nat) :=
  let n := (s.takeWhile isSpace).length
  match s.drop n with
  | '"' :: r =>
    let q := r.takeWhile (· != '"')
    if (r.drop q.length).head? = some '"' then some (q, n + q.length + 2) else none
  | _ => none

/-- bibtex_parser.py:148-151: skip commas and whitespace. -/
def skipSep (s : Str) : Str := s.dropWhile fun c => isSpace c || c == ','

/-- bibtex_parser.py:116-151, the `while pos < len(fields_text)` loop; the text is `fields_text[pos:]`. -/
def bibFieldsLoop : Nat → Str → List (Str × Str) → Option (List (Str × Str))
  | 0, _, _ => none
  | fuel + 1, s, d =>
    if s.isEmpty then some d
    else match searchWith matchField s with
      | none => some d
      | some (a, e) =>
        let name := lower ((s.drop a).takeWhile isWord)
        let r := s.drop e
        if (lstrip r).head? = some '{' then
          match extractNestedContent (lstrip r) '{' '}' with
          | some (v, n) => bibFieldsLoop fuel (skipSep ((lstrip r).drop n)) (dictSet d name (strip v))
          | none => bibFieldsLoop fuel (skipSep s) d   -- `pos` is not advanced
        else match matchQuoted r with
          | some (q, n) => bibFieldsLoop fuel (skipSep (r.drop n)) (dictSet d name q)
          | none => bibFieldsLoop fuel (skipSep (r.drop 1)) d

/-- bibtex_parser.py:18-42, the part of `BibTexEntry` that comes from the source. -/
structure BibEntry where
  entryType : Str
  key : Str
  fields : List (Str × Str)
deriving DecidableEq, Repr

/-- bibtex_parser.py:46 `BibTexPattern = @(\w+)\s*\{` at the current position: group 1 and the match length. -/
def matchEntry (s : Str) : Option (Str × Nat) :=
  match s with
  | '@' :: r =>
    let w := r.takeWhile isWord
    let r' := r.drop w.length
    let n := (r'.takeWhile isSpace).length
    if w.isEmpty then none
    else if (r'.drop n).head? = some '{' then some (w, w.length + n + 2) else none
  | _ => none

/-- `re.finditer(BibTexPattern, content)`: for each match, group 1 and `content[match.end() - 1:]`. -/
def entryStarts : Nat → Str → List (Str × Str)
  | _, [] => []
  | k + 1, _ :: xs => entryStarts k xs
  | 0, x :: xs =>
    match matchEntry (x :: xs) with
    | some (ty, e) => (ty, (x :: xs).drop (e - 1)) :: entryStarts (e - 1) xs
    | none => entryStarts 0 xs

/-- bibtex_parser.py:96-157, the body of the loop over the matches: `none` inside means `continue`. -/
def parseEntry (ty s : Str) : Option (Option BibEntry) :=
  match extractNestedContent s '{' '}' with
  | none => some none
  | some (content, _) =>
    match findSub [','] content with
    | none => some none
    | some k =>
      let key := strip (content.take k)
      let text := strip (content.drop (k + 1))
      match bibFieldsLoop (text.length + 1) text [] with
      | none => none
      | some fields => some (some ⟨lower ty, key, fields⟩)

/-- The loop over the matches. -/
def parseEntries : List (Str × Str) → Option (List BibEntry)
  | [] => some []
  | (ty, s) :: l =>
    match parseEntry ty s with
    | none => none
    | some none => parseEntries l
    | some (some e) => (parseEntries l).map (e :: ·)

/-- compiled_bibtex.py:155-158 `is_compiled_bibtex`: `\\entry\{.*?\\endentry` with DOTALL. -/
def isCompiledBibtex (s : Str) : Bool :=
  match findSub "\\entry{".toList s with
  | none => false
  | some i => (findSub "\\endentry".toList (s.drop (i + 7))).isSome

/-- bibtex_parser.py:80-160 `BibTexParser.parse`; `convert` is `process_compiled_bibtex_to_bibtex`, see Model/Compiled. -/
def parseBibtex (convert : Str → List Str) (content : Str) : Option (List BibEntry) :=
  parseEntries (entryStarts 0 (if isCompiledBibtex content then joinWith ['\n'] (convert content) else content))

/-- bibtex_parser.py:72-78 `convert_fields_to_bibtex_str`. -/
def toBibtexStr (e : BibEntry) : Str :=
  '@' :: (e.entryType ++ '{' :: (e.key ++ ',' :: '\n' :: '\t' ::
    (joinWith [',', '\n', '\t'] (e.fields.map fun f => f.1 ++ '=' :: '{' :: (f.2 ++ ['}'])) ++ ['\n', '}'])))

/-- bibdiv_parser.py:13 `\\bib\s*\{([^}]+)\}\s*\{([^}]+)\}` at the current position: the groups and the length. -/
def matchBib (s : Str) : Option (Str × Str × Nat) :=
  if startsWith s "\\bib".toList then
    let r := s.drop 4
    match spacesBrace r with
    | none => none
    | some n =>
      let r1 := r.drop n
      let k := r1.takeWhile (· != '}')
      if k.isEmpty || (r1.drop k.length).head? != some '}' then none
      else
        let r2 := r1.drop (k.length + 1)
        match spacesBrace r2 with
        | none => none
        | some m =>
          let r3 := r2.drop m
          let t := r3.takeWhile (· != '}')
          if t.isEmpty || (r3.drop t.length).head? != some '}' then none
          else some (k, t, 4 + n + k.length + 1 + m + t.length + 1)
  else none

/-- `re.finditer(BibPattern, content)`: groups and `content[match.end():]`. -/
def bibStarts : Nat → Str → List (Str × Str × Str)
  | _, [] => []
  | k + 1, _ :: xs => bibStarts k xs
  | 0, x :: xs =>
    match matchBib (x :: xs) with
    | some (k, t, e) => (k, t, (x :: xs).drop e) :: bibStarts (e - 1) xs
    | none => bibStarts 0 xs

/-- bibdiv_parser.py:95 `re.sub(r"\{([^}]*)\}", r"\1", value)`. -/
def unbrace (s : Str) : Str :=
  (Re.seq (.lit ['{']) (.seq (.group 1 (.star (.chr (· != '}')))) (.lit ['}']))).sub
    (fun m => (m.group 1).getD []) s

/-- bibdiv_parser.py:97-101 and 112-116: a repeated field is joined with " and ". -/
def dictAnd (d : List (Str × Str)) (k v : Str) : List (Str × Str) :=
  match dictGet d k with
  | some old => dictSet d k (old ++ " and ".toList ++ v)
  | none => dictSet d k v

/-- bibdiv_parser.py:70-122, the `while pos < len(entry_content)` loop, on the remaining text. -/
def bibdivLoop : Nat → Str → List (Str × Str) → Option (List (Str × Str))
  | 0, _, _ => none
  | fuel + 1, s, d =>
    if s.isEmpty then some d
    else match matchField (lstrip s) with
      | none => bibdivLoop fuel (s.drop 1) d
      | some e =>
        let name := lower ((lstrip s).takeWhile isWord)
        let r := (lstrip s).drop e
        if (lstrip r).head? = some '{' then
          match extractNestedContent (lstrip r) '{' '}' with
          | some (v, n) => bibdivLoop fuel (lstrip ((lstrip r).drop n)) (dictAnd d name (strip (unbrace v)))
          | none => bibdivLoop fuel (lstrip s) d   -- `pos` is not advanced
        else
          match findSub [','] r with
          | some k => bibdivLoop fuel (lstrip (r.drop (k + 1))) (dictAnd d name (unbrace (strip (r.take k))))
          | none => bibdivLoop fuel [] (dictAnd d name (unbrace (strip r)))

/-- bibdiv_parser.py:43-127 `BibDivParser.parse`. -/
def parseBibdivEntries : List (Str × Str × Str) → Option (List BibEntry)
  | [] => some []
  | (k, t, s) :: l =>
    match extractNestedContent s '{' '}' with
    | none => parseBibdivEntries l
    | some (content, _) =>
      if content.isEmpty then parseBibdivEntries l
      else match bibdivLoop (content.length + 1) content [] with
        | none => none
        | some fields => (parseBibdivEntries l).map (⟨t, k, fields⟩ :: ·)

/-- bibdiv_parser.py:43-127 `BibDivParser.parse`. -/
def parseBibdiv (content : Str) : Option (List BibEntry) := parseBibdivEntries (bibStarts 0 content)

end L2J
