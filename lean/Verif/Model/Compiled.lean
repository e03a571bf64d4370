import Verif.Model.BibItem
import Verif.Model.Nested
import Verif.Model.Args
/-
Model of latex2json/parser/bib/compiled_bibtex.py: bibliographies compiled by biblatex (`.bbl`) are turned into BibTeX.

Simplifications: `\w` is ASCII; `m.end(1)` is taken from the length of the first group, which is a fixed word in these patterns; what is
written to stderr is left out.
-/
namespace L2J.Bbl
open BibI (anyRe)

/-- compiled_bibtex.py:12. -/
def periodRe : Re := .seq (.lit "\\bibinitperiod".toList) Fmt.wordEnd

/-- compiled_bibtex.py:13 `\\bibrangedash\s*\b`: blanks up to a word, or no blanks and no letter behind the command. -/
def dashRe : Re := .seq (.lit "\\bibrangedash".toList) (.alt (.seq (.plus reSpace) (.look (.chr isWord))) Fmt.wordEnd)

/-- compiled_bibtex.py:17-24 `apply_pattern_replacements`. -/
def replaceMarks (s : Str) : Str := dashRe.sub (fun _ => "--".toList) (periodRe.sub (fun _ => ['.']) s)

def notBrace : Re := .chr (· != '}')

/-- compiled_bibtex.py:42. -/
def headerRe : Re := .seq (.lit "\\entry{".toList) (.seq (.group 1 (.plus notBrace)) (.seq (.lit "}{".toList) (.seq (.group 2 (.plus notBrace))
  (.seq (.lit "}{".toList) (.seq (.star notBrace) (.lit ['}']))))))

/-- compiled_bibtex.py:52. -/
def nameRe : Re := .lit "\\name{author}".toList

/-- compiled_bibtex.py:66. -/
def hashRe : Re := .seq (.lit "{hash=".toList) (.seq (.plus (.chr isWord)) (.lit "}{".toList))

/-- compiled_bibtex.py:73-74 `(family=)\{([^}]+)\}`, `(given=)\{([^}]+)\}`. -/
def partRe (w : Str) : Re := .seq (.group 1 (.lit w)) (.seq (.lit ['{']) (.seq (.group 2 (.plus notBrace)) (.lit ['}'])))

/-- compiled_bibtex.py:87. -/
def fieldRe : Re := .seq (.group 1 (.lit "\\field".toList)) (.seq (.lit ['{']) (.seq (.group 2 (.plus notBrace)) (.lit "}{".toList)))

/-- compiled_bibtex.py:103 `\\verb\{eprint\}\s*\\verb\s+(.+?)\s+\\endverb` (DOTALL). -/
def eprintRe : Re := .seq (.lit "\\verb{eprint}".toList) (.seq (.star reSpace) (.seq (.lit "\\verb".toList) (.seq (.plus reSpace)
  (.seq (.group 1 (.seq anyRe (.lazyStar anyRe))) (.seq (.plus reSpace) (.lit "\\endverb".toList))))))

/-- compiled_bibtex.py:73-81: the author of a block; `none`: an exception, `some none`: no author. -/
def person (block : Str) : Option (Option Str) :=
  match (partRe "family=".toList).search block, (partRe "given=".toList).search block with
  | some f, some g =>
    match extractNestedContent (g.rest.drop "given=".toList.length) '{' '}' with
    | none => none
    | some (given, _) =>
      let family := match extractNestedContent (f.rest.drop "family=".toList.length) '{' '}' with | some (x, _) => x | none => "None".toList
      some (some (family ++ ", ".toList ++ given.take 1 ++ ['.']))
  | _, _ => some none

/-- compiled_bibtex.py:66-81: the authors of the blocks that begin at the matches. -/
def people : List Match → Option (List Str)
  | [] => some []
  | m :: ms =>
    match extractNestedContent (m.rest.drop (m.len - 1)) '{' '}' with
    | some (b, _) =>
      if b.isEmpty then people ms
      else match person b with
        | none => none
        | some a => (people ms).map (a.toList ++ ·)
    | none => people ms

/-- compiled_bibtex.py:51-84: the authors; `none`: an exception. -/
def authors (s : Str) : Option (List Str) :=
  match nameRe.search s with
  | none => some []
  | some m =>
    match (seqBlocks (m.rest.drop m.len) '{' '}' (some 3)).1 with
    | _ :: _ :: b :: _ => people (hashRe.findIter 0 [] b)
    | _ => none

/-- The name under which a field is kept, compiled_bibtex.py:94-98. -/
def fieldName (k : Str) : Option Str :=
  if k = "labelnamesource".toList ∨ k = "labeltitlesource".toList then none
  else some (if k = "journaltitle".toList then "journal".toList else k)

/-- compiled_bibtex.py:87-99; `none`: an exception. -/
def fields (d : List (Str × Str)) : List Match → Option (List (Str × Str))
  | [] => some d
  | m :: ms =>
    match (seqBlocks (m.rest.drop "\\field".toList.length) '{' '}' (some 2)).1 with
    | k :: v :: _ =>
      match fieldName (strip k) with
      | none => fields d ms
      | some k' => fields (dictSet d k' (strip v)) ms
    | _ => none

/-- compiled_bibtex.py:27-109 `parse_compiled_bibtex_entry`; `none`: an exception. -/
def parseEntry (text : Str) : Option (List (Str × Str)) :=
  let s := replaceMarks text
  match headerRe.search s with
  | none => none
  | some h =>
    let d := [("key".toList, strip ((h.group 1).getD [])), ("type".toList, strip ((h.group 2).getD []))]
    match authors s with
    | none => none
    | some as =>
      let d := if as.isEmpty then d else dictSet d "author".toList (joinWith " and ".toList as)
      match fields d (fieldRe.findIter 0 [] s) with
      | none => none
      | some d =>
        match eprintRe.search s with
        | some m => some (dictSet d "eprint".toList (strip ((m.group 1).getD [])))
        | none => some d

/-- compiled_bibtex.py:123. -/
def fieldOrder : List Str := ["author", "title", "year", "eprint", "eprinttype", "eprintclass"].map String.toList

def line (f : Str × Str) : Str := "  ".toList ++ f.1 ++ " = {".toList ++ f.2 ++ "},".toList

/-- The fields in the order in which they are written, compiled_bibtex.py:124-132. -/
def ordered (d : List (Str × Str)) : List (Str × Str) :=
  fieldOrder.filterMap (fun f => (dictGet d f).map fun v => (f, v)) ++ d.filter (fun f => !(f.1 == "key".toList || f.1 == "type".toList || fieldOrder.contains f.1))

/-- compiled_bibtex.py:112-135 `convert_to_regular_bibtex`. -/
def regular (d : List (Str × Str)) : Str :=
  joinWith ['\n'] (("@".toList ++ (dictGet d "type".toList).getD "misc".toList ++ ['{'] ++ (dictGet d "key".toList).getD "unknown".toList ++ [',']) ::
    ((ordered d).map line ++ [['}']]))

/-- compiled_bibtex.py:143. -/
def entryRe : Re := .seq (.lit "\\entry{".toList) (.seq (.lazyStar anyRe) (.lit "\\endentry".toList))

/-- compiled_bibtex.py:137-152 `process_compiled_bibtex_to_bibtex`: entries that raise are left out. -/
def convert (s : Str) : List Str := (entryRe.findIter 0 [] s).filterMap fun m => (parseEntry m.text).map regular

end L2J.Bbl
