import Verif.Model.Whitespace
import Verif.Model.Tabular
import Verif.Model.Token
/-! Model of the protection of verbatim and math blocks, latex2json/parser/tex_preprocessor.py. -/
namespace L2J

/-- `restore_placeholder_blocks`, tex_preprocessor.py:58-64: a dict iterates in insertion order. -/
def restoreBlocks (content : Str) (blocks : List (Str × Str)) : Str :=
  blocks.foldl (fun c b => replace c b.1 b.2) content

/-- The placeholder of tex_preprocessor.py:353 (prefix at :334). -/
def verbPlaceholder (n : Nat) : Str := "__VERBATIM_BLOCK__".toList ++ natStr n ++ "__".toList

/-- The placeholder of tex_preprocessor.py:224. -/
def mathPlaceholder (n : Nat) : Str := "__MATH_BLOCK_".toList ++ natStr n ++ "__".toList

/-- `pattern.search(content, pos)` for a compiled pattern, as a function of the text from `pos` on, giving start and
end offsets of the match. None of the patterns looks behind, so the text before `pos` is irrelevant. -/
abbrev Searcher := Str → Option (Nat × Nat)

/-- `earliest_start`, tex_preprocessor.py:342, :347. -/
def earliestStart (s : Str) : Option (Nat × Nat) → Nat
  | none => s.length
  | some b => b.1

/-- The body of the loop of tex_preprocessor.py:344-347. -/
def earliestStep (s : Str) (best : Option (Nat × Nat)) (p : Searcher) : Option (Nat × Nat) :=
  match p s with
  | none => best
  | some m => if m.1 < earliestStart s best then some m else best

/-- The loop of tex_preprocessor.py:341-347: the earliest match, the first pattern winning a tie. -/
def earliestMatch (pats : List Searcher) (s : Str) : Option (Nat × Nat) := pats.foldl (earliestStep s) none

/-- `_extract_verbatim_blocks`, tex_preprocessor.py:326-362. `s` is `content[pos:]`, `n` is `placeholder_index`. The
fuel bounds the number of iterations; the length of the text suffices because matches are not empty. -/
def extractVerb (pats : List Searcher) : Nat → Nat → Str → Str × List (Str × Str)
  | 0, _, s => (s, [])
  | fuel + 1, n, s =>
    if s.isEmpty then ([], [])
    else
      match earliestMatch pats s with
      | none => (s, [])
      | some (a, e) =>
        let r := extractVerb pats fuel (n + 1) (s.drop e)
        (s.take a ++ verbPlaceholder n ++ r.1, (verbPlaceholder n, slice s a e) :: r.2)

/-- `_extract_verbatim_blocks(content)`. -/
def extractVerbatimBlocks (pats : List Searcher) (content : Str) : Str × List (Str × Str) :=
  extractVerb pats (content.length + 1) 0 content

/-- Step 4 of `preprocess`, tex_preprocessor.py:105-107. -/
def normalizeKeepingVerbatim (pats : List Searcher) (content : Str) : Str :=
  let r := extractVerbatimBlocks pats content
  restoreBlocks (normalizeWs r.1) r.2

/-- `re.search` as a searcher. -/
def Re.searcher (r : Re) : Searcher := fun s => (r.search s).map fun m => (m.start, m.stop)

/-- `\\begin\s*\{name\}(.*?)\\end\s*\{name\}` with DOTALL, code_block.py:7-9, tex_preprocessor.py:34-43 (the
alternatives of :41 with back-reference `\1` are one such pattern per name). -/
def envPairRe (name : String) : Re :=
  .seq (Re.lit "\\begin".toList) (.seq (.star (.chr isSpace)) (.seq (Re.lit ('{' :: name.toList ++ ['}']))
    (.seq (.lazyStar (.chr fun _ => true)) (.seq (Re.lit "\\end".toList) (.seq (.star (.chr isSpace))
      (Re.lit ('{' :: name.toList ++ ['}'])))))))

/-- The lstlisting pattern, code_block.py:10-13. -/
def lstlistingRe : Re :=
  .seq (Re.lit "\\begin".toList) (.seq (.star (.chr isSpace)) (.seq (Re.lit "{lstlisting}".toList)
    (.seq (Re.opt (.seq (.chr (· == '[')) (.seq (.star (.chr (· != ']'))) (.chr (· == ']')))))
      (.seq (.lazyStar (.chr fun _ => true)) (.seq (Re.lit "\\end".toList) (.seq (.star (.chr isSpace))
        (Re.lit "{lstlisting}".toList)))))))

/-- `(.*?)\1` after the delimiter `d`: number of characters up to and including the closing delimiter, the dot not
matching a newline. -/
def verbTail (d : Char) : Str → Option Nat
  | [] => none
  | c :: cs => if c = d then some 1 else if c = '\n' then none else (verbTail d cs).map (· + 1)

/-- `([^a-zA-Z])(.*?)\1`, code_block.py:14-16. -/
def verbBody : Str → Option Nat
  | [] => none
  | d :: cs => if ('a' ≤ d && d ≤ 'z') || ('A' ≤ d && d ≤ 'Z') then none else (verbTail d cs).map (· + 1)

/-- `\\verb\*?([^a-zA-Z])(.*?)\1` at a position, code_block.py:14-16: the star is taken if the rest then matches. -/
def matchVerb (s : Str) : Option Nat :=
  if startsWith s "\\verb".toList then
    let r := s.drop 5
    ((match r with
      | '*' :: r' => (verbBody r').map (· + 1)
      | _ => none).or (verbBody r)).map (· + 5)
  else none

/-- ALL_VERBATIM_PATTERNS, tex_preprocessor.py:33-43. -/
def allVerbatimPatterns : List Searcher :=
  [(envPairRe "verbatim").searcher, lstlistingRe.searcher, searchWith matchVerb, (envPairRe "algorithm").searcher,
    (envPairRe "algorithmic").searcher,
    (Re.alt (envPairRe "picture") (Re.alt (envPairRe "tikzpicture") (envPairRe "pgfpicture"))).searcher]

end L2J
