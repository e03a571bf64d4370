import Verif.Model.Regex
/- Model of extract_nested_content_pattern, find_matching_env_block and substitute_patterns,
latex2json/utils/tex_utils.py. -/
namespace L2J

/-- `pattern.search(text, pos)` as (start, end). -/
def Re.searchPos (r : Re) (text : Str) (pos : Nat) : Option (Nat × Nat) :=
  (r.searchFrom (text.take pos).reverse (text.drop pos)).map fun m => (m.start, m.stop)

/-- tex_utils.py:140-157: the `while nesting_level > 0 and current_pos < len(text)` loop of
`extract_nested_content_pattern`; returns `(end_match.start(), end_match.end())`. The fuel bounds the
number of iterations; `C09_pattern_iff` shows `len(text) + 1` is enough for patterns that never match
the empty string. -/
def nestLoop (b e : Re) (text : Str) : Nat → Nat → Nat → Option (Nat × Nat)
  | 0, _, _ => none
  | fuel + 1, pos, level =>
    if pos < text.length then
      match e.searchPos text pos with
      | none => none
      | some (es, ee) =>
        match b.searchPos text pos with
        | some (bs, be) =>
          if es < bs then
            if level - 1 = 0 then some (es, ee) else nestLoop b e text fuel ee (level - 1)
          else nestLoop b e text fuel be (level + 1)
        | none => if level - 1 = 0 then some (es, ee) else nestLoop b e text fuel ee (level - 1)
    else none

/-- tex_utils.py:114-159 `extract_nested_content_pattern`: `(start_pos, end_pos, content)`;
`none` stands for `(-1, -1, "")`. -/
def extractNestedPattern (text : Str) (b e : Re) : Option (Nat × Nat × Str) :=
  match b.searchPos text 0 with
  | none => none
  | some (bs, be) =>
    match nestLoop b e text (text.length + 1) be 1 with
    | none => none
    | some (es, ee) => some (bs, ee, slice text be es)

/-- `\s` of Python's `re` on `str`: the `str.isspace` characters. -/
def reSpace : Re := .chr isSpace

/-- tex_utils.py:171-172: `\\begin\s*\{NAME}`, with `re.escape(env_name)` a literal. -/
def beginRe (name : Str) : Re :=
  .seq (.lit "\\begin".toList) (.seq (.star reSpace) (.seq (.lit ['{']) (.seq (.lit name) (.lit ['}']))))

/-- tex_utils.py:173: `\\end\s*\{NAME}`. -/
def endRe (name : Str) : Re :=
  .seq (.lit "\\end".toList) (.seq (.star reSpace) (.seq (.lit ['{']) (.seq (.lit name) (.lit ['}']))))

/-- tex_utils.py:162-184 `find_matching_env_block(text, env_name, start_pos)`. -/
def findMatchingEnvBlock (text name : Str) (startPos : Nat) : Option (Nat × Nat × Str) :=
  match extractNestedPattern (text.drop startPos) (beginRe name) (endRe name) with
  | none => none
  | some (s, e, content) => some (s + startPos, e + startPos, strip content)

/-- tex_utils.py:239-252: the `while match` loop of `substitute_patterns` for one pattern, with
the code's index arithmetic. `M` is the match type, `search` is `pattern.search`, `start` is
`match.start()` (relative to the searched slice), `f` is `substitute_fn(text[current_pos:], match, key)`.
`none` = the loop did not finish within the fuel. -/
def substLoop {M : Type} (search : Str → Option M) (start : M → Nat) (f : Str → M → Str × Nat) :
    Nat → Str → Nat → Option Str
  | 0, _, _ => none
  | fuel + 1, text, cur =>
    match search (text.drop cur) with
    | none => some text
    | some m =>
      let startPos := cur + start m
      let (converted, endPos) := f (text.drop cur) m
      let cur1 := cur + endPos
      -- current_pos += diff, diff = len(converted) - (current_pos - start_pos)
      let text' := text.take startPos ++ converted ++ text.drop cur1
      let cur2 := ((cur1 : Int) + ((converted.length : Int) - ((cur1 : Int) - (startPos : Int)))).toNat
      substLoop search start f fuel text' cur2

/-- tex_utils.py:228-252 `substitute_patterns`: the patterns are processed one after the other, each on
the result of the previous one. A pattern is its search function and its handler. -/
def substPatterns {M : Type} (start : M → Nat) (fuel : Str → Nat) :
    List ((Str → Option M) × (Str → M → Str × Nat)) → Str → Option Str
  | [], text => some text
  | (search, f) :: ps, text =>
    match substLoop search start f (fuel text) text 0 with
    | none => none
    | some text' => substPatterns start fuel ps text'

end L2J
