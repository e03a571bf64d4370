import Verif.Model.Delim
/-
Model of the argument-extraction helpers in latex2json/utils/tex_utils.py.
-/
namespace L2J

/-- tex_utils.py:95-111, loop of `extract_nested_content_sequence_blocks`. The first argument is the
number of iterations still allowed (`max_blocks - i`); `total` = `total_pos`,
`last` = `last_valid_pos`. `next_pos == 0` holds exactly when the extraction failed. -/
def seqBlocksLoop (o c : Char) : Nat → Str → Nat → Nat → List Str × Nat
  | 0, _, _, last => ([], last)
  | n + 1, text, total, last =>
    let total' := total + (text.takeWhile isSpace).length
    let text' := text.dropWhile isSpace
    match extractNestedContent text' o c with
    | none => ([], last)
    | some (content, e) =>
      let r := seqBlocksLoop o c n (text'.drop e) (total' + e) (total' + e)
      (content :: r.1, r.2)

/-- tex_utils.py:81-111 `extract_nested_content_sequence_blocks`; `limit = none` is
`float("inf")`, run with `len(text)` iterations, which theorem `C02_unlimited` shows is
the same as any larger number of iterations. -/
def seqBlocks (text : Str) (o c : Char) (limit : Option Nat) : List Str × Nat :=
  seqBlocksLoop o c (limit.getD text.length) text 0 0

/-- Result of `extract_args`. -/
structure ArgsResult where
  req : List Str
  opt : List Str
  endPos : Nat
deriving Repr, DecidableEq

/-- tex_utils.py:450-471 `extract_args(content, req_args, opt_args)`, including the
re-assignment of `end_pos` by the second extraction. -/
def extractArgs (content : Str) (reqArgs optArgs : Nat) : ArgsResult :=
  let (opt, end1) := if optArgs > 0 then seqBlocks content '[' ']' (some optArgs) else ([], 0)
  let content1 := if end1 > 0 then content.drop end1 else content
  if reqArgs > 0 then
    let (req, end2) := seqBlocks content1 '{' '}' (some reqArgs)
    ⟨req, opt, end2⟩
  else ⟨[], opt, end1⟩

/-- tex_utils.py:560-598, loop of `extract_delimited_args` over the delimiter pattern;
`pos` = `current_pos`, `total` = `total_end_pos`. -/
def delimArgsLoop (content : Str) : Str → Nat → Nat → List (Option Str) × Nat
  | [], _, total => ([], total)
  | d :: ds, pos, total =>
    let pos' := pos + ((content.drop pos).takeWhile isSpace).length
    match content.drop pos' with
    | [] => ([], total)
    | x :: _ =>
      if x != '{' && x != '[' then ([], total)
      else if d == '{' then
        match extractNestedContent (content.drop pos') '{' '}' with
        | none => ([], pos')
        | some (s, e) =>
          let r := delimArgsLoop content ds (pos' + e) (pos' + e)
          (some s :: r.1, r.2)
      else if d == '[' then
        match extractNestedContent (content.drop pos') '[' ']' with
        | some (s, e) =>
          let r := delimArgsLoop content ds (pos' + e) (pos' + e)
          (some s :: r.1, r.2)
        | none =>
          let r := delimArgsLoop content ds pos' total
          (none :: r.1, r.2)
      else delimArgsLoop content ds pos' total

/-- tex_utils.py:537-598 `extract_delimited_args`. -/
def extractDelimitedArgs (content pattern : Str) : List (Option Str) × Nat :=
  delimArgsLoop content pattern 0 0

end L2J
