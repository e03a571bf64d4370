import Verif.Model.Regex
/- Model of macro-parameter substitution, latex2json/utils/tex_utils.py:474-534. -/
namespace L2J

/-- tex_utils.py:474 `NO_ESC_HASH_NUMBER_PATTERN = (?<!\\)(#+)(\d+)`. -/
def noEscHashNumber : Re :=
  .seq (.nbehind (· == '\\')) (.seq (.group 1 (.plus (.chr (· == '#')))) (.group 2 (.plus (.chr isDigit))))

/-- tex_utils.py:476 `HASH_NUMBER_PATTERN = (\\#)|(#+)(\d+)`. -/
def hashNumber : Re :=
  .alt (.group 1 (.lit ['\\', '#']))
    (.seq (.group 2 (.plus (.chr (· == '#')))) (.group 3 (.plus (.chr isDigit))))

/-- tex_utils.py:479-480 `check_string_has_hash_number`. -/
def checkStringHasHashNumber (text : Str) : Bool := (noEscHashNumber.search text).isSome

/-- Python list indexing `args[i]` for `i = n - 1` where `n ≥ 0` and `i < len(args)`:
`n = 0` gives index `-1`, i.e. the last element. -/
def pyArg (args : List (Option Str)) (n : Nat) : Option (Option Str) :=
  if n = 0 then args.getLast? else args[n - 1]?

/-- tex_utils.py:503-532, the replacement function `sub_fn`. `alpha` models `str.isalpha` on one
character. -/
def substFn (alpha : Char → Bool) (args : List (Option Str)) (mathMode : Bool) (minHashes : Nat) (m : Match) : Str :=
  match m.group 1 with
  | some _ => m.text
  | none =>
    let hashes := (m.group 2).getD []
    let number := (m.group 3).getD []
    if hashes.length = minHashes then
      let n := digitsVal number
      -- `arg_index >= len(args)` with `arg_index = n - 1`
      if n ≥ args.length + 1 then m.text
      else
        let replacement := ((pyArg args n).getD none).getD []
        if mathMode && !replacement.isEmpty then
          let before := (m.rev.head?.map alpha).getD false
          let after := ((m.rest.drop m.len).head?.map alpha).getD false
          if before || after then '{' :: replacement ++ ['}'] else replacement
        else replacement
    else m.text

/-- tex_utils.py:483-534 `substitute_args(definition, args, math_mode)`. -/
def substituteArgs (alpha : Char → Bool) (definition : Str) (args : List (Option Str)) (mathMode : Bool) : Str :=
  if args.isEmpty then definition
  else
    let matches_ := noEscHashNumber.findIter 0 [] definition
    match (matches_.map fun m => ((m.group 1).getD []).length).min? with
    | none => definition
    | some minHashes =>
      if minHashes < 1 then definition
      else hashNumber.sub (substFn alpha args mathMode minHashes) definition

end L2J
