import Verif.Model.Regex
namespace L2J.Spec

/-- Reading units of a macro definition. -/
inductive Tok where
  | lit (c : Char)
  /-- `\#` -/
  | escHash
  /-- `k` hashes followed by a maximal digit string -/
  | param (k : Nat) (digits : Str)
deriving Repr, DecidableEq

def Tok.render : Tok → Str
  | .lit c => [c]
  | .escHash => ['\\', '#']
  | .param k ds => List.replicate k '#' ++ ds

/-- A parameter token starts at the head of `t`: hashes and then a digit. -/
def ParamHere (t : Str) : Prop :=
  ∃ k d rest, 0 < k ∧ isDigit d = true ∧ t = List.replicate k '#' ++ d :: rest

/-- Left-to-right reading of a definition: `\#` is one unit, the longest run of hashes followed by
the longest run of digits is one parameter token, any other character stands for itself. -/
inductive Reads : Str → List Tok → Prop
  | nil : Reads [] []
  | esc (rest ts) : Reads rest ts → Reads ('\\' :: '#' :: rest) (.escHash :: ts)
  | param (k ds rest ts) : 0 < k → ds ≠ [] → (∀ d ∈ ds, isDigit d = true) →
      (∀ x, rest.head? = some x → isDigit x = false) → Reads rest ts →
      Reads (List.replicate k '#' ++ ds ++ rest) (.param k ds :: ts)
  | lit (c rest ts) : ¬ (c = '\\' ∧ rest.head? = some '#') → ¬ ParamHere (c :: rest) →
      Reads rest ts → Reads (c :: rest) (.lit c :: ts)

/-- `k` is the smallest number of hashes of any parameter token. -/
def MinHashes (ts : List Tok) (k : Nat) : Prop :=
  (∃ ds, Tok.param k ds ∈ ts) ∧ ∀ k' ds, Tok.param k' ds ∈ ts → k ≤ k'

/-- What a token becomes: parameters of level `k` with index `1 .. #args` are replaced. -/
def substTok (args : List (Option Str)) (k : Nat) : Tok → Str
  | .param k' ds =>
    if k' = k ∧ 1 ≤ digitsVal ds ∧ digitsVal ds ≤ args.length then
      match args[digitsVal ds - 1]? with
      | some (some a) => a
      | _ => []
    else (Tok.param k' ds).render
  | t => t.render

end L2J.Spec

namespace L2J.Spec

/-- Some character is given and it is alphabetic. -/
def alphaOpt (alpha : Char → Bool) : Option Char → Bool
  | none => false
  | some x => alpha x

/-- Meaning in math mode, left to right; `prev` is the character of the *definition* before the
current token. A replaced, non-empty argument is wrapped in braces when the neighbouring character of
the definition on either side is alphabetic. -/
def substMath (alpha : Char → Bool) (args : List (Option Str)) (k : Nat) :
    Option Char → List Tok → Str
  | _, [] => []
  | prev, .param k' ds :: ts =>
    let next := (ts.flatMap Tok.render).head?
    let out := substTok args k (.param k' ds)
    (if k' = k ∧ 1 ≤ digitsVal ds ∧ digitsVal ds ≤ args.length ∧ out ≠ [] ∧
        (alphaOpt alpha prev = true ∨ alphaOpt alpha next = true)
      then '{' :: out ++ ['}'] else out)
      ++ substMath alpha args k (Tok.param k' ds).render.getLast? ts
  | _, t :: ts => t.render ++ substMath alpha args k t.render.getLast? ts

end L2J.Spec
