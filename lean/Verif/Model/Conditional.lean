import Verif.Model.Formatting
import Verif.Model.IfElse
/-! Model of the conditional commands: latex2json/parser/handlers/if_else_statements.py, `IfElseBlockHandler`. The loop that finds the
branches is in IfElse. `\d` and `\w` are ASCII only. -/
namespace L2J.Cond
open Defn Cmds Fmt

/-- `tex_token_pattern`, :19-27, read with VERBOSE: white space and comments do not count. -/
def texToken : Re := .alt (.seq (.opt (.lit ['\\'])) (.plus (.chr isNameChar))) (.alt braces0 (.chr fun c => c != '\\' && c != '{' && c != '}'))

/-- `ifx_pattern`, :30-35. Its groups are not used. -/
def ifxRe : Re := .seq (.lit "\\ifx".toList) (ws (.seq texToken (ws texToken)))

/-- `tex_token_pattern` without VERBOSE, as `_recompile_all_ifs` (:211-220) joins the pattern texts and drops the flags: white space and
comments are literal. -/
def texTokenLiteral : Re :=
  .seq (.lit "\n    ".toList) (.seq
    (.alt (.seq (.lit "\n        ".toList) (.seq (.opt (.lit ['\\'])) (.seq (.plus (.chr isNameChar)) (.lit "     # Command or words token\n        ".toList))))
    (.alt (.seq (.lit "\n        ".toList) (.seq braces0 (.lit "        # Group token\n        ".toList)))
      (.seq (.lit "\n        ".toList) (.seq (.chr fun c => c != '\\' && c != '{' && c != '}') (.lit "          # Single character token\n    ".toList)))))
    (.lit ['\n']))

/-- `ifx_pattern` without VERBOSE. -/
def ifxLiteral : Re := .seq (.lit "\\ifx".toList) (ws (.seq texTokenLiteral (ws texTokenLiteral)))

/-- `counter_or_num`, :47-50. -/
def counterOrNum : Re :=
  .alt (.seq (.lit "\\value".toList) (ws (.seq (.lit ['{']) (ws (.seq (.plus (.chr isNameChar)) (ws (.lit ['}'])))))))
    (.alt (.seq (.lit ['\\']) (.seq (.plus (.chr isNameChar)) (.plus (.chr isDigit)))) (.alt cmdOrBrace (.plus (.chr isDigit))))

/-- `[=<>]`. -/
def relation : Re := .chr fun c => c == '=' || c == '<' || c == '>'

/-- `ifnum_pattern`, :53. -/
def ifnumRe : Re := .seq (.lit "\\ifnum".toList) (ws (.seq counterOrNum (ws (.seq relation (ws counterOrNum)))))

/-- `[-+]?`. -/
def sign : Re := .opt (.chr fun c => c == '-' || c == '+')

/-- `command_or_dim`, patterns.py:20. -/
def commandOrDim : Re :=
  .alt (.seq sign (ws cmdOrBrace)) (.alt pointsRe (.alt (.seq numRe (ws (.seq sign (ws cmdOrBrace)))) numRe))

/-- `ifdim_pattern`, :55. -/
def ifdimRe : Re := .seq (.lit "\\ifdim".toList) (ws (.seq commandOrDim (ws (.seq relation (ws commandOrDim)))))

/-- `ifcat_pattern`, :58. -/
def ifcatRe : Re := .seq (.lit "\\ifcat".toList) (ws (.seq charOrCommandRe (ws charOrCommandRe)))

/-- `IF_PATTERNS_DEFAULT_LIST`, :63-82: name, pattern, and the pattern as it is in the joined one. -/
def defaults : List (Str × Re × Re) :=
  let same := fun (n : String) (r : Re) => (n.toList, r, r)
  [same "ifthenelse" (.seq (.lit "\\ifthenelse".toList) wsOpen),
    ("ifx".toList, ifxRe, ifxLiteral),
    same "ifdefined" (.seq (.lit "\\if".toList) (.seq (.opt (.lit "un".toList)) (.seq (.lit "defined".toList) (ws cmdOrBrace)))),
    same "ifnum" ifnumRe, same "ifdim" ifdimRe, same "ifcat" ifcatRe,
    same "ifcase" (.seq (.lit "\\ifcase".toList) (defaultIfRe 1)),
    same "iffileexists" (.seq (.lit "\\IfFileExists".toList) wsOpen),
    same "@ifclassloaded" (.seq (.lit "\\@ifclassloaded".toList) wsOpen),
    same "@ifpackageloaded" (.seq (.lit "\\@ifpackageloaded".toList) wsOpen),
    same "@ifundefined" (.seq (.lit "\\@ifundefined".toList) wsOpen),
    same "@ifstar" (.seq (.lit "\\@ifstar".toList) wsOpen),
    same "if" ifRe]

/-- The pattern of `process_newif`, :203. The name is put into the pattern as it is; characters with a meaning in patterns are taken
literally here. -/
def newifRe (n : Str) : Re := .seq (.lit ("\\if".toList ++ n)) (.opt (.alt (.lit "true".toList) (.lit "false".toList)))

/-- `all_ifs`, :202-206: the names declared with `\newif`, the latest first, and then the default ones. -/
def allIfs (ns : List Str) : List (Str × Re × Re) := ns.map (fun n => (n, newifRe n, newifRe n)) ++ defaults

/-- Alternation. -/
def altRe : List Re → Re
  | [] => .fail
  | r :: l => .alt r (altRe l)

/-- `all_ifs_compiled`, :211-220. -/
def compiled (ns : List Str) : Re := altRe ((allIfs ns).map (·.2.2))

/-- The delimiters `handle` uses, :313-316. -/
def delims (ns : List Str) : CondDelims := ⟨(compiled ns).hit, fiRe.hit, elseRe.hit, elsifRe.hit⟩

/-- What `handle` returns: `(None, 0)`, a token with its type, or an exception. -/
inductive Res where
  | notHandled
  | token (type condition ifContent elseContent : Str) (pos : Nat)
  | raised
deriving DecidableEq

/-- `condition`, :289-309, and where the text begins. -/
def condition (name : Str) (content : Str) (m : Match) : Str × Nat :=
  let out := m.text
  let cond := out.filter (· != ' ')
  match findSub "\\csname".toList out with
  | some i =>
    match concatCsname (content.drop i) with
    | some (inner, e) => if inner.isEmpty then (cond, 0) else (strip inner, i + e)
    | none => (cond, 0)
  | none =>
    if cond = "\\if".toList ++ name ∨ cond = "\\@if".toList ++ name then (name, m.stop)
    else
      let cond := replace cond ('\\' :: name) []
      (if name = "ifdefined".toList then replace cond "\\ifundefined".toList [] else cond, m.stop)

/-- `handle` for a match, :281-332. -/
def runIf (ns : List Str) (name : Str) (content : Str) (m : Match) : Res :=
  let p := m.stop - 1
  let blocks := fun n => seqBlocks (content.drop p) '{' '}' (some n)
  if name = "ifthenelse".toList then
    -- :164-183
    match blocks 3 with
    | ([c, a, b], e) => .token "conditional-ifthenelse".toList c a b (p + e)
    | _ => .raised
  else if name = "@ifclassloaded".toList ∨ name = "@ifpackageloaded".toList ∨ name = "@ifundefined".toList then
    -- :225-241
    match blocks 3 with
    | ([], _) => .notHandled
    | (c :: l, e) => .token ("conditional-".toList ++ name) c (l[0]?.getD []) (l[1]?.getD []) (p + e)
  else if name = "@ifstar".toList then
    -- :243-259
    match blocks 2 with
    | ([], _) => .notHandled
    | (a :: l, e) => .token "conditional-ifstar".toList "@ifstar".toList a (l[0]?.getD []) (p + e)
  else
    let c := condition name content m
    match handleCond (delims ns) content c.2 c.1 with
    | .notHandled => .notHandled
    | .raised => .raised
    | .token cond a b _ e => .token ("conditional-".toList ++ name) cond a b e

/-- The first pattern that matches. -/
def firstIf (s : Str) : List (Str × Re × Re) → Option (Str × Match)
  | [] => none
  | x :: l =>
    match x.2.1.matchAt [] s with
    | some m => some (x.1, m)
    | none => firstIf s l

/-- `can_handle`, :222-223. -/
def canHandle (ns : List Str) (s : Str) : Bool := (firstIf s (allIfs ns)).isSome

/-- `handle`, :278-334, after the names `ns` were declared. -/
def handle (ns : List Str) (s : Str) : Res :=
  match firstIf s (allIfs ns) with
  | none => .notHandled
  | some (name, m) => runIf ns name s m

end L2J.Cond
