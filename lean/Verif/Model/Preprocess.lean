import Verif.Model.Preproc
import Verif.Model.ParseLoop
import Verif.Model.Comments
import Verif.Model.Commands
import Verif.Model.Definitions
import Verif.Model.KeyVal
import Verif.Model.Equation
import Verif.Model.Formatting
import Verif.Model.Conditional
/-! Model of the main loop of the preprocessor, latex2json/parser/tex_preprocessor.py:84-330, over the models of its handlers.

Everything the loop does at a position looks only at the text from that position on (`content[current_pos:]`), so a state of the loop is
that text, and what is left behind is put out. -/
namespace L2J.Pre
open Cmds Defn

/-- What the model leaves open: the character classes and the conversion of user-defined commands, `format_number`, the order of the equation
patterns (a set in Python), the formatting and the boxes inside formulas, and the definitions found in the files of the packages or of the class, given
by the text in the braces (none if there is no such file). -/
structure Cfg (V : Type) where
  cmds : Cmds.Cfg
  fmt : Str → Option Str → Str
  order : List Str
  eqFmt : Str → Str × Nat
  env : Boxes.Env V
  packages : Str → List Tok
  classes : Str → List Tok

/-- The state of the handlers (:69-77), `math_blocks` (:193) and `tokens` (:191). `ifs`: the names declared with `\newif`, the latest first. -/
structure St (V : Type) where
  proc : Proc
  keys : KeyVal.Defs
  ifs : List Str
  eqn : Eqn.State V
  blocks : List (Str × Str)
  toks : List Tok

/-- DELIM_PATTERN_WITH_QUOTES, :46. -/
def delimQ : Re := .alt Loop.delimPat (.lit ['`'])

/-- ADD_TO_PATTERN, :31. -/
def addtoRe : Re :=
  .seq (.lit "\\addto".toList) (.seq spaces (.seq (.seq (.opt (.lit ['{'])) (.seq (.lit ['\\'])
    (.seq (.plus (.chr fun c => c != '}' && !isSpace c)) (.opt (.lit ['}']))))) (.seq spaces (.lit ['{']))))

/-- QUOTE_PATTERNS, :48-55. -/
def doubleRe : Re := .seq (.lit ['`', '`']) (.seq (.group 1 (.lazyStar (.chr fun _ => true))) (.lit ['\'', '\'']))
def singleRe : Re := .seq (.lit ['`']) (.seq (.group 1 (.lazyStar (.chr fun _ => true))) (.lit ['\'']))

/-- `\s*(?:\[[^\]]*\])?\s*\{([^}]+)\}`, patterns.py:28-36. -/
def packTail : Re := .seq spaces (.seq Fmt.optArg (.seq spaces (braceContent 1)))

/-- USEPACKAGE_PATTERN and DOCUMENTCLASS_PATTERN, patterns.py:28-36. -/
def usepackageRe : Re := .seq (.alt (.lit "\\usepackage".toList) (.lit "\\RequirePackage".toList)) packTail
def documentclassRe : Re := .seq (.lit "\\documentclass".toList) packTail

/-- NO_ESC_HASH_NUMBER_PATTERN, tex_utils.py:474, and `check_string_has_hash_number`, :479-480. -/
def hashRe : Re := .seq (.nbehind (· == '\\')) (.seq (.plus (.chr (· == '#'))) (.plus (.chr isDigit)))
def hasHash (s : Str) : Bool := (hashRe.search s).isSome

/-- `token.get("num_args", 0)` and `token.get("content", "")`; new_definition.py sets them for these types only. -/
def numArgs (c : Cmds.Cfg) : Tok → Nat
  | .cmd (.newcommand _ _ n _ _) => n
  | .cmd (.alphabet _) => 1
  | .cmd (.def_ name params _ _ _) => (defBody c 1 (name ++ params)).2
  | _ => 0
def tokContent : Tok → Str
  | .cmd (.newcommand _ c _ _ _) => c
  | .cmd (.alphabet _) => "#1".toList
  | .cmd (.futurelet _ c) => c
  | .cmd (.let_ _ c _) => c
  | .cmd (.def_ _ _ c _ _) => c
  | _ => []

/-- :261-263. -/
def takesArgs (c : Cmds.Cfg) (t : Tok) : Bool := decide (0 < numArgs c t) || hasHash (tokContent t)

/-- `_process_new_definition_token`, :111-131, with `sty` for a token of a package. `none`: does not end; `error`: raises. -/
def addDef {V} (cfg : Cfg V) (st : St V) (t : Tok) (sty : Bool) : Option (Except Unit (St V)) :=
  match t.registers with
  | none => some (.ok st)
  | some d =>
    if d.name.isEmpty || whitelisted.contains d.name then some (.ok st)
    else
      let ifs := match d with | .newif n => n :: st.ifs | _ => st.ifs
      match register cfg.cmds st.proc d sty with
      | none => none
      | some (.error e) => some (.error e)
      | some (.ok p) => some (.ok { st with proc := p, ifs := ifs })

/-- The loop of :178-179. -/
def addAll {V} (cfg : Cfg V) : St V → List Tok → Option (Except Unit (St V))
  | st, [] => some (.ok st)
  | st, t :: ts =>
    match addDef cfg st t true with
    | none => none
    | some (.error e) => some (.error e)
    | some (.ok st) => addAll cfg st ts

/-- One iteration: what is put out and what is left, an exception, or no end. -/
inductive Step (V : Type) where
  | next (st : St V) (out rest : Str)
  | raised
  | running

/-- :306-321: conditionals, and else the next character is passed over. -/
def actIf {V} (st : St V) (s : Str) : Step V :=
  match Cond.handle st.ifs s with
  | .raised => .raised
  | .token type _ ifContent _ pos =>
    if 0 < pos then .next st [] ((if type.contains '@' then [] else ifContent) ++ s.drop pos) else .next st (s.take 1) (s.drop 1)
  | .notHandled => .next st (s.take 1) (s.drop 1)

/-- `command_manager.handle`, command_manager.py:136-153: the state, the text and the end. -/
def manager {V} (cfg : Cfg V) (st : St V) (s : Str) : St V × Str × Nat :=
  let k := KeyVal.handle cfg.cmds.alpha st.keys s
  if 0 < k.2.2 then ({ st with keys := k.1 }, KeyVal.expansion k.2.1, k.2.2) else (st, st.proc.handle cfg.cmds s)

/-- :293-304: user-defined commands. (`can_handle` is true whenever the end is positive.) -/
def actCommand {V} (cfg : Cfg V) (st : St V) (s : Str) : Step V :=
  let r := manager cfg st s
  if 0 < r.2.2 then .next r.1 [] (r.2.1 ++ s.drop r.2.2) else actIf r.1 s

/-- :281-291: layout commands. A formula without content (`\ensuremath` not closed) is Python's `None`, which cannot be joined to a text. -/
def actFormat {V} (cfg : Cfg V) (st : St V) (s : Str) : Step V :=
  match Fmt.handle cfg.fmt s with
  | .error _ => .raised
  | .ok r =>
    if 0 < r.stop then
      match r.out with
      | .nothing => .next st [] (s.drop r.stop)
      | .text t => .next st [] (t ++ s.drop r.stop)
      | .equation (some t) => .next st [] (t ++ s.drop r.stop)
      | .equation none => .raised
    else actCommand cfg st s

/-- :272-279: packages. -/
def actPackage {V} (cfg : Cfg V) (st : St V) (s : Str) : Step V :=
  match usepackageRe.matchAt [] s with
  | none => actFormat cfg st s
  | some m =>
    let ts := cfg.packages (strip ((m.group 1).getD []))
    match addAll cfg st ts with
    | none => .running
    | some (.error _) => .raised
    | some (.ok st) => .next { st with toks := st.toks ++ ts } [] (s.drop m.stop)

/-- :251-270: definitions; `process_definition` is command_manager.py:42-61. The end of a token is positive (`C61_bounds`), so that
`toNat` loses nothing. -/
def actDefine {V} (cfg : Cfg V) (st : St V) (s : Str) : Step V :=
  if Defn.canHandle s then
    match Defn.handle s with
    | .error _ => .raised
    | .ok (none, _) => actPackage cfg st s
    | .ok (some t, e) =>
      if takesArgs cfg.cmds t then .next st (s.take e.toNat) (s.drop e.toNat)
      else
        match addDef cfg st t false with
        | none => .running
        | some (.error _) => .raised
        | some (.ok st) =>
          let st := { st with toks := st.toks ++ [t] }
          if 0 < e then .next st [] (s.drop e.toNat) else actPackage cfg st s
  else
    let k := KeyVal.handle cfg.cmds.alpha st.keys s
    let st := { st with keys := k.1 }
    match k.2.1 with
    | some _ => .next st (s.take k.2.2) (s.drop k.2.2)
    | none => actPackage cfg st s

/-- One pattern of :236-249; `continue` there goes to the next pattern, with the content changed. -/
def quote (r : Re) (mark : Char) (s : Str) : Str :=
  match r.matchAt [] s with
  | none => s
  | some m => mark :: ((m.group 1).getD [] ++ mark :: s.drop m.stop)

/-- :235-249. -/
def quotes (s : Str) : Str := quote singleRe '\'' (quote doubleRe '"' s)

/-- :219-233: formulas. `fuel` is for the equation handler. -/
def actMath {V} (cfg : Cfg V) (fuel : Nat) (st : St V) (s : Str) : Step V :=
  match Eqn.handle cfg.order id cfg.eqFmt cfg.env fuel st.eqn s with
  | .running => .running
  | .raised => .raised
  | .ok e _ pos =>
    if 0 < pos then
      let ph := mathPlaceholder st.blocks.length
      .next { st with eqn := e, blocks := st.blocks ++ [(ph, s.take pos)] } [] (ph ++ s.drop pos)
    else actDefine cfg { st with eqn := e } (quotes s)

/-- :211-321: what is done at a delimiter. -/
def act {V} (cfg : Cfg V) (fuel : Nat) (st : St V) (s : Str) : Step V :=
  match addtoRe.matchAt [] s with
  | some m => .next st [] (s.drop (m.stop - 1))
  | none => actMath cfg fuel st s

/-- The result of the loop: the state and the text with its placeholders. -/
inductive Res (V : Type) where
  | running
  | raised
  | done (st : St V) (out : Str)

/-- Text in front of the rest. -/
def Res.prepend {V} (t : Str) : Res V → Res V
  | .done st out => .done st (t ++ out)
  | r => r

/-- The loop, :195-321. The fuel bounds the number of iterations. -/
def loop {V} (cfg : Cfg V) : Nat → St V → Str → Res V
  | 0, _, _ => .running
  | n + 1, st, s =>
    match s with
    | [] => .done st []
    | _ =>
      match delimQ.search s with
      | none => .done st s
      | some m =>
        if 0 < m.start then (loop cfg n st (s.drop m.start)).prepend (s.take m.start)
        else
          match act cfg n st s with
          | .raised => .raised
          | .running => .running
          | .next st out rest => (loop cfg n st rest).prepend out

/-- `_process_definitions_and_expand`, :182-326; `math_blocks` is new in each call. -/
def process {V} (cfg : Cfg V) (fuel : Nat) (st : St V) (s : Str) : Res V :=
  match loop cfg fuel { st with blocks := [] } s with
  | .done st out => .done st (restoreBlocks out st.blocks)
  | r => r

/-- `_check_documentclass`, :133-146, and :93-96: what is kept of the text. -/
def documentclass {V} (cfg : Cfg V) (st : St V) (s : Str) : Option (Except Unit (St V × Str)) :=
  match documentclassRe.search s with
  | none => some (.ok (st, s))
  | some m =>
    let ts := cfg.classes (strip ((m.group 1).getD []))
    match addAll cfg st ts with
    | none => none
    | some (.error e) => some (.error e)
    | some (.ok st) => some (.ok ({ st with toks := st.toks ++ ts }, s.drop m.stop))

/-- `preprocess`, :84-109. -/
def preprocess {V} (cfg : Cfg V) (fuel : Nat) (st : St V) (s : Str) : Res V :=
  match documentclass cfg st (stripLatexComments s) with
  | none => .running
  | some (.error _) => .raised
  | some (.ok (st, s)) =>
    match process cfg fuel st s with
    | .done st out => .done st (normalizeKeepingVerbatim allVerbatimPatterns out)
    | r => r

end L2J.Pre
