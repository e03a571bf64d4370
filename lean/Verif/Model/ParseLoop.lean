import Verif.Model.Commands
/-! Model of the main loop of latex2json/parser/tex_parser.py, `LatexParser.parse`. -/
namespace L2J.Loop

/-- `DELIM_PATTERN`, patterns.py:24-26: `(?<!\\)(?:\\\\|\$|%|(?:^|[ \t])\{|\s{|{}|\\\^|\\(?![$%&_#{}^~\\]))`. `^` is "nothing
before". -/
def delimPat : Re :=
  .seq (.nbehind (· == '\\'))
    (.alt (.lit ['\\', '\\'])
    (.alt (.lit ['$'])
    (.alt (.lit ['%'])
    (.alt (.seq (.alt (.nbehind fun _ => true) (.chr fun c => c == ' ' || c == '\t')) (.lit ['{']))
    (.alt (.seq reSpace (.lit ['{']))
    (.alt (.lit ['{', '}'])
    (.alt (.lit ['\\', '^'])
      (.seq (.lit ['\\']) (.nlook (.chr fun c => "$%&_#{}^~\\".toList.contains c))))))))))

/-- The parts of the parser the loop calls, over a state `S` (tokens, labels, definitions, …). An end position is an integer since
some handlers return -1; `none` means that the part does not apply. -/
structure Machine (S : Type) where
  /-- expansion and storing of plain text, :531-545 -/
  text : S → Str → S
  /-- nested parse of a brace group, :511-517 -/
  group : S → Str → S
  /-- `command_manager.can_handle` and `handle`, :551-558 -/
  command : S → Str → Option (Str × Int)
  /-- `_check_for_new_definitions`, :560-564 -/
  define : S → Str → S × Int
  /-- `if_else_block_handler`, :566-578 -/
  ifElse : S → Str → Option (S × Str × Int)
  /-- `legacy_formatting_handler`, :580-593 -/
  legacy : S → Str → Option (Str × Int)
  /-- `self.handlers`, :416-433: `can_handle`, `handle` and `_process_token` -/
  handlers : List (S → Str → Option (S × Int))
  /-- `_check_remaining_patterns`, :435-466 -/
  patterns : S → Str → Option (S × Int)
  /-- `_check_unknown_command` and what is done with its token, :609-633 -/
  unknown : S → Str → Option (S × Int)
  /-- `add_token(content[current_pos], tokens)`, :635 -/
  char : S → Char → S

/-- What one iteration does. `outside`: the position becomes negative, which Python takes as counting from the end; not followed
further. -/
inductive Step (S : Type) where
  | leave (s : S)
  | next (s : S) (content : Str) (pos : Nat)
  | outside

/-- Moving on by an end position. -/
def move {S} (s : S) (content : Str) (pos : Nat) (e : Int) : Step S :=
  if (pos : Int) + e < 0 then .outside else .next s content ((pos : Int) + e).toNat

/-- `content[:pos] + new + content[pos + e:]` for `e > 0`. -/
def splice (content : Str) (pos : Nat) (new : Str) (e : Int) : Str :=
  content.take pos ++ new ++ content.drop (pos + e.toNat)

/-- `_check_handlers`, tex_parser.py:416-433: the first handler that accepts. -/
def firstHandler {S} (s : S) (t : Str) : List (S → Str → Option (S × Int)) → Option (S × Int)
  | [] => none
  | h :: hs =>
    match h s t with
    | some r => some r
    | none => firstHandler s t hs

/-- The end of an iteration, tex_parser.py:595-636. -/
def stepHandlers {S} (M : Machine S) (s : S) (content : Str) (pos : Nat) : Step S :=
  match firstHandler s (content.drop pos) M.handlers with
  | some (s', e) => move s' content pos e
  | none =>
    match M.patterns s (content.drop pos) with
    | some (s', e) => move s' content pos e
    | none =>
      match M.unknown s (content.drop pos) with
      | some (s', e) => move s' content pos e
      | none =>
        match (content.drop pos).head? with
        | none => .leave s
        | some c => .next (M.char s c) content (pos + 1)

/-- From the conditionals on, tex_parser.py:566-593. -/
def stepIfElse {S} (M : Machine S) (s : S) (content : Str) (pos : Nat) : Step S :=
  match (M.ifElse s (content.drop pos)).filter (fun r => 0 < r.2.2) with
  | some (s', block, e) => .next s' (splice content pos block e) pos
  | none =>
    match (M.legacy s (content.drop pos)).filter (fun r => 0 < r.2) with
    | some (new, e) => .next s (splice content pos new e) pos
    | none => stepHandlers M s content pos

/-- From the user commands on, tex_parser.py:550-564. -/
def stepCommand {S} (M : Machine S) (s : S) (content : Str) (pos : Nat) : Step S :=
  match (M.command s (content.drop pos)).filter (fun r => 0 < r.2) with
  | some (new, e) => .next s (splice content pos new e) pos
  | none =>
    let d := M.define s (content.drop pos)
    if 0 < d.2 then .next d.1 content (pos + d.2.toNat)
    else stepIfElse M d.1 content pos

/-- The plain text up to the next delimiter, tex_parser.py:520-548. -/
def stepText {S} (M : Machine S) (s : S) (content : Str) (pos : Nat) : Step S :=
  let t := content.drop pos
  match delimPat.search t with
  | none =>
    let txt := if endsWith t ['{'] then t.dropLast else t
    .leave (M.text s txt)
  | some m =>
    if 0 < m.start then
      let txt := t.take m.start
      if endsWith txt ['{'] then .next (M.text s txt.dropLast) content (pos + m.start - 1)
      else .next (M.text s txt) content (pos + m.start)
    else stepCommand M s content pos

/-- One iteration, tex_parser.py:500-636, after blanks have been skipped. -/
def stepAt {S} (M : Machine S) (s : S) (content : Str) (pos : Nat) : Step S :=
  match content.drop pos with
  | [] => .leave s
  | c :: t =>
    if c = '{' then
      match extractNestedContent (c :: t) '{' '}' with
      | some (inner, e) => .next (M.group s inner) content (pos + e)
      | none => stepText M s content pos
    else stepText M s content pos

/-- One iteration. (`current_str`, in which the blanks are collected, is not modelled.) -/
def step {S} (M : Machine S) (s : S) (content : Str) (pos : Nat) : Step S :=
  stepAt M s content (pos + ((content.drop pos).takeWhile isSpace).length)

/-- The loop with a number of iterations. `none`: still running after them; `some none`: left the model. -/
def run {S} (M : Machine S) : Nat → S → Str → Nat → Option (Option S)
  | 0, _, _, _ => none
  | n + 1, s, content, pos =>
    match step M s content pos with
    | .leave s' => some (some s')
    | .outside => some none
    | .next s' content' pos' => run M n s' content' pos'

/-- `try_match_group` as the environment handler calls it on a text that is no environment, environment.py:307-338 with :14:
`\bgroup` and `\begingroup`. The token is passed to `store`. -/
def groupHandler {S} (store : S → Str → S) (s : S) (t : Str) : Option (S × Int) :=
  let bgroup : Re := .seq (.lit "\\bgroup".toList) reWordEnd
  let begingroup : Re := .seq (.lit "\\begingroup".toList) reWordEnd
  let egroup : Re := .seq (.lit "\\egroup".toList) reWordEnd
  let endgroup : Re := .seq (.lit "\\endgroup".toList) reWordEnd
  if (bgroup.matchAt [] t).isSome then
    match extractNestedPattern t bgroup egroup with
    | none => some (s, 0)
    | some (_, e, inner) => some (store s inner, e)
  else if (begingroup.matchAt [] t).isSome then
    match extractNestedPattern t begingroup endgroup with
    | none => some (s, 0)
    | some (_, e, inner) => some (store s inner, e)
  else none

/-- `begin_picture` of tikz_pgf.py:16-58 for one environment name: an environment that is not closed gives the end position -1.
The other two patterns of the handler are not modelled. -/
def pictureHandler {S} (name : Str) (store : S → Str → S) (s : S) (t : Str) : Option (S × Int) :=
  match (beginRe name).matchAt [] t with
  | none => none
  | some _ =>
    match findMatchingEnvBlock t name 0 with
    | none => some (store s [], -1)
    | some (_, e, inner) => some (store s inner, e)

end L2J.Loop
