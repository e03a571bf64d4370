import Verif.Model.PyStr
/-! Model of `LatexParser.add_token` and `LatexParser._handle_label`, latex2json/parser/tex_parser.py:150-216. -/
namespace L2J.Parse

/-- The value under the key "content": a string, a list of tokens (of any kind `α`), or no such key. -/
inductive Content (α : Type) where
  | str (s : Str)
  | toks (l : List α)
  | absent

/-- `len(token["content"])`; `none` is a KeyError. -/
def Content.len {α} : Content α → Option Nat
  | .str s => some s.length
  | .toks l => some l.length
  | .absent => none

/-- A token dictionary. A "text" token has a string as content (all text tokens the parser makes do); `styles` is
`none` if there is no such key. The list of labels is empty if there is no key "labels". The remaining keys of a token
that is not text are kept in `rest`, and are not looked at. -/
inductive Tok (α : Type) where
  | text (s : Str) (styles : Option (List Str)) (labels : List Str)
  | other (type : Str) (content : Content α) (labels : List Str) (rest : List (Str × Str))

/-- `t["labels"]`. -/
def Tok.labels {α} : Tok α → List Str
  | .text _ _ ls => ls
  | .other _ _ ls _ => ls

/-- `t["labels"].append(l)`, creating the list if needed, tex_parser.py:154-156 and :161-163. -/
def Tok.addLabel {α} (t : Tok α) (l : Str) : Tok α :=
  match t with
  | .text s st ls => .text s st (ls ++ [l])
  | .other ty c ls r => .other ty c (ls ++ [l]) r

/-- The argument of `add_token`: nothing, a string, a token or a list of tokens. -/
inductive TokIn (α : Type) where
  | none
  | str (s : Str)
  | dict (t : Tok α)
  | list (l : List (Tok α))

/-- tex_parser.py:199-211: appending the text of an unstyled text token to the last token. -/
def mergeText {α} (s : Str) (space : Bool) : Tok α → Tok α
  | .text s0 st ls => .text ((if space && !endsWith s0 [' '] then s0 ++ [' '] else s0) ++ s) st ls
  | t => t

/-- The condition of tex_parser.py:200-205 on the last token. -/
def plainText {α} : Tok α → Bool
  | .text _ none _ => true
  | _ => false

/-- tex_parser.py:211-214: groups, environments and lists without content. -/
def emptyContainer (type : Str) : Bool :=
  type == "group".toList || type == "environment".toList || type == "list".toList

/-- `add_token` on a token dictionary, tex_parser.py:192-216; `none` is a KeyError. -/
def addDict {α} (t : Tok α) (toks : List (Tok α)) (space : Bool) : Option (List (Tok α)) :=
  match t with
  | .text s none _ =>
    match toks.getLast? with
    | some last => if plainText last then some (toks.dropLast ++ [mergeText s space last]) else some (toks ++ [t])
    | none => some (toks ++ [t])
  | .text _ (some _) _ => some (toks ++ [t])
  | .other ty c _ _ =>
    if emptyContainer ty then
      match c.len with
      | none => none
      | some n => if n < 1 then some toks else some (toks ++ [t])
    else some (toks ++ [t])

/-- `add_token`, tex_parser.py:168-216 (`self.current_str` is not used by anything else). -/
def addToken {α} (t : TokIn α) (toks : List (Tok α)) (space : Bool) : Option (List (Tok α)) :=
  match t with
  | .none => some toks
  | .str s => if s.isEmpty then some toks else addDict (.text s none []) toks space
  | .dict t => addDict t toks space
  | .list l => some (toks ++ l)

/-- `_handle_label`, tex_parser.py:150-166: the current environment and the token list afterwards. (`self.labels`, a
map from labels to tokens that the result does not contain, is left out.) -/
def handleLabel {α} (l : Str) (cur : Option (Tok α)) (toks : List (Tok α)) : Option (Option (Tok α) × List (Tok α)) :=
  match cur with
  | some e => some (some (e.addLabel l), toks)
  | none =>
    match toks.getLast? with
    | some last => some (none, toks.dropLast ++ [last.addLabel l])
    | none => (addToken (.dict (.other "label".toList (.str l) [] [])) toks false).map fun ts => (none, ts)

/-- One step of building a token list. -/
inductive Op (α : Type) where
  | add (t : TokIn α) (space : Bool)
  | label (l : Str)

/-- The state: current environment and token list. -/
abbrev St (α : Type) := Option (Tok α) × List (Tok α)

/-- One step. -/
def step {α} : Op α → St α → Option (St α)
  | .add t sp, (cur, toks) => (addToken t toks sp).map fun ts => (cur, ts)
  | .label l, (cur, toks) => handleLabel l cur toks

/-- A sequence of steps. -/
def run {α} : List (Op α) → St α → Option (St α)
  | [], st => some st
  | op :: ops, st => (step op st).bind (run ops)

end L2J.Parse
