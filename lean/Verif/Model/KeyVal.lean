import Verif.Model.Dict
import Verif.Model.Args
import Verif.Model.SubstArgs
/-! Model of latex2json/parser/packages/keyval.py and of its use in latex2json/parser/handlers/command_manager.py. -/
namespace L2J.KeyVal

/-- `KeyDefinition`, keyval.py:12-17 (without the names it is stored under). -/
structure KeyDef where
  default : Option Str
  code : Str
deriving DecidableEq

/-- `key_definitions`: family, key. -/
abbrev Defs := Dict (Dict KeyDef)

/-- `\\kw\s*` at the start of the text, keyval.py:21-24: the end of the match. -/
def matchKw (kw s : Str) : Option Nat :=
  if startsWith s kw then some (kw.length + ((s.drop kw.length).takeWhile isSpace).length) else none

/-- keyval.py:69-75 and :163-168: `key_definitions[family][key] = …`, creating the family if needed. -/
def define (defs : Defs) (family key : Str) (d : KeyDef) : Defs :=
  Dict.set defs family (Dict.set ((Dict.get? defs family).getD []) key d)

/-- `_handle_define_key_match`, keyval.py:36-84: the definitions afterwards, the name of the token (family and key; `none`
if there is no token) and the position. `start` is `match.end()`. -/
def handleDefine (defs : Defs) (content : Str) (start : Nat) : Defs × Option (Str × Str) × Nat :=
  let c1 := content.drop start
  let r1 := seqBlocks c1 '{' '}' (some 2)
  match r1.1 with
  | [family, key] =>
    let c2 := c1.drop r1.2
    let r2 := seqBlocks c2 '[' ']' (some 1)
    let default := r2.1.head?
    -- pos and content advance only if there is a default
    let skip := if r2.1.isEmpty then 0 else r2.2
    let c3 := c2.drop skip
    let r3 := seqBlocks c3 '{' '}' (some 1)
    match r3.1 with
    | [] => (defs, none, 0)
    | code :: _ => (define defs family key ⟨default, code⟩, some (family, key), start + r1.2 + skip + r3.2)
  | _ => (defs, none, 0)

/-- A character of a key: `[^=,\s]`, keyval.py:26. -/
def keyChar (c : Char) : Bool := c != '=' && c != ',' && !isSpace c

/-- `KEY_VALUE_PATTERN.finditer`, `([^=,\s]+)(?:=([^,]+))?`, keyval.py:26 and :101-104: keys and values (`none`: no
value). The fuel bounds the number of steps, the length of the text suffices. -/
def keyValues : Nat → Str → List (Str × Option Str)
  | 0, _ => []
  | fuel + 1, s =>
    match s with
    | [] => []
    | c :: s' =>
      if keyChar c then
        let key := s.takeWhile keyChar
        let r := s.drop key.length
        match r with
        | '=' :: v =>
          let value := v.takeWhile (· ≠ ',')
          if value.isEmpty then (key, none) :: keyValues fuel r
          else (key, some value) :: keyValues fuel (v.drop value.length)
        | _ => (key, none) :: keyValues fuel r
      else keyValues fuel s'

/-- keyval.py:104: `value.strip() if value else "true"`. -/
def valueOf : Option Str → Str
  | some v => strip v
  | none => "true".toList

/-- `_process_setkeys_token`, keyval.py:113-128, on the definitions of the family. -/
def codeblocks (alpha : Char → Bool) (family : Dict KeyDef) (kvs : List (Str × Str)) : Dict Str :=
  kvs.foldl (fun out kv =>
    match Dict.get? family kv.1 with
    | none => out
    | some d => if d.code.isEmpty then out else Dict.set out kv.1 (substituteArgs alpha d.code [some kv.2] false)) []

/-- `_handle_setkeys_match` and `_process_setkeys_token`, keyval.py:86-128: the code to run, by key, and the position;
`none` if there is no token. -/
def handleSet (alpha : Char → Bool) (defs : Defs) (content : Str) (start : Nat) : Option (Dict Str) × Nat :=
  let c1 := content.drop start
  let r := seqBlocks c1 '{' '}' (some 2)
  match r.1 with
  | [family, kvs] =>
    let kv := (keyValues (kvs.length + 1) kvs).map fun e => (e.1, valueOf e.2)
    match Dict.get? defs family with
    | none => (some [], start + r.2)
    | some fam => (some (codeblocks alpha fam kv), start + r.2)
  | _ => (none, 0)

/-- What `handle` returns: a definition token, a setting token with its code, or none. -/
inductive Token where
  | definition (family key : Str)
  | setting (code : Dict Str)
deriving DecidableEq

/-- `handle`, keyval.py:130-151. -/
def handle (alpha : Char → Bool) (defs : Defs) (content : Str) : Defs × Option Token × Nat :=
  match matchKw "\\define@key".toList content with
  | some start =>
    let r := handleDefine defs content start
    (r.1, r.2.1.map (fun e => .definition e.1 e.2), r.2.2)
  | none =>
    match matchKw "\\setkeys".toList content with
    | some start =>
      let r := handleSet alpha defs content start
      (defs, r.1.map .setting, r.2)
    | none => (defs, none, 0)

/-- `CommandManager.handle`, command_manager.py:140-153, for keyval commands: the text put in place of the command. -/
def expansion (t : Option Token) : Str :=
  match t with
  | some (.setting code) => code.flatMap fun e => e.2 ++ ['\n']
  | _ => []

/-- The definitions after handling some texts one after the other. -/
def defsAfter (alpha : Char → Bool) (defs : Defs) (texts : List Str) : Defs :=
  texts.foldl (fun d t => (handle alpha d t).1) defs

end L2J.KeyVal
