import Verif.Model.Dict
import Verif.Model.Args
import Verif.Model.Bib
/-! Model of latex2json/parser/packages/etoolbox.py. -/
namespace L2J.Etool

/-- `\\kw\s*{([^}]*)}` at the start of the text, etoolbox.py:8-13: the group and the end. (Blanks, the brace and the
characters of the group are disjoint from what follows them, so there is one way to match.) -/
def matchKw (kw s : Str) : Option (Str × Nat) :=
  if startsWith s kw then
    let r := s.drop kw.length
    let ws := r.takeWhile isSpace
    match r.dropWhile isSpace with
    | '{' :: r2 =>
      let name := r2.takeWhile (· ≠ '}')
      if (r2.drop name.length).isEmpty then none else some (name, kw.length + ws.length + 1 + name.length + 1)
    | _ => none
  else none

/-- The tokens of etoolbox.py:64-135. -/
inductive Token where
  | conditional (name trueCode falseCode : Str) (isNot : Bool)
  | definition (name kind : Str)
  | setting (name : Str) (value : Bool)
deriving DecidableEq

/-- The result of `handle`: the flags afterwards, the token, the position. -/
structure Result where
  flags : Dict Bool
  token : Option Token
  pos : Nat
deriving DecidableEq

/-- `_handle_ifnotbool`, etoolbox.py:48-73. -/
def handleIf (flags : Dict Bool) (content : Str) (isNot : Bool) (m : Str × Nat) : Result :=
  let r := seqBlocks (content.drop m.2) '{' '}' (some 2)
  match r.1 with
  | [a, b] =>
    ⟨flags, some (.conditional m.1 (if isNot then b else a) (if isNot then a else b) isNot), m.2 + r.2⟩
  | _ => ⟨flags, none, m.2⟩

/-- `_handle_setbool`, etoolbox.py:101-122 (`lower` on ASCII letters). -/
def handleSet (flags : Dict Bool) (content : Str) (m : Str × Nat) : Result :=
  let r := seqBlocks (content.drop m.2) '{' '}' (some 1)
  match r.1 with
  | [] => ⟨flags, none, m.2⟩
  | v :: _ =>
    let value := lower v == "true".toList
    ⟨if Dict.has flags m.1 then Dict.set flags m.1 value else flags, some (.setting m.1 value), m.2 + r.2⟩

/-- `_handle_bool_value`, etoolbox.py:124-136. -/
def handleValue (flags : Dict Bool) (m : Str × Nat) (value : Bool) : Result :=
  ⟨if Dict.has flags m.1 then Dict.set flags m.1 value else flags, some (.setting m.1 value), m.2⟩

/-- `handle`, etoolbox.py:28-46: the patterns in the order of the dictionary (:7-14); the first one is the alternation
`\ifbool` or `\notbool` (:50 tells them apart). -/
def handle (flags : Dict Bool) (content : Str) : Result :=
  match matchKw "\\ifbool".toList content with
  | some m => handleIf flags content false m
  | none =>
  match matchKw "\\notbool".toList content with
  | some m => handleIf flags content true m
  | none =>
  match matchKw "\\newbool".toList content with
  | some m => ⟨Dict.set flags m.1 false, some (.definition m.1 "newbool".toList), m.2⟩
  | none =>
  match matchKw "\\providebool".toList content with
  | some m => ⟨if Dict.has flags m.1 then flags else Dict.set flags m.1 false, some (.definition m.1 "providebool".toList), m.2⟩
  | none =>
  match matchKw "\\setbool".toList content with
  | some m => handleSet flags content m
  | none =>
  match matchKw "\\booltrue".toList content with
  | some m => handleValue flags m true
  | none =>
  match matchKw "\\boolfalse".toList content with
  | some m => handleValue flags m false
  | none => ⟨flags, none, 0⟩

/-- The flags after handling some texts one after the other. -/
def flagsAfter (flags : Dict Bool) (texts : List Str) : Dict Bool :=
  texts.foldl (fun f t => (handle f t).flags) flags

end L2J.Etool
