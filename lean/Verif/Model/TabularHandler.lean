import Verif.Model.TabularParse
import Verif.Model.Flatten
import Verif.Model.Nested
import Verif.Model.Commands
/-! Model of `TabularHandler`, latex2json/parser/handlers/tabular.py:248-436, over `process_content_fn` (which reads a table the first time) and `cell_parser_fn`
(which reads a cell); the parser passes both. -/
namespace L2J.Tab
open Flat

/-- TABULAR_PATTERN, tabular.py:13-20. -/
def tableRe : Re :=
  .alt (.seq (.lit "\\begin".toList) (.seq (.star reSpace) (.seq (.lit ['{']) (.seq (.alt (.lit "tabular".toList) (.alt (.lit "longtable".toList)
    (.alt (.lit "tabularx".toList) (.lit "tabulary".toList)))) (.seq (.opt (.lit ['*'])) (.lit ['}']))))))
  (.seq (.lit "\\tabular".toList) (.nlook (.chr Cmds.isNameChar)))

/-- tabular.py:289-297: the name of the environment in the match. -/
def envType (m : Str) : Str := strip (replace (replace (replace m "\\begin".toList []) ['{'] []) ['}'] [])

/-- What is read before the cells, tabular.py:312-335: the environment, the specification of the columns if there is one, the text with the cells and the end of the table. -/
structure Head where
  env : Str
  spec : Option Str
  body : Str
  total : Nat
deriving DecidableEq

/-- The first half of `handle`, tabular.py:282-332: not a table (`None, 0`), a table without end (`None, match.end()`), a table. -/
inductive Start where
  | no
  | unclosed (e : Nat)
  | found (h : Head)
deriving DecidableEq

/-- tabular.py:315-335: the optional argument is dropped, the last of up to two arguments in braces is the specification of the columns. -/
def headOf (env : Str) (total : Nat) (inner0 : Str) : Head :=
  let inner1 := strip inner0
  let inner := inner1.drop (((extractNestedContent inner1 '[' ']').map (·.2)).getD 0)
  let blocks := seqBlocks inner '{' '}' (some 2)
  match blocks.1.getLast? with
  | none => ⟨env, none, [], total⟩
  | some c => ⟨env, some (strip c), inner.drop blocks.2, total⟩

/-- tabular.py:279-335, up to the extraction of the column specification. -/
def start (s : Str) : Start :=
  match tableRe.matchAt [] s with
  | none => .no
  | some m =>
    let g := s.take m.len
    let begins := startsWith g "\\begin".toList
    let env := if begins then envType g else "tabular".toList
    match (if begins then findMatchingEnvBlock s env 0 else extractNestedPattern s (.lit "\\tabular".toList) (.lit "\\endtabular".toList)) with
    | none => .unclosed m.len
    | some (_, e, inner0) => .found (headOf env e inner0)

/-- tabular.py:337-354: protected cells are taken out, the text is processed, flattened, and the protected cells are put back; with the references. -/
def prepare {β} (process : Str → Str ⊕ List (FTok β)) (body : Str) : Str × Dict (FTok β) :=
  let x := extractStructures body
  let f := flattenAny (process x.1)
  (restoreStructures f.1 x.2, f.2)

/-- What a cell holds, tabular.py:429-431: `None`, a text, or tokens. -/
inductive Value (β : Type) where
  | null
  | text (s : Str)
  | toks (l : List (FTok β))

/-- `_clean_cell`, tabular.py:260-272, on a list of tokens (a text token has a string as content). -/
def cleanCell {β} : List (FTok β) → Value β
  | [] => .null
  | [t] => match t.inline with | some s => .text s | none => .toks [t]
  | l => .toks l

/-- `if cells: return cells; return None`, tabular.py:429-431. -/
def Value.orNone {β} : Value β → Value β
  | .text [] => .null
  | v => v

/-- The truth value of a cell, as asked for in tabular.py:184 and 188. -/
def Value.truthy {β} : Value β → Bool
  | .null => false
  | .text s => !s.isEmpty
  | .toks l => !l.isEmpty

/-- `cell_parser_fn` in `handle`, tabular.py:356-431. -/
def cellValue {β} (bare : β) (parse : Str → List (FTok β)) (refs : Dict (FTok β)) (content : Str) : Value β :=
  let c := strip content
  if refs.any (fun e => (findSub e.1 c).isSome) then
    match expandCell bare refs (parse c) with
    | [] => .null
    | l => .toks l
  else (cleanCell (parse c)).orNone

/-- The token of a table, tabular.py:320-323; `content = none`: the key "content" is missing, `spec = none`: the key "column_spec". -/
structure Token (β : Type) where
  env : Str
  spec : Option Str
  content : Option (List (List (PCell (Value β))))

/-- What `handle` returns, tabular.py:279-285, :310 and :436: `(None, e)`, an exception, or a token and the end. -/
inductive Out (β : Type) where
  | none (e : Nat)
  | raised
  | ok (t : Token β) (e : Nat)

/-- The second half of `handle`, tabular.py:330-436. -/
def finish {β} (process : Str → Str ⊕ List (FTok β)) (bare : β) (parse : Str → List (FTok β)) (h : Head) : Out β :=
  match h.spec with
  | none => .ok ⟨h.env, none, none⟩ h.total
  | some c =>
    let p := prepare process h.body
    match parseTabular (cellValue bare parse p.2) Value.truthy p.1 with
    | none => .raised
    | some rows => .ok ⟨h.env, some c, some rows⟩ h.total

/-- `TabularHandler.handle`, tabular.py:279-436. -/
def handle {β} (process : Str → Str ⊕ List (FTok β)) (bare : β) (parse : Str → List (FTok β)) (s : Str) : Out β :=
  match start s with
  | .no => .none 0
  | .unclosed e => .none e
  | .found h => finish process bare parse h

end L2J.Tab
