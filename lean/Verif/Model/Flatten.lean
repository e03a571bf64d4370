import Verif.Model.Dict
import Verif.Model.Token
/-! Model of `flatten_tokens`, latex2json/parser/flatten.py, and of the recovery of the tokens in table cells,
latex2json/parser/handlers/tabular.py:356-431. -/
namespace L2J.Flat

/-- A token dictionary: `text` is its content if it is a text token whose content is a string, `styles` the value of
the key "styles" (`none`: no such key), `rest` everything else (type, other contents, labels, ...). -/
structure FTok (β : Type) where
  text : Option Str
  styles : Option (List Str)
  rest : β
deriving DecidableEq

/-- The condition of flatten.py:14-18: the text, if it is to be inlined. -/
def FTok.inline {β} (t : FTok β) : Option Str :=
  match t.styles with
  | none => t.text
  | some _ => none

/-- `` "`|REF_%s|`" % n ``, flatten.py:22. -/
def refKey (n : Nat) : Str := "`|REF_".toList ++ natStr n ++ "|`".toList

/-- The variables of the loop: `flattened_content`, `reference_map`, `ref_counter`. -/
structure FState (β : Type) where
  content : Str := []
  refs : Dict (FTok β) := []
  counter : Nat := 1

/-- The body of the loop, flatten.py:13-27 (a copy of a token is the token). -/
def flattenStep {β} (st : FState β) (t : FTok β) : FState β :=
  match t.inline with
  | some s => { st with content := st.content ++ s }
  | none => { content := st.content ++ refKey st.counter, refs := Dict.set st.refs (refKey st.counter) t,
              counter := st.counter + 1 }

/-- `flatten_tokens` on a list, flatten.py:5-29. -/
def flattenTokens {β} (toks : List (FTok β)) : Str × Dict (FTok β) :=
  let st := toks.foldl flattenStep {}
  (st.content, st.refs)

/-- `flatten_tokens`, flatten.py:10-11: a string is returned as it is. -/
def flattenAny {β} : Str ⊕ List (FTok β) → Str × Dict (FTok β)
  | .inl s => (s, [])
  | .inr l => flattenTokens l

/-- `{"type": "text", "content": s}` if there is any text, tabular.py:394-400 and :408-414. `bare` is the remainder of
such a token (its type and no other key). -/
def textChunk {β} (bare : β) (s : Str) : List (FTok β) :=
  if s.isEmpty then [] else [⟨some s, none, bare⟩]

/-- The loop over the references, tabular.py:388-414, on `content[current_pos:]`. -/
def chunkLoop {β} (bare : β) : Dict (FTok β) → Str → List (FTok β)
  | [], s => textChunk bare s
  | (k, t) :: refs, s =>
    match findSub k s with
    | none => chunkLoop bare refs s
    | some i => textChunk bare (s.take i) ++ t :: chunkLoop bare refs (s.drop (i + k.length))

/-- `list(dict.fromkeys(l))`. -/
def fromKeys : List Str → List Str
  | [] => []
  | a :: l => a :: (fromKeys l).filter (· ≠ a)

/-- tabular.py:416-423. -/
def addStyles {β} (styles : List Str) (t : FTok β) : FTok β :=
  if styles.isEmpty then t else { t with styles := some (fromKeys (styles ++ t.styles.getD [])) }

/-- The tokens that replace one token of a cell, tabular.py:377-426. -/
def expandCellTok {β} (bare : β) (refs : Dict (FTok β)) (cell : FTok β) : List (FTok β) :=
  match cell.text with
  | none => [cell]
  | some s => (chunkLoop bare refs s).map (addStyles (cell.styles.getD []))

/-- The tokens of a cell with references, tabular.py:370-431. -/
def expandCell {β} (bare : β) (refs : Dict (FTok β)) (cells : List (FTok β)) : List (FTok β) :=
  cells.flatMap (expandCellTok bare refs)

end L2J.Flat
