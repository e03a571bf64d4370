import Verif.Model.Dict
import Verif.Model.Args
import Verif.Model.Regex
/-! Model of the saved boxes of latex2json/parser/packages/boxes.py. -/
namespace L2J.Boxes

/-- `[a-zA-Z@]`, patterns.py:14. -/
def nameChar (c : Char) : Bool := ('a' ≤ c && c ≤ 'z') || ('A' ≤ c && c ≤ 'Z') || c == '@'

/-- `[<>=,\.;!|$%&#_{}()\[\]~]`, patterns.py:14. -/
def symChar (c : Char) : Bool := "<>=,.;!|$%&#_{}()[]~".toList.contains c

/-- The non-empty prefixes of a text, the longest first: the order in which `X+` gives up characters. -/
def prefixes (s : Str) : List Str := (List.range s.length).reverse.map fun k => s.take (k + 1)

/-- The texts `command_with_opt_brace_pattern` (patterns.py:5, :14-15) can match at the start of a text, in the order in which
the matcher tries them (`\d` as an ASCII digit). -/
def names (s : Str) : List Str :=
  match s with
  | '{' :: r =>
    let n := r.takeWhile (· ≠ '}')
    if n.isEmpty || (r.drop n.length).isEmpty then [] else ['{' :: (n ++ ['}'])]
  | '\\' :: c :: r =>
    if nameChar c then (prefixes ((c :: r).takeWhile nameChar)).map ('\\' :: ·)
    else if symChar c then (prefixes ((c :: r).takeWhile symChar)).map ('\\' :: ·)
    else if isDigit c then [['\\', c]] else []
  | _ => []

/-- The alternatives of boxes.py:46. None is a prefix of another one. -/
def keywords : List Str :=
  ["usebox".toList, "sbox".toList, "savebox".toList, "newsavebox".toList, "newbox".toList]

/-- `SAVED_BOX_PATTERN.match`, boxes.py:45-49: the command, the second group, the end. A name does not start with a blank, so
`\s*` never gives one back. -/
def matchSaved (s : Str) : Option (Str × Str × Nat) :=
  match s with
  | '\\' :: r =>
    match keywords.find? (fun k => startsWith r k) with
    | none => none
    | some k =>
      let r2 := r.drop k.length
      match names (r2.dropWhile isSpace) with
      | [] => none
      | n :: _ => some (k, n, 1 + k.length + (r2.takeWhile isSpace).length + n.length)
  | _ => none

/-- `\s*=\s*` at the start of a text: its length. -/
def matchEq (s : Str) : Option Nat :=
  match s.dropWhile isSpace with
  | '=' :: r => some ((s.takeWhile isSpace).length + 1 + (r.takeWhile isSpace).length)
  | _ => none

/-- The candidates for the first group of `SETBOX_PATTERN`, boxes.py:53: `\d+` or a name. -/
def setNames (s : Str) : List Str := prefixes (s.takeWhile isDigit) ++ names s

/-- `SETBOX_PATTERN.match`, boxes.py:52-55: the group and the end. -/
def matchSet (s : Str) : Option (Str × Nat) :=
  if startsWith s "\\setbox".toList then
    let r := s.drop 7
    let ws := (r.takeWhile isSpace).length
    (setNames (r.dropWhile isSpace)).findSome? fun n =>
      (matchEq ((r.dropWhile isSpace).drop n.length)).map fun e => (n, 7 + ws + n.length + e)
  else none

/-- boxes.py:59-62. -/
def unbrace (v : Str) : Str :=
  if startsWith v ['{'] then
    match extractNestedContent v '{' '}' with
    | some (x, _) => if x.isEmpty then v else strip x
    | none => v
  else v

/-- boxes.py:63-64. -/
def dropBackslash : Str → Str
  | '\\' :: r => r
  | v => v

/-- `parse_varname_from_brace_or_backslash`, boxes.py:58-67. -/
def varName (v : Str) : Str :=
  let v2 := dropBackslash (unbrace v)
  if v2.contains '{' then strip (v2.takeWhile (· ≠ '{')) else v2

/-- What a box can hold: a text token or what the parser made of the content. -/
inductive Value (V : Type) where
  | text (s : Str)
  | tokens (v : V)
deriving DecidableEq

/-- What `process_content_fn` returns: a string, `None` or something else. -/
inductive Processed (V : Type) where
  | str (s : Str)
  | null
  | other (v : V)

/-- `saved_boxes` and `numbered_boxes` (the newest entry first, it is never read), boxes.py:71-72. A stored `None` is `none`. -/
structure State (V : Type) where
  saved : Dict (Option (Value V))
  numbered : List (Nat × Option (Value V))

/-- After `clear`, boxes.py:82-84. -/
def empty {V : Type} : State V := ⟨[], []⟩

/-- What is known of the rest of the handler: `process_content_fn`, taken to be a function of the text that does not itself
touch the boxes; whether `BOX_PATTERN` matches; and the result for the other boxes, boxes.py:99-141 (`none` for a result that
is false in Python). -/
structure Env (V : Type) where
  process : Option (Str → Processed V)
  isBox : Str → Bool
  other : Str → Option (Value V) × Nat

/-- boxes.py:163-172 and :227-236: how the content is stored. -/
def store {V} (env : Env V) (content : Str) : Option (Value V) :=
  match env.process with
  | none => some (.text content)
  | some f =>
    match f content with
    | .str s => some (.text s)
    | .null => none
    | .other v => some (.tokens v)

/-- `_handle_saved_box`, boxes.py:143-183. -/
def handleSaved {V} (env : Env V) (st : State V) (content : Str) (m : Str × Str × Nat) : State V × Option (Value V) × Nat :=
  let name := varName m.2.1
  if startsWith m.1 "new".toList then ({ st with saved := Dict.set st.saved name none }, none, m.2.2)
  else if m.1 = "sbox".toList ∨ m.1 = "savebox".toList then
    match extractDelimitedArgs (content.drop m.2.2) ['{'] with
    | (some a :: _, e) => ({ st with saved := Dict.set st.saved name (store env a) }, none, m.2.2 + e)
    | _ => (st, none, m.2.2)
  else
    match Dict.get? st.saved name with
    | some (some v) => (st, some v, m.2.2)
    | _ => (st, none, m.2.2)

/-- `save_box_dict[box_name] = v`, boxes.py:190-198 (`box_name.isdigit()` on ASCII digits). -/
def setBox {V} (st : State V) (group : Str) (v : Option (Value V)) : State V :=
  let g := strip group
  if !g.isEmpty && g.all isDigit then { st with numbered := (digitsVal g, v) :: st.numbered }
  else { st with saved := Dict.set st.saved (varName g) v }

/-- `_handle_setbox`, boxes.py:185-239. The text after `=` matches neither `SETBOX_PATTERN` nor `SAVED_BOX_PATTERN` if it
matches `BOX_PATTERN`, so the inner `handle` is `other`. -/
def handleSetbox {V} (env : Env V) (st : State V) (content : Str) (m : Str × Nat) : State V × Option (Value V) × Nat :=
  let start := m.2 + ((content.drop m.2).takeWhile isSpace).length
  let remaining := content.drop start
  let direct := match extractDelimitedArgs remaining ['{'] with
    | (some a :: _, e) => (setBox st m.1 (store env a), none, start + e)
    | _ => (st, none, start)
  if env.isBox remaining then
    match env.other remaining with
    | (some v, e) => (setBox st m.1 (some v), none, start + e)
    | (none, _) => direct
  else direct

/-- `handle`, boxes.py:86-141. -/
def handle {V} (env : Env V) (st : State V) (content : Str) : State V × Option (Value V) × Nat :=
  match matchSet content with
  | some m => handleSetbox env st content m
  | none =>
    match matchSaved content with
    | some m => handleSaved env st content m
    | none => (st, (env.other content).1, (env.other content).2)

/-- A call of the handler. -/
inductive Call where
  | handle (text : Str)
  | clear

/-- The state after a call. -/
def step {V} (env : Env V) (st : State V) : Call → State V
  | .handle t => (handle env st t).1
  | .clear => empty

/-- The state after some calls. -/
def after {V} (env : Env V) (st : State V) (calls : List Call) : State V := calls.foldl (step env) st

/-- Several handlers. The dictionaries are attributes of the class (boxes.py:71-72) until `clear` gives a handler its own
(:83-84): `cls` are those of the class, `own i` those of handler `i`. -/
structure World (V : Type) where
  cls : State V
  own : Nat → Option (State V)

/-- What handler `i` sees. -/
def World.view {V} (w : World V) (i : Nat) : State V := (w.own i).getD w.cls

/-- Handler `i` is called. `handle` updates the dictionaries it sees in place. -/
def World.call {V} (env : Env V) (w : World V) (i : Nat) : Call → World V
  | .clear => { w with own := fun j => if j = i then some empty else w.own j }
  | .handle t =>
    match w.own i with
    | some st => { w with own := fun j => if j = i then some (Boxes.handle env st t).1 else w.own j }
    | none => { w with cls := (Boxes.handle env w.cls t).1 }

end L2J.Boxes
