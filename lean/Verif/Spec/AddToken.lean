import Verif.Model.AddToken
/-! What adding tokens and labels is supposed to do. -/
namespace L2J.Spec
open Parse

/-- What a reader sees in a token list: the characters of plain text, and every other token as a unit. -/
inductive Item (α : Type) where
  | chr (c : Char)
  | tok (t : Tok α)

/-- One token. -/
def readTok {α} : Tok α → List (Item α)
  | .text s none _ => s.map .chr
  | t => [.tok t]

/-- A token list. -/
def reading {α} (toks : List (Tok α)) : List (Item α) := toks.flatMap readTok

/-- A group, environment or list whose content is empty. -/
def EmptyContainer {α} : Tok α → Prop
  | .other ty c _ _ => (ty = "group".toList ∨ ty = "environment".toList ∨ ty = "list".toList) ∧ c.len = some 0
  | .text _ _ _ => False

/-- An unstyled text token. -/
def IsPlain {α} : Tok α → Prop
  | .text _ none _ => True
  | _ => False

/-- No two neighbouring unstyled text tokens. -/
def NoAdjacentText {α} (toks : List (Tok α)) : Prop := ∀ a x y b, toks = a ++ x :: y :: b → ¬ (IsPlain x ∧ IsPlain y)

/-- The tokens an argument of `add_token` stands for. -/
def inTokens {α} : TokIn α → List (Tok α)
  | .none => []
  | .str s => [.text s none []]
  | .dict t => [t]
  | .list l => l

/-- The labels recorded on a token; a token of type "label" records its content. -/
def labelsOf {α} : Tok α → List Str
  | .text _ _ ls => ls
  | .other ty c ls _ => ls ++ (if ty = "label".toList then match c with | .str l => [l] | _ => [] else [])

/-- All labels recorded in a state. -/
def allLabels {α} (st : St α) : List Str := (match st.1 with | some e => labelsOf e | none => []) ++ st.2.flatMap labelsOf

/-- The labels a step brings. -/
def opLabels {α} : Op α → List Str
  | .add t _ => (inTokens t).flatMap labelsOf
  | .label l => [l]

end L2J.Spec
