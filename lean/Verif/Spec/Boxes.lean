import Verif.Model.Boxes
import Verif.Spec.Wrapped
/-! What saving and using boxes means. -/
namespace L2J.Spec
open Boxes

/-- A name of letters. -/
def BoxNameOk (n : Str) : Prop := n ≠ [] ∧ ∀ c ∈ n, ('a' ≤ c ∧ c ≤ 'z') ∨ ('A' ≤ c ∧ c ≤ 'Z') ∨ c = '@'

/-- The three ways to write it: `\name`, `{\name}`, `{name}`. -/
inductive Written where
  | bare
  | braced
  | plain

def Written.render (w : Written) (n : Str) : Str :=
  match w with
  | .bare => '\\' :: n
  | .braced => '{' :: '\\' :: (n ++ ['}'])
  | .plain => '{' :: (n ++ ['}'])

/-- What happens to boxes. `assign` is `\setbox\name=` followed by a box command. -/
inductive BoxEvent (V : Type) where
  | declare (long : Bool) (w : Written) (n : Str)
  | save (long : Bool) (w : Written) (n content : Str)
  | assign (w : Written) (n box : Str) (v : Value V)
  | use (w : Written) (n : Str)
  | clear

/-- The name it is about. -/
def BoxEvent.name {V} : BoxEvent V → Option Str
  | .declare _ _ n => some n
  | .save _ _ n _ => some n
  | .assign _ n _ _ => some n
  | .use _ n => some n
  | .clear => none

def BoxEvent.render {V} : BoxEvent V → Str
  | .declare long w n => (if long then "\\newsavebox".toList else "\\newbox".toList) ++ w.render n
  | .save long w n c => (if long then "\\savebox".toList else "\\sbox".toList) ++ (w.render n ++ '{' :: (c ++ ['}']))
  | .assign w n b _ => "\\setbox".toList ++ (w.render n ++ '=' :: b)
  | .use w n => "\\usebox".toList ++ w.render n
  | .clear => []

/-- The call it is, in front of a further text. -/
def BoxEvent.toCall {V} (e : BoxEvent V) (rest : Str) : Call :=
  match e with
  | .clear => .clear
  | e => .handle (e.render ++ rest)

/-- It is written properly: a name at the end is not followed by a letter, and an assigned box is one for the handler. -/
def BoxEvent.Ok {V} (env : Env V) (rest : Str) : BoxEvent V → Prop
  | .declare _ _ n => BoxNameOk n ∧ ∀ c ∈ rest.head?, nameChar c = false
  | .save _ _ n c => BoxNameOk n ∧ Wrappable '{' '}' c
  | .assign _ n b v => BoxNameOk n ∧ (∀ c ∈ (b ++ rest).head?, isSpace c = false) ∧ env.isBox (b ++ rest) = true ∧
      env.other (b ++ rest) = (some v, b.length)
  | .use _ n => BoxNameOk n ∧ ∀ c ∈ rest.head?, nameChar c = false
  | .clear => True

/-- Whether it decides what the box `n` holds. -/
def BoxEvent.decides {V} (n : Str) : BoxEvent V → Bool
  | .clear => true
  | .use _ _ => false
  | e => e.name == some n

/-- The content a box has after an event that decides it. -/
def BoxEvent.content {V} (env : Env V) : BoxEvent V → Option (Value V)
  | .save _ _ _ c => store env c
  | .assign _ _ _ v => some v
  | _ => none

/-- What the box `n` holds after a history: the content saved by the last event that decides it. -/
def holds {V} (env : Env V) (n : Str) (h : List (BoxEvent V)) : Option (Value V) :=
  ((h.filter (BoxEvent.decides n)).getLast?).bind (BoxEvent.content env)

end L2J.Spec
