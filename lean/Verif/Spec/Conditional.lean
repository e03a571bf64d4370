import Verif.Spec.Files
import Verif.Model.Commands
/-! The texts between the parts of a conditional. -/
namespace L2J.Spec
open Cmds

/-- What `\if…`, `\IfFileExists` and `\fi` begin with. -/
def condBegins : List Str := ["\\if".toList, "\\@if".toList, "\\If".toList, "\\fi".toList]

/-- What `\else`, `\elsif` and `\or` begin with. -/
def branchBegins : List Str := ["\\els".toList, "\\or".toList]

/-- No part of a conditional begins in the text; inside a nested conditional (`top = false`) `\else` and `\or` do not matter. -/
def NoCond (top : Bool) (t : Str) : Prop := (∀ w ∈ condBegins, ¬ Contains t w) ∧ (top = true → ∀ w ∈ branchBegins, ¬ Contains t w)

/-- A name of letters and `@`. -/
def IfName (n : Str) : Prop := n ≠ [] ∧ ∀ c ∈ n, isNameChar c = true

/-- A name declared with `\newif` such that no other declared name begins it. -/
def Declared (ns : List Str) (n : Str) : Prop := n ∈ ns ∧ ∀ m ∈ ns, m <+: n → m = n

/-- What the conditionals that are read in a way of their own begin with, behind `\if`. -/
def specialIfs : List Str := ["x", "defined", "undefined", "num", "dim", "cat", "case", "thenelse"].map String.toList

/-- The name of a conditional such as `\iftrue`, `\ifmmode` or `\ifpdf`, that is not declared. -/
def Undeclared (ns : List Str) (n : Str) : Prop :=
  IfName n ∧ 3 ≤ n.length ∧ (∀ m ∈ ns, ¬ m <+: n) ∧ ∀ w ∈ specialIfs, ¬ w <+: n

/-- `\ifn` followed by `X`: the name ends there; where it is not declared, white space or a command follows. -/
inductive Opens (ns : List Str) (n X : Str) : Prop
  | declared : IfName n → Declared ns n → (∀ c ∈ X.head?, isNameChar c = false) → Opens ns n X
  | undeclared : Undeclared ns n → (∃ c, X.head? = some c ∧ (isSpace c = true ∨ c = '\\')) → Opens ns n X

/-- A text in which every conditional that is opened is closed. -/
inductive CondText (ns : List Str) : Bool → Str → Prop
  | plain (b t) : NoCond b t → CondText ns b t
  | cond (b a n x r) : NoCond b a → Opens ns n (x ++ "\\fi".toList) → CondText ns false x → (∀ c ∈ r.head?, isWord c = false) → CondText ns b r →
      CondText ns b (a ++ ("\\if".toList ++ (n ++ (x ++ ("\\fi".toList ++ r)))))

end L2J.Spec
