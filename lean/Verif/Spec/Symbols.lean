import Verif.Model.Commands
import Verif.Model.PyStr
import Verif.Spec.Files
/-! Commands for characters, and what a text becomes when they are replaced. -/
namespace L2J.Spec

/-- The command ends like a name, so that it goes on as long as letters follow. -/
def NameLike (k : Str) : Prop := ∃ c ∈ k.getLast?, Cmds.isLetter c = true ∨ c = '@'

/-- The command `k` is written at the beginning of the text. -/
def StandsAt (k s : Str) : Prop := k <+: s ∧ (NameLike k → ∀ c ∈ (s.drop k.length).head?, Cmds.isLetter c = false)

/-- The value of a hexadecimal digit. -/
def HexVal (c : Char) (v : Nat) : Prop := "0123456789abcdef".toList[v]? = some c ∨ "0123456789ABCDEF".toList[v]? = some c

def HexDigit (c : Char) : Prop := ∃ v, HexVal c v

/-- A hexadecimal number. -/
inductive HexNumber : Str → Nat → Prop
  | nil : HexNumber [] 0
  | snoc (d : Str) (n : Nat) (c : Char) (v : Nat) : HexNumber d n → HexVal c v → HexNumber (d ++ [c]) (16 * n + v)

/-- `\u` and at least four hexadecimal digits are written at the beginning of the text. -/
def EscapeAt (s : Str) : Prop := ∃ d r, s = '\\' :: 'u' :: (d ++ r) ∧ d.length = 4 ∧ ∀ c ∈ d, HexDigit c

/-- A character that is not ASCII. -/
def Foreign (c : Char) : Prop := 128 ≤ c.toNat

/-- Commands that are replaced before the others. -/
def Early (k : Str) : Prop := "\\ensuremath".toList <+: k ∨ "\\text".toList <+: k ∨ "\\math".toList <+: k ∨ Contains k "font".toList

/-- A table of commands: they are ASCII and begin with a backslash or a brace. -/
def SymbolTable (t : List (Str × Str)) : Prop := ∀ e ∈ t, (∀ c ∈ e.1, c.toNat < 128) ∧ (e.1.head? = some '\\' ∨ e.1.head? = some '{')

/-- What a text becomes: a command of the table becomes its character, with a pair of braces behind a name left out; an escape becomes the character with that number; everything
else stays. The command is the longest of those written at that place and the first of them in the table, and no other one begins within it. -/
inductive Converted (t : List (Str × Str)) : Str → Str → Prop
  | nil : Converted t [] []
  | char (c : Char) (s out : Str) : (∀ e ∈ t, ¬ StandsAt e.1 (c :: s)) → ¬ EscapeAt (c :: s) → Converted t s out → Converted t (c :: s) (c :: out)
  | symbol (k v br rest out : Str) (a b : List (Str × Str)) : t = a ++ (k, v) :: b → (∀ e ∈ a, ¬ StandsAt e.1 (k ++ (br ++ rest))) → (∀ e ∈ t, StandsAt e.1 (k ++ (br ++ rest)) → e.1.length ≤ k.length) →
      StandsAt k (k ++ (br ++ rest)) → (NameLike k ∧ br = "{}".toList ∨ br = [] ∧ (NameLike k → ¬ "{}".toList <+: rest)) → ¬ EscapeAt (k ++ (br ++ rest)) →
      (∀ x y, k ++ br = x ++ y → x ≠ [] → y ≠ [] → (∀ e ∈ t, ¬ StandsAt e.1 (y ++ rest)) ∧ ¬ EscapeAt (y ++ rest)) →
      strip k = k → ¬ "{}".toList <:+ k → (Early k → v ≠ [] ∧ ∀ c ∈ v, Foreign c) → Converted t rest out → Converted t (k ++ (br ++ rest)) (v ++ out)
  | escape (d rest out : Str) (c : Char) : 4 ≤ d.length → d.length ≤ 6 → (d.length < 6 → ∀ x ∈ rest.head?, ¬ HexDigit x) → HexNumber d c.toNat → Foreign c →
      Converted t rest out → Converted t ('\\' :: 'u' :: (d ++ rest)) (c :: out)

end L2J.Spec
