import Verif.Spec.Wrapped
import Verif.Model.Commands
import Verif.Model.PyStr
/-! What accents are in LaTeX and how they are written. -/
namespace L2J.Spec

/-- The commands for accents and the Unicode characters that put the accent on the character before. -/
def accentTable : List (String × Nat) :=
  [("'", 0x301), ("`", 0x300), ("\"", 0x308), ("^", 0x302), ("~", 0x303), ("=", 0x304), (".", 0x307),
   ("H", 0x30B), ("b", 0x331), ("c", 0x327), ("d", 0x323), ("k", 0x328), ("r", 0x30A), ("u", 0x306), ("v", 0x30C),
   ("acute", 0x301), ("bar", 0x305), ("breve", 0x306), ("check", 0x30C), ("ddot", 0x308), ("dot", 0x307), ("grave", 0x300), ("hat", 0x302),
   ("not", 0x338), ("tilde", 0x303), ("vec", 0x20D7)]

/-- How the argument of an accent is written, and what gets the accent: a group, or a character. A character right behind a name is no letter. -/
inductive AccentArg (k : String) : Str → Str → Prop
  | group (ws body : Str) : (∀ c ∈ ws, isSpace c = true) → Wrappable '{' '}' body → body ≠ [] → AccentArg k (ws ++ '{' :: (body ++ ['}'])) (strip body)
  | char (ws : Str) (c : Char) : (∀ c ∈ ws, isSpace c = true) → isSpace c = false → c ≠ '{' → c ≠ '\\' →
      (ws = [] → (∀ a ∈ k.toList.head?, Cmds.isLetter a = true) → Cmds.isNameChar c = false) → AccentArg k (ws ++ [c]) [c]

/-- An accent on the first character of a text. -/
def withAccent (nfc : Str → Str) (mark : Nat) : Str → Str
  | [] => []
  | c :: rest => nfc [c, Char.ofNat mark] ++ rest

end L2J.Spec
