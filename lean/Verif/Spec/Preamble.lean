import Verif.Props.C64j
/-! What a preamble consists of. -/
namespace L2J.Spec
open Cmds Defn

/-- How the use of a package or of anything else (`\usetikzlibrary`, `\usetheme`, …) is written. -/
structure UseText where
  word : Str
  ws : Str
  options : Option Str
  ws2 : Str
  names : Str

def UseText.written (u : UseText) : Str := u.word ++ (u.ws ++ (bracketed u.options ++ (u.ws2 ++ '{' :: (u.names ++ ['}']))))

def UseText.Ok (u : UseText) : Prop :=
  (u.word = "\\usepackage".toList ∨ u.word = "\\RequirePackage".toList ∨ ∃ n : Str, n ≠ [] ∧ (∀ c ∈ n, isLetter c = true) ∧ u.word = "\\use".toList ++ n) ∧
  Blank u.ws ∧ (∀ o ∈ u.options, ']' ∉ o) ∧ Blank u.ws2 ∧ (u.options = none → u.ws2 = []) ∧ u.names ≠ [] ∧ '}' ∉ u.names

/-- No word goes on. -/
def WordStops (s : Str) : Prop := ∀ c ∈ s.head?, isWord c = false

/-- Reading a preamble: its text, and the pieces of it that make up the definitions: uses of packages, definitions, and everything between
`\makeatletter` and `\makeatother`. -/
inductive Preamble : Str → List Str → Prop
  | done : Preamble [] []
  /-- Text (and blanks) between the commands. -/
  | text (t rest : Str) {ks} : '\\' ∉ t → Preamble rest ks → Preamble (t ++ rest) ks
  /-- `\%`, `\ `, … and `\\` before anything but a name. -/
  | symbol (c : Char) (rest : Str) {ks} : isNameChar c = false → c ≠ '\\' → Preamble rest ks → Preamble ('\\' :: c :: rest) ks
  | break_ (rest : Str) {ks} : NameEnds rest → Preamble rest ks → Preamble ('\\' :: '\\' :: rest) ks
  /-- Another command; what it is applied to is read as text. -/
  | cmd (n rest : Str) {ks} : n ≠ [] → (∀ c ∈ n, isNameChar c = true) → NameEnds rest → ¬ "use".toList <+: n → ¬ "RequirePackage".toList <+: n → ¬ "makeatletter".toList <+: n →
      Without defineWords ('\\' :: (n ++ rest)) → Preamble rest ks → Preamble ('\\' :: (n ++ rest)) ks
  /-- A command whose name begins like one that uses a package, but with nothing behind it that it could use. -/
  | unused (n rest : Str) {ks} : (∀ c ∈ n, isNameChar c = true) → NameEnds rest → (∀ c ∈ rest.head?, isSpace c = false ∧ c ≠ '[' ∧ c ≠ '{') →
      "use".toList <+: n ∨ "RequirePackage".toList <+: n → Without defineWords ('\\' :: (n ++ rest)) → Preamble rest ks → Preamble ('\\' :: (n ++ rest)) ks
  /-- A command whose name begins like the one that begins a block: a longer word, or nothing ends the block. -/
  | opened (m rest : Str) {ks} : (∀ c ∈ m, isNameChar c = true) → NameEnds rest → (∃ c ∈ m.head?, isWord c = true) ∨ ¬ Contains (m ++ rest) "\\makeatother".toList →
      Without defineWords ('\\' :: ("makeatletter".toList ++ m ++ rest)) → Preamble rest ks → Preamble ('\\' :: ("makeatletter".toList ++ m ++ rest)) ks
  | use (u : UseText) (rest : Str) {ks} : u.Ok → Preamble rest ks → Preamble (u.written ++ rest) (u.written :: ks)
  | block (b rest : Str) {ks} : WordStops b → ¬ Contains b "\\makeatother".toList → WordStops rest → Preamble rest ks →
      Preamble (("\\makeatletter".toList ++ b ++ "\\makeatother".toList) ++ rest) (("\\makeatletter".toList ++ b ++ "\\makeatother".toList) :: ks)
  | defn (t rest : Str) (tok : Defn.Tok) {ks} : Defines t rest tok → Preamble rest ks → Preamble (t ++ rest) (t :: ks)

/-- `s` is `pre`, the declaration of the class, and `body`; or `s` is `body`, no class being declared. -/
def Declares (s body : Str) : Prop :=
  (¬ Contains s "\\documentclass".toList ∧ s = body) ∨
  ∃ pre, ∃ p : PackageText, ¬ Contains pre "\\documentclass".toList ∧ p.word = "\\documentclass" ∧ p.Ok ∧ s = pre ++ (p.written ++ body)

/-- `\begin{document}`, with blanks before the brace. -/
def isBeginDocument (t : Str) : Prop := ∃ ws, Blank ws ∧ t = "\\begin".toList ++ (ws ++ "{document}".toList)

/-- `a` is what stands before the first `\begin{document}` of `s`. -/
def BeforeDocument (s a : Str) : Prop :=
  (s = a ∧ ∀ t, isBeginDocument t → ¬ Contains s t) ∨
  ∃ t b, isBeginDocument t ∧ s = a ++ t ++ b ∧ ∀ a' t' b', isBeginDocument t' → s = a' ++ t' ++ b' → a.length ≤ a'.length

end L2J.Spec
