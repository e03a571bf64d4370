import Verif.Model.Encoding
/-! What the text of a file is. -/
namespace L2J.Spec
open Enc

/-- The UTF-8 bytes of a text. -/
def utf8Bytes (s : Str) : Bytes := s.flatMap String.utf8EncodeChar

/-- Universal newlines: `\r\n` and a `\r` without it become `\n`; the rest stays. -/
inductive Newlines : Str → Str → Prop
  | done : Newlines [] []
  | crlf {s t} : Newlines s t → Newlines ('\r' :: '\n' :: s) ('\n' :: t)
  | cr {s t} : s.head? ≠ some '\n' → Newlines s t → Newlines ('\r' :: s) ('\n' :: t)
  | other (c : Char) {s t} : c ≠ '\r' → Newlines s t → Newlines (c :: s) (c :: t)

/-- These bytes are how a character begins, or all of it. -/
def Begins (p : Bytes) : Prop := ∃ c, p <+: String.utf8EncodeChar c

/-- Reading damaged UTF-8: every character that is there is kept; where there is none, one U+FFFD is put for the longest beginning of a character that stands there, or
for a single byte that begins none (the practice that the Unicode standard recommends). -/
inductive Damaged : Bytes → Str → Prop
  | done : Damaged [] []
  | char (c : Char) {b s} : Damaged b s → Damaged (String.utf8EncodeChar c ++ b) (c :: s)
  | bad (x b : Bytes) {s} : x ≠ [] → (x.length = 1 ∨ Begins x) → (∀ p, p <+: x ++ b → Begins p → p.length ≤ x.length) →
      (∀ c, ¬ String.utf8EncodeChar c <+: x ++ b) → Damaged b s → Damaged (x ++ b) ('\uFFFD' :: s)

/-- The first 10000 bytes look like ASCII or UTF-8, or like nothing known. -/
def LooksUtf8 (chardet : Chardet) (file : Bytes) : Prop :=
  file = [] ∨ (chardet (file.take 10000)).1 = none ∨ (chardet (file.take 10000)).2 < 1 / 2 ∨ (chardet (file.take 10000)).1 = some "ascii" ∨ (chardet (file.take 10000)).1 = some "utf-8"

/-- The first 10000 bytes look like the encoding `e`, with enough confidence. -/
def Looks (chardet : Chardet) (file : Bytes) (e : String) : Prop :=
  file ≠ [] ∧ (chardet (file.take 10000)).1 = some e ∧ ¬ (chardet (file.take 10000)).2 < 1 / 2

end L2J.Spec
