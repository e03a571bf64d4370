import Verif.Model.CodeBlock
import Verif.Spec.Nested
/-! What code in a text gives. -/
namespace L2J.Spec

/-- A verbatim text: what is written, the text that is the code, the title, and whether it stands in a line. -/
structure CodeText where
  written : Str
  code : Str
  title : Option Str
  inline : Bool

/-- The ways code is written. -/
inductive WrittenCode : CodeText → Prop
  /-- An environment `verbatim`, up to its first end. -/
  | verbatim (b t e) : IsDelim "\\begin".toList "verbatim".toList b → NoDelim "\\end".toList "verbatim".toList t → IsDelim "\\end".toList "verbatim".toList e →
      WrittenCode ⟨b ++ (t ++ e), t, none, false⟩
  /-- A listing. -/
  | listing (b t e) : IsDelim "\\begin".toList "lstlisting".toList b → NoDelim "\\end".toList "lstlisting".toList t → IsDelim "\\end".toList "lstlisting".toList e →
      t.head? ≠ some '[' → WrittenCode ⟨b ++ (t ++ e), t, none, false⟩
  /-- A listing with options. -/
  | options (b o t e) : IsDelim "\\begin".toList "lstlisting".toList b → NoDelim "\\end".toList "lstlisting".toList t → IsDelim "\\end".toList "lstlisting".toList e →
      ']' ∉ o → WrittenCode ⟨b ++ ('[' :: (o ++ ']' :: (t ++ e))), t, if o = [] then none else some o, false⟩
  /-- `\verb` with a character before and behind that is not in the text. -/
  | verb (d t) : Style.isLetter d = false → d ≠ '*' → d ∉ t → '\n' ∉ t → WrittenCode ⟨"\\verb".toList ++ (d :: (t ++ [d])), t, none, true⟩
  /-- The same with a star. -/
  | star (d t) : Style.isLetter d = false → d ∉ t → '\n' ∉ t → WrittenCode ⟨"\\verb*".toList ++ (d :: (t ++ [d])), t, none, true⟩

/-- The token is for this code; blanks around code and title do not count. -/
def TokenFor (c : CodeText) (t : Code.Tok) : Prop := t.content = strip c.code ∧ t.title = c.title.map strip ∧ t.inline = c.inline

end L2J.Spec
