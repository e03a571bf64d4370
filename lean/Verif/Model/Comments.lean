import Verif.Model.Delim
/- Model of comment handling in latex2json/utils/tex_utils.py. -/
namespace L2J

/-- tex_utils.py:341-353: the inner `while` loop of `strip_latex_comments`; copies characters up to
the first unescaped `%`. -/
def stripCommentLoop (rev : Str) : Str → Str
  | [] => []
  | x :: rest =>
    if x == '%' then
      if !isEscaped rev then [] else '%' :: stripCommentLoop (x :: rev) rest
    else x :: stripCommentLoop (x :: rev) rest

/-- tex_utils.py:325-356 `strip_latex_comments`. -/
def stripLatexComments (text : Str) : Str :=
  joinWith ['\n'] ((splitLines text).map fun line => rstrip (stripCommentLoop [] line))

/-- tex_utils.py:300-307: scan of `has_comment_on_sameline`; `prev` is the previous character. -/
def hasCommentLoop (prev : Option Char) : Str → Bool
  | [] => false
  | x :: rest => if x == '%' && prev != some '\\' then true else hasCommentLoop (some x) rest

/-- tex_utils.py:288-307 `has_comment_on_sameline(content, pos)`: `line_before` is the part of
`content[:pos]` after its last newline. -/
def hasCommentOnSameLine (content : Str) (pos : Nat) : Bool :=
  hasCommentLoop none ((content.take pos).reverse.takeWhile (· != '\n')).reverse

end L2J
