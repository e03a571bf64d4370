import Verif.Model.Regex
/-! Model of `normalize_whitespace_and_lines`, latex2json/utils/tex_utils.py:201-219. -/
namespace L2J

/-- The class `[ \t]` of the patterns at tex_utils.py:205, :208, :211. -/
def isBlank (c : Char) : Bool := c == ' ' || c == '\t'

/-- `[ \t]*\n[ \t]*`, tex_utils.py:208. -/
def nlRe : Re := .seq (.star (.chr isBlank)) (.seq (.chr (· == '\n')) (.star (.chr isBlank)))

/-- `(?:[ \t]*\n[ \t]*){2,}`, tex_utils.py:205. -/
def paraRe : Re := .seq nlRe (.seq nlRe (.star nlRe))

/-- `[ \t]+`, tex_utils.py:211. -/
def blanksRe : Re := Re.plus (.chr isBlank)

/-- The marker of tex_utils.py:204. -/
def paraMarker : Str := "<PARA_BREAK>".toList

/-- `normalize_whitespace_and_lines`, tex_utils.py:201-217. -/
def normalizeWs (text : Str) : Str :=
  let t1 := paraRe.sub (fun _ => paraMarker) text
  let t2 := nlRe.sub (fun _ => [' ']) t1
  let t3 := blanksRe.sub (fun _ => [' ']) t2
  strip (replace t3 paraMarker ['\n'])

end L2J
