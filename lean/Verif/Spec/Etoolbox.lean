import Verif.Model.Etoolbox
import Verif.Spec.Wrapped
/-! What etoolbox flags mean. -/
namespace L2J.Spec

/-- Commands that declare or assign flags. -/
inductive BoolCmd where
  | new (n : Str)
  | provide (n : Str)
  | set (n : Str) (v : Bool)
  | setTrue (n : Str)
  | setFalse (n : Str)

/-- Text in braces. -/
def braced (s : Str) : Str := '{' :: (s ++ ['}'])

/-- How they are written. -/
def BoolCmd.render : BoolCmd → Str
  | .new n => "\\newbool".toList ++ braced n
  | .provide n => "\\providebool".toList ++ braced n
  | .set n v => "\\setbool".toList ++ (braced n ++ braced (if v then "true".toList else "false".toList))
  | .setTrue n => "\\booltrue".toList ++ braced n
  | .setFalse n => "\\boolfalse".toList ++ braced n

/-- The flag a command is about. -/
def BoolCmd.flag : BoolCmd → Str
  | .new n => n
  | .provide n => n
  | .set n _ => n
  | .setTrue n => n
  | .setFalse n => n

/-- The value a command assigns, if it is an assignment. -/
def BoolCmd.assigns : BoolCmd → Option Bool
  | .set _ v => some v
  | .setTrue _ => some true
  | .setFalse _ => some false
  | _ => none

/-- The command declares its flag. -/
def BoolCmd.declares : BoolCmd → Bool
  | .new _ => true
  | .provide _ => true
  | _ => false

/-- Neither a (re)declaration by `\newbool` nor an assignment of flag `n`. -/
def BoolCmd.Leaves (n : Str) (c : BoolCmd) : Prop := c.flag = n → ∃ m, c = .provide m

end L2J.Spec
