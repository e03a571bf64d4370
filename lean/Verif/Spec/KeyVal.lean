import Verif.Model.KeyVal
import Verif.Spec.Wrapped
/-! What keyval commands mean. -/
namespace L2J.Spec

/-- A definition of a key: family, key, default, code. -/
structure KeyDefine where
  family : Str
  key : Str
  default : Option Str
  code : Str

/-- How it is written. -/
def KeyDefine.render (d : KeyDefine) : Str :=
  "\\define@key".toList ++ (wrapAll '{' '}' [([], d.family), ([], d.key)] ++
    (match d.default with | none => [] | some x => wrapAll '[' ']' [([], x)]) ++ wrapAll '{' '}' [([], d.code)])

/-- It can be written. -/
def KeyDefine.Ok (d : KeyDefine) : Prop :=
  Wrappable '{' '}' d.family ∧ Wrappable '{' '}' d.key ∧ (∀ x, d.default = some x → Wrappable '[' ']' x) ∧ Wrappable '{' '}' d.code

/-- The latest definition of a key in a family. -/
def latest (family key : Str) (ds : List KeyDefine) : Option KeyDefine :=
  (ds.filter fun d => d.family = family ∧ d.key = key).getLast?

/-- A list of settings `k1=v1,k2,...`. -/
def renderSettings : List (Str × Option Str) → Str
  | [] => []
  | [(k, none)] => k
  | [(k, some v)] => k ++ '=' :: v
  | (k, none) :: l => k ++ ',' :: renderSettings l
  | (k, some v) :: l => k ++ '=' :: (v ++ ',' :: renderSettings l)

/-- A key without `=`, commas and blanks; a value without commas. -/
def SettingOk (e : Str × Option Str) : Prop :=
  e.1 ≠ [] ∧ (∀ c ∈ e.1, c ≠ '=' ∧ c ≠ ',' ∧ isSpace c = false) ∧ ∀ v, e.2 = some v → v ≠ [] ∧ ',' ∉ v

end L2J.Spec
