import Verif.Spec.Nested
import Verif.Spec.Wrapped
import Verif.Spec.Definitions
import Verif.Model.Packages
/-! How pictures, titles and loops are written. -/
namespace L2J.Spec

/-- A picture of the environment `name` with the content `body`. -/
inductive PictureText (name : Str) : Str → Str → Prop
  | mk (b body e : Str) : IsDelim "\\begin".toList name b → EnvBody name body → IsDelim "\\end".toList name e → PictureText name (b ++ body ++ e) body

/-- The environments for pictures. -/
def pictureNames : List String := ["tikzpicture", "picture", "pgfpicture"]

/-- Arguments of a command: `{` stands for one in braces, `[` for one in brackets that may be left out. Blanks may stand before each. -/
inductive ArgsText : Str → Str → Prop
  | nil : ArgsText [] []
  | braces (ws x p t : Str) : Blank ws → Wrappable '{' '}' x → ArgsText p t → ArgsText ('{' :: p) (ws ++ '{' :: (x ++ '}' :: t))
  | brackets (ws x p t : Str) : Blank ws → Wrappable '[' ']' x → ArgsText p t → ArgsText ('[' :: p) (ws ++ '[' :: (x ++ ']' :: t))
  | without (p t : Str) : ArgsText ('{' :: p) t → ArgsText ('[' :: '{' :: p) t

/-- The commands for titles of sections, with their arguments. -/
inductive TitleText : Str → Prop
  | format (t) : ArgsText "{[{{{{".toList t → TitleText ("\\titleformat".toList ++ t)
  | spacing (star : Bool) (t) : ArgsText "{{{{".toList t → TitleText ("\\titlespacing".toList ++ ((if star then ['*'] else []) ++ t))
  | label (t) : ArgsText "{".toList t → TitleText ("\\titlelabel".toList ++ t)
  | contents (t) : ArgsText "{[{{{{".toList t → TitleText ("\\titlecontents".toList ++ t)
  | line (t) : ArgsText "{".toList t → TitleText ("\\titleline".toList ++ t)
  | lineAt (ws x t) : Blank ws → ']' ∉ x → ArgsText "{".toList t → TitleText ("\\titleline".toList ++ (ws ++ '[' :: (x ++ ']' :: t)))

/-- Settings of the graphics packages: a group. -/
inductive SettingText : Str → Prop
  | library (w : String) (ws x) : w ∈ ["tikz", "pgf", "pgfplots"] → Blank ws → Wrappable '{' '}' x →
      SettingText ("\\use".toList ++ (w.toList ++ ("library".toList ++ (ws ++ '{' :: (x ++ ['}'])))))
  | plots (ws x) : Blank ws → Wrappable '{' '}' x → SettingText ("\\pgfplotsset".toList ++ (ws ++ '{' :: (x ++ ['}'])))

/-- The content of an overpic: options, the file, and what is drawn over it. -/
inductive OverpicBody : Str → Str → Prop
  | mk (options : List (Str × Str)) (ws file over : Str) : options.length ≤ 1 → WellWrapped '[' ']' options → Blank ws → Wrappable '{' '}' file →
      OverpicBody (wrapAll '[' ']' options ++ (ws ++ '{' :: (file ++ '}' :: over))) file

/-- What the packages for graphics and titles are written with, and the token it stands for. -/
inductive GraphicsText : Str → Option Pkg.Tok → Prop
  | picture (name : String) (p body : Str) : name ∈ pictureNames → PictureText name.toList p body → GraphicsText p (some (.diagram name.toList (strip body)))
  | overpic (p body file : Str) : PictureText "overpic".toList p body → OverpicBody (strip body) file → GraphicsText p (some (.graphic file))
  | setting (t : Str) : SettingText t → GraphicsText t none
  | title (t : Str) : TitleText t → GraphicsText t none

end L2J.Spec
