import Verif.Model.Parser
import Verif.Model.Nested
/-
Model of latex2json/parser/handlers/diacritics.py: `convert_tex_diacritics`. The accents, the patterns and the handler are in
Model/Parser. `nfc` is `unicodedata.normalize("NFC", _)`, not modelled.
-/
namespace L2J.Psr

/-- `convert_tex_diacritics`, diacritics.py:90-95; `none`: the loop does not end. -/
def convertAccents (nfc : Str → Str) (text : Str) : Option Str :=
  substPatterns Match.start (fun t => t.length + 1)
    (accents.map fun a => (a.2.search, fun s m => (applyAccent nfc (accented s m).1 a.1, (accented s m).2))) text

end L2J.Psr
