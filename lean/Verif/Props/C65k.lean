import Verif.Props.C65x
/-! C65: the parser as a whole. `Spec.Reading` says, rule by rule, what a document is read to; the theorem says that the parser does so. -/
namespace L2J.Psr
open Cmds Defn L2J.Spec

/-- What is to be read: a text, with the tokens before it and whether a blank stands before it; or a token whose texts are still to be read, with
whether it is an environment or an item, and the tokens before it; or such a token of which only the title is still to be read; or tokens
with a style, which are gone through a second time. -/
inductive _root_.L2J.Spec.Job where
  | text (toks : List Tok) (space : Bool) (s : Str)
  | token (body : Bool) (t : Tok) (toks : List Tok)
  | titled (t : Tok) (toks : List Tok)
  | tokens (ts toks : List Tok)

/-- The token a command with a content stands for. -/
def _root_.L2J.Spec.said (id : Nat) (t : Content.CTok) : Tok :=
  .mk id t.type (match t.content with | .absent => .absent | .str s => .str s | .keys l => .strs l)
    (optField "title" (t.title.map .str) ++ optField "level" (t.level.map .num) ++ optField "numbered" (t.numbered.map .flag) ++ optField "page" (t.page.map .num) ++
      optField "pages" (t.pages.map .str)) none

/-- No definition, no handler and no pattern of the parser is for the command `\w`. -/
structure _root_.L2J.Spec.Strange (h : List (Def × Bool)) (w rest : Str) : Prop where
  passed : Passed h w rest
  handlers : Unhandled w rest
  last : Without lastHeads ('\\' :: (w ++ rest))

/-- How a document is read. `conv` is the conversion of commands for characters, `nfc` the composition of characters with accents. -/
inductive _root_.L2J.Spec.Reading (conv nfc : Str → Str) : Doc → Job → Doc → List Tok → Prop
  /-- Nothing is left but blanks. -/
  | done (c : Doc) (toks : List Tok) (space : Bool) (ws : Str) : Blank ws → Reading conv nfc c (.text toks space ws) c toks
  /-- Blanks. -/
  | blank {c c' : Doc} {toks toks' : List Tok} {space : Bool} (ws rest : Str) : Blank ws → ws ≠ [] → Reading conv nfc c (.text toks true rest) c' toks' → Reading conv nfc c (.text toks space (ws ++ rest)) c' toks'
  /-- Running text is converted and added to the text before it. -/
  | text {c c' : Doc} {toks toks1 toks' : List Tok} {space : Bool} (x rest : Str) (a z : Char) (n : Nat) : Chunk x → x.head? = some a → isSpace a = false → x.getLast? = some z → Follows x rest →
      Unmet c.defs x → AddsText space c.next (conv x) toks toks1 n → Reading conv nfc { c with next := n } (.text toks1 (isSpace z) rest) c' toks' → Reading conv nfc c (.text toks space (x ++ rest)) c' toks'
  /-- A group is read on its own and its tokens are added. -/
  | group {c c1 c' : Doc} {toks toks1 toks' l : List Tok} {space : Bool} (x rest : Str) : Wrappable '{' '}' x → Reading conv nfc c (.text [] false (stripLatexComments x)) c1 l → AddsAll l toks toks1 →
      Reading conv nfc c1 (.text toks1 false rest) c' toks' → Reading conv nfc c (.text toks space ('{' :: (x ++ '}' :: rest))) c' toks'
  /-- A line break, with a distance or without one. -/
  | break {c c' : Doc} {toks toks1 toks' : List Tok} {space : Bool} (d rest : Str) (n : Nat) : (∀ x ∈ c.defs, ¬ Meant x.1 ['\\']) → Distance d rest → (∀ a ∈ (d ++ rest).head?, oddLetter a = false) →
      AddsText false c.next ['\n'] toks toks1 n → Reading conv nfc { c with next := n } (.text toks1 false rest) c' toks' → Reading conv nfc c (.text toks space ('\\' :: '\\' :: (d ++ rest))) c' toks'
  /-- A label. -/
  | label {c c' : Doc} {toks toks1 toks' : List Tok} {space : Bool} (ws l rest : Str) (ls : List (Nat × Str)) (n : Nat) : Blank ws → Wrappable '{' '}' l → l ≠ [] →
      (∀ x ∈ c.defs, ¬ Meant x.1 "label".toList) → ¬ Contains (ws ++ '{' :: (l ++ '}' :: rest)) "\\endlabel".toList → Labels l toks c.labels c.cur c.next ls toks1 n →
      Reading conv nfc { c with labels := ls, next := n } (.text toks1 false rest) c' toks' → Reading conv nfc c (.text toks space ("\\label".toList ++ (ws ++ '{' :: (l ++ '}' :: rest)))) c' toks'
  /-- A command that is not known, without an argument. -/
  | bare {c c' : Doc} {toks toks1 toks' : List Tok} {space : Bool} (w star rest : Str) (t : Tok) : (star = [] ∨ star = ['*']) → (∀ a ∈ rest.head?, isNameChar a = false ∧ a ≠ '*') →
      (¬ ∃ ws t, Blank ws ∧ rest = ws ++ '{' :: t) → Strange c.defs w (star ++ rest) → Unmet c.defs ('\\' :: (w ++ star)) → Named c.next ('\\' :: (w ++ star)) (conv ('\\' :: (w ++ star))) t →
      Adds false t toks toks1 → Reading conv nfc { c with next := c.next + 1 } (.text toks1 false rest) c' toks' → Reading conv nfc c (.text toks space ('\\' :: (w ++ (star ++ rest)))) c' toks'
  /-- A command that is not known, with an argument: it is kept as it is. -/
  | arg {c c' : Doc} {toks toks1 toks' : List Tok} {space : Bool} (w star ws x rest : Str) (t : Tok) : (star = [] ∨ star = ['*']) → Blank ws → Wrappable '{' '}' x →
      Strange c.defs w (star ++ (ws ++ '{' :: (x ++ '}' :: rest))) → Unmet c.defs ('\\' :: (w ++ (star ++ (ws ++ '{' :: (x ++ ['}']))))) →
      Named c.next ('\\' :: (w ++ (star ++ ws))) (conv ('\\' :: (w ++ (star ++ (ws ++ '{' :: (x ++ ['}'])))))) t →
      Adds false t toks toks1 → Reading conv nfc { c with next := c.next + 1 } (.text toks1 false rest) c' toks' →
      Reading conv nfc c (.text toks space ('\\' :: (w ++ (star ++ (ws ++ '{' :: (x ++ '}' :: rest)))))) c' toks'
  /-- A heading, a note, a reference, a citation, a link …: its texts are read. -/
  | says {c c1 c' : Doc} {toks toks1 toks' : List Tok} {space : Bool} (w arg rest : Str) (t : Content.CTok) : Says w arg t → (∀ x ∈ c.defs, ¬ Meant x.1 w) →
      Reading conv nfc { c with next := c.next + 1 } (.token false (said c.next t) toks) c1 toks1 → Reading conv nfc c1 (.text toks1 false rest) c' toks' →
      Reading conv nfc c (.text toks space ('\\' :: (w ++ (arg ++ rest)))) c' toks'
  /-- The title of a heading is read; labels go to the heading from now on. -/
  | heading {c c' : Doc} {l : List Tok} (id : Nat) (type : Str) (v : Val) (x : Str) (fs : List (Str × Val)) (toks : List Tok) : (type = "section".toList ∨ type = "paragraph".toList) →
      (∀ e ∈ fs, e.1 ≠ titleKey) → Reading conv nfc { c with cur := some id } (.text [] false (stripLatexComments x)) c' l →
      Reading conv nfc c (.token false (.mk id type v ((titleKey, .str x) :: fs) none) toks) c' (toks ++ [.mk id type v ((titleKey, .toks l) :: fs) none])
  /-- The text of a footnote or a caption is read; labels go to it from now on. -/
  | note {c c' : Doc} {l : List Tok} (id : Nat) (type x : Str) (fs : List (Str × Val)) (toks : List Tok) : (type = "footnote".toList ∨ type = "caption".toList) →
      Reading conv nfc { c with cur := some id } (.text [] false (stripLatexComments x)) c' l → Reading conv nfc c (.token false (.mk id type (.str x) fs none) toks) c' (toks ++ [.mk id type (.toks l) fs none])
  /-- The title of the document or an abstract is read. -/
  | title {body : Bool} {c c' : Doc} {l : List Tok} (id : Nat) (type x : Str) (fs : List (Str × Val)) (toks : List Tok) : (type = "title".toList ∨ type = "abstract".toList) →
      Reading conv nfc c (.text [] false (stripLatexComments x)) c' l → Reading conv nfc c (.token body (.mk id type (.str x) fs none) toks) c' (toks ++ [.mk id type (.toks l) fs none])
  /-- Keywords and the names of pictures are not read. -/
  | asis {c : Doc} (id : Nat) (type : Str) (v : Val) (fs : List (Str × Val)) (toks : List Tok) : type ∈ ["keywords", "includegraphics", "includepdf", "appendix"].map String.toList →
      Reading conv nfc c (.token false (.mk id type v fs none) toks) c (toks ++ [.mk id type v fs none])
  /-- A citation. -/
  | cite {c : Doc} (id : Nat) (v : Val) (fs : List (Str × Val)) (toks : List Tok) : (∀ e ∈ fs, e.1 ≠ titleKey) →
      Reading conv nfc c (.token false (.mk id "citation".toList v fs none) toks) c (toks ++ [.mk id "citation".toList v fs none])
  /-- The notes of a citation are read. -/
  | citeNotes {c c' : Doc} {l : List Tok} (id : Nat) (v : Val) (x : Str) (fs : List (Str × Val)) (toks : List Tok) : (∀ e ∈ fs, e.1 ≠ titleKey) →
      Reading conv nfc c (.text [] false (stripLatexComments x)) c' l →
      Reading conv nfc c (.token false (.mk id "citation".toList v ((titleKey, .str x) :: fs) none) toks) c' (toks ++ [.mk id "citation".toList v ((titleKey, .toks l) :: fs) none])
  /-- A reference: its keys are converted. -/
  | ref {c : Doc} (id : Nat) (keys : List Str) (fs : List (Str × Val)) (toks : List Tok) : (∀ x ∈ keys, Unmet c.defs x) → (∀ e ∈ fs, e.1 ≠ titleKey) →
      Reading conv nfc c (.token false (.mk id "ref".toList (.strs keys) fs none) toks) c (toks ++ [.mk id "ref".toList (.strs (keys.map conv)) fs none])
  /-- A reference with a text of its own. -/
  | refTitled {c c' : Doc} {l : List Tok} (id : Nat) (keys : List Str) (x : Str) (fs : List (Str × Val)) (toks : List Tok) : (∀ x ∈ keys, Unmet c.defs x) → (∀ e ∈ fs, e.1 ≠ titleKey) →
      Reading conv nfc c (.text [] false (stripLatexComments x)) c' l →
      Reading conv nfc c (.token false (.mk id "ref".toList (.strs keys) ((titleKey, .str x) :: fs) none) toks) c' (toks ++ [.mk id "ref".toList (.strs (keys.map conv)) ((titleKey, .toks l) :: fs) none])
  /-- A link: its address is converted. -/
  | url {c : Doc} (id : Nat) (a : Str) (fs : List (Str × Val)) (toks : List Tok) : Unmet c.defs a → (∀ e ∈ fs, e.1 ≠ titleKey) →
      Reading conv nfc c (.token false (.mk id "url".toList (.str a) fs none) toks) c (toks ++ [.mk id "url".toList (.str (conv a)) fs none])
  /-- A link with a text of its own. -/
  | urlTitled {c c' : Doc} {l : List Tok} (id : Nat) (a x : Str) (fs : List (Str × Val)) (toks : List Tok) : Unmet c'.defs a → (∀ e ∈ fs, e.1 ≠ titleKey) →
      Reading conv nfc c (.text [] false (stripLatexComments x)) c' l →
      Reading conv nfc c (.token false (.mk id "url".toList (.str a) ((titleKey, .str x) :: fs) none) toks) c' (toks ++ [.mk id "url".toList (.str (conv a)) ((titleKey, .toks l) :: fs) none])
  /-- An environment that is not user-defined: a token with its type, name, number, title, arguments and body. -/
  | env {c c1 c' : Doc} {toks toks1 toks' : List Tok} {space : Bool} (r : EnvRow) (name b e rest : Str) (u : EnvInner) :
      ('\\' ∉ name ∧ '}' ∉ name ∧ strip name = name ∧ name ≠ "comment".toList) → Plainly name → (∀ x ∈ c.defs, ¬ Meant x.1 "begin".toList) → Dict.get? c.env.envs name = none →
      Describes r (goesBy (Dict.get? c.env.thms) name) → u.Fits r.reqs → EnvBody name u.render → IsDelim "\\begin".toList name b → IsDelim "\\end".toList name e →
      Reading conv nfc { c with next := c.next + 1 } (.token true (placed c.next (envExpected (Dict.get? c.env.thms) (Dict.get? c.env.floats) r name u)) toks) c1 toks1 →
      Reading conv nfc c1 (.text toks1 false rest) c' toks' → Reading conv nfc c (.text toks space (b ++ (u.render ++ (e ++ rest)))) c' toks'
  /-- An item of a list. It reaches to the next one, or to the end of the list. -/
  | item {c c1 c' : Doc} {toks toks1 toks' : List Tok} {space : Bool} (i : ListItem) (next : Str) (t : EnvT.Item) (z : Char) : i.Ok → (next = [] ∨ EnvT.isItem next = true) →
      NoPairs (i.render ++ next) → NameEnds (i.after ++ next) → (∀ a ∈ (i.after ++ next).head?, oddLetter a = false) → (∀ x ∈ c.defs, ¬ Meant x.1 "item".toList) → i.token = some t →
      i.render.getLast? = some z → Reading conv nfc { c with next := c.next + 1 } (.token true (listed c.next t) toks) c1 toks1 →
      Reading conv nfc c1 (.text toks1 (isSpace z) next) c' toks' → Reading conv nfc c (.text toks space (i.render ++ next)) c' toks'
  /-- An item without a body is left out. -/
  | itemEmpty {c c' : Doc} {toks toks' : List Tok} {space : Bool} (i : ListItem) (next : Str) (z : Char) : i.Ok → (next = [] ∨ EnvT.isItem next = true) →
      NoPairs (i.render ++ next) → NameEnds (i.after ++ next) → (∀ a ∈ (i.after ++ next).head?, oddLetter a = false) → (∀ x ∈ c.defs, ¬ Meant x.1 "item".toList) → i.token = none →
      i.render.getLast? = some z → Reading conv nfc c (.text toks (isSpace z) next) c' toks' → Reading conv nfc c (.text toks space (i.render ++ next)) c' toks'
  /-- The body of an environment or item is read; labels in it go to it, and afterwards to what they went to before. -/
  | body {c c1 c' : Doc} {l toks' : List Tok} (id : Nat) (type x : Str) (fs : List (Str × Val)) (sty : Option (List Str)) (toks : List Tok) : type ∉ ownTypes →
      (type ≠ "algorithmic".toList ∧ type ≠ "tabular".toList) → x ≠ [] → Reading conv nfc { c with cur := some id } (.text [] false (stripLatexComments x)) c1 l →
      Reading conv nfc { c1 with cur := c.cur } (.titled (.mk id type (.toks l) fs sty) toks) c' toks' → Reading conv nfc c (.token true (.mk id type (.str x) fs sty) toks) c' toks'
  /-- An empty body, and that of an algorithm, is not read. -/
  | raw {c c' : Doc} {toks' : List Tok} (id : Nat) (type x : Str) (fs : List (Str × Val)) (sty : Option (List Str)) (toks : List Tok) : type ∉ ownTypes →
      (type = "algorithmic".toList ∨ type = "tabular".toList ∨ x = []) → Reading conv nfc c (.titled (.mk id type (.str x) fs sty) toks) c' toks' →
      Reading conv nfc c (.token true (.mk id type (.str x) fs sty) toks) c' toks'
  /-- No title. -/
  | untitled {c : Doc} {toks' : List Tok} (t : Tok) (toks : List Tok) : (∀ e ∈ t.fields, e.1 ≠ titleKey) → Adds false t toks toks' → Reading conv nfc c (.titled t toks) c toks'
  /-- The title of an environment or item is read. -/
  | titled {c c' : Doc} {l toks' : List Tok} (id : Nat) (type : Str) (v : Val) (y : Str) (fs gs : List (Str × Val)) (sty : Option (List Str)) (toks : List Tok) : (∀ e ∈ fs ++ gs, e.1 ≠ titleKey) →
      Reading conv nfc c (.text [] false (stripLatexComments y)) c' l → Adds false (.mk id type v (fs ++ (titleKey, .toks l) :: gs) sty) toks toks' →
      Reading conv nfc c (.titled (.mk id type v (fs ++ (titleKey, .str y) :: gs) sty) toks) c' toks'
  /-- A user-defined command: what it stands for is read in its place. -/
  | use {c c' : Doc} {toks toks' : List Tok} {space : Bool} (w arg rest out : Str) : Expands c.defs w arg rest out → Without effectWords ('\\' :: (w ++ (arg ++ rest))) →
      Reading conv nfc c (.text toks space (out ++ rest)) c' toks' → Reading conv nfc c (.text toks space ('\\' :: (w ++ (arg ++ rest)))) c' toks'
  /-- A definition is learned and leaves nothing. -/
  | define {c c' : Doc} {toks toks' : List Tok} {space : Bool} (w arg rest : Str) (tok : Defn.Tok) (z : Char) : Defines ('\\' :: (w ++ arg)) rest tok → Ends w (arg ++ rest) →
      (∀ x ∈ c.defs, ¬ Meant x.1 w) → (∀ x ∈ entered tok false, PlainDef x.1 ∧ Settled x.1 false) → (∀ n, tok = .cmd (.newif n) → n ∉ whitelisted) → ('\\' :: (w ++ arg)).getLast? = some z →
      Reading conv nfc (c.learned tok) (.text toks (isSpace z) rest) c' toks' → Reading conv nfc c (.text toks space ('\\' :: (w ++ (arg ++ rest)))) c' toks'
  /-- A conditional: one of its texts is read. -/
  | cond {c c' : Doc} {toks toks' : List Tok} {space : Bool} (s out rest : Str) : Chosen c.defs s out rest → Reading conv nfc c (.text toks space (out ++ rest)) c' toks' →
      Reading conv nfc c (.text toks space ('\\' :: s)) c' toks'
  /-- A switch for a font, a size or a colour: the command it stands for is read in its place. -/
  | switch {c c' : Doc} {toks toks' : List Tok} {space : Bool} (w x out rest : Str) : Switched ('\\' :: (w ++ x)) out rest → Ends w x → (∀ y ∈ c.defs, ¬ Meant y.1 w) →
      Reading conv nfc c (.text toks space (out ++ rest)) c' toks' → Reading conv nfc c (.text toks space ('\\' :: (w ++ x))) c' toks'
  /-- Styled text: the argument is read on its own, its tokens get the style and are gone through again. -/
  | styled {c c1 c2 c' : Doc} {toks toks2 toks' l l2 : List Tok} {space : Bool} (n : String) (sty : Option String) (arg body rest : Str) : (n, sty) ∈ styleTable → (n ≠ "textup" ∧ n ≠ "textnormal") →
      StyleArg rest arg body → strip body ≠ [] → (∀ x ∈ c.defs, ¬ Meant x.1 n.toList) → ¬ Contains (arg ++ rest) ("\\end".toList ++ n.toList) →
      Reading conv nfc c (.text [] false (stripLatexComments body)) c1 l → StyledToks (sty.map String.toList) l l2 → Reading conv nfc c1 (.tokens l2 toks) c2 toks2 →
      Reading conv nfc c2 (.text toks2 false rest) c' toks' → Reading conv nfc c (.text toks space ('\\' :: (n.toList ++ (arg ++ rest)))) c' toks'
  /-- Styled text that is blank is left out. -/
  | styledEmpty {c c' : Doc} {toks toks' : List Tok} {space : Bool} (n : String) (sty : Option String) (arg body rest : Str) : (n, sty) ∈ styleTable → (n ≠ "textup" ∧ n ≠ "textnormal") →
      StyleArg rest arg body → strip body = [] → (∀ x ∈ c.defs, ¬ Meant x.1 n.toList) → ¬ Contains (arg ++ rest) ("\\end".toList ++ n.toList) →
      Reading conv nfc c (.text toks false rest) c' toks' → Reading conv nfc c (.text toks space ('\\' :: (n.toList ++ (arg ++ rest)))) c' toks'
  | tokensNil {c : Doc} (toks : List Tok) : Reading conv nfc c (.tokens [] toks) c toks
  | tokensCons {c c1 c' : Doc} {toks1 toks' : List Tok} (t : Tok) (ts toks : List Tok) : Reading conv nfc c (.token false t toks) c1 toks1 → Reading conv nfc c1 (.tokens ts toks1) c' toks' →
      Reading conv nfc c (.tokens (t :: ts) toks) c' toks'
  /-- Text, environments, items, formulas … are added as they are. -/
  | ready {c : Doc} {toks' : List Tok} (t : Tok) (toks : List Tok) : t.type ∉ ownTypes → Adds false t toks toks' → Reading conv nfc c (.token false t toks) c toks'
  /-- A formula: a token with the formula in it. -/
  | formula {c c' : Doc} {toks toks' : List Tok} {space : Bool} (w : Formula) (rest : Str) (q : Option Eqn.Tok) : w.Ok → FormulaReads c.defs w q → (∀ m ∈ formulaNames, ∀ x ∈ c.defs, ¬ Meant x.1 m) →
      Reading conv nfc { c with next := c.next + q.toList.length } (.text (toks ++ equations c.next q) false rest) c' toks' → Reading conv nfc c (.text toks space (w.render ++ rest)) c' toks'
  /-- A layout command: a blank, a line break or nothing is left of it. -/
  | layout {c c' : Doc} {toks toks1 toks' : List Tok} {space : Bool} (w x rest out : Str) (z : Char) (n : Nat) : Layout ('\\' :: (w ++ x)) rest out → Ends w (x ++ rest) → (∀ v ∈ oddLayout, '\\' :: w ≠ v.toList) →
      (∀ y ∈ c.defs, ¬ Meant y.1 w) → ¬ Contains (x ++ rest) ("\\end".toList ++ w) → (∀ a ∈ (x ++ rest).head?, oddLetter a = false) → AddsText false c.next out toks toks1 n →
      ('\\' :: (w ++ x)).getLast? = some z → Reading conv nfc { c with next := n } (.text toks1 (isSpace z) rest) c' toks' → Reading conv nfc c (.text toks space ('\\' :: (w ++ (x ++ rest)))) c' toks'
  /-- An accent: a text with the accent on its first character. -/
  | accent {c c' : Doc} {toks toks1 toks' : List Tok} {space : Bool} (a : String) (mark : Nat) (arg base rest : Str) : (a, mark) ∈ accentTable → a ≠ "~" → AccentArg a arg base → (∀ y ∈ c.defs, ¬ Meant y.1 a.toList) →
      ¬ Contains (arg ++ rest) ("\\end".toList ++ a.toList) → (∀ b ∈ (arg ++ rest).head?, oddLetter b = false) → Adds false (.mk c.next "text".toList (.str (withAccent nfc mark base)) [] none) toks toks1 →
      Reading conv nfc { c with next := c.next + 1 } (.text toks1 false rest) c' toks' → Reading conv nfc c (.text toks space ('\\' :: (a.toList ++ (arg ++ rest)))) c' toks'
  /-- Code: a token with the code as it is. -/
  | code {c c' : Doc} {toks toks' : List Tok} {space : Bool} (t : CodeText) (rest : Str) (z : Char) : WrittenCode t → VerbEnds t → (∀ m ∈ ["begin".toList, "verb".toList], ∀ x ∈ c.defs, ¬ Meant x.1 m) →
      t.written.getLast? = some z → Reading conv nfc { c with next := c.next + 1 } (.text (toks ++ [coded c.next t]) (isSpace z) rest) c' toks' → Reading conv nfc c (.text toks space (t.written ++ rest)) c' toks'
  /-- A picture: a token with its content, or with the name of its file. Settings and the commands for the form of titles leave nothing. -/
  | package {c c' : Doc} {toks toks' : List Tok} {space : Bool} (t rest : Str) (o : Option Pkg.Tok) : GraphicsText t o → (∀ m ∈ graphicsNames, ∀ x ∈ c.defs, ¬ Meant x.1 m) →
      Reading conv nfc { c with next := c.next + o.toList.length } (.text (toks ++ drawn c.next o) false rest) c' toks' → Reading conv nfc c (.text toks space (t ++ rest)) c' toks'
  /-- A loop leaves nothing. -/
  | loop {c c' : Doc} {toks toks' : List Tok} {space : Bool} (w x rest : Str) : LoopText rest w x → (∀ y ∈ c.defs, ¬ Meant y.1 w) → ¬ Contains (x ++ rest) ("\\end".toList ++ w) →
      Reading conv nfc c (.text toks false rest) c' toks' → Reading conv nfc c (.text toks space ('\\' :: (w ++ (x ++ rest)))) c' toks'
  /-- A comment leaves nothing. -/
  | comment {c c' : Doc} {toks toks' : List Tok} {space : Bool} (b inner e rest : Str) : IsDelim "\\begin".toList "comment".toList b → IsDelim "\\end".toList "comment".toList e → EnvBody "comment".toList inner →
      (∀ x ∈ c.defs, ¬ Meant x.1 "begin".toList) → Reading conv nfc c (.text toks false rest) c' toks' → Reading conv nfc c (.text toks space (b ++ (inner ++ (e ++ rest)))) c' toks'
  /-- The definition of an environment is learned and leaves nothing. -/
  | newEnv {c c' : Doc} {toks toks' : List Tok} {space : Bool} (d : EnvDefine) (rest : Str) : d.Ok → (∀ m ∈ envDefineNames, ∀ x ∈ c.defs, ¬ Meant x.1 m) →
      Reading conv nfc { c with env := { c.env with envs := Dict.set c.env.envs d.name ⟨d.beginCode, d.endCode, d.count, d.defaults⟩ } } (.text toks false rest) c' toks' →
      Reading conv nfc c (.text toks space (d.render ++ rest)) c' toks'
  /-- A user-defined environment: a token with the text it stands for. -/
  | userEnv {c c1 c' : Doc} {toks toks1 toks' : List Tok} {space : Bool} (d : EnvDefine) (u : EnvUse) (r : EnvRow) (text b e rest : Str) : DefinedEnv c.env d → StandsForEnv d u text → Describes r d.name →
      ('\\' ∉ d.name ∧ '}' ∉ d.name ∧ strip d.name = d.name ∧ d.name ≠ "comment".toList) → Plainly d.name → IsDelim "\\begin".toList d.name b → IsDelim "\\end".toList d.name e →
      (∀ x ∈ c.defs, ¬ Meant x.1 "begin".toList) → Reading conv nfc { c with next := c.next + 1 } (.token true (placed c.next ⟨r.type.toList, d.name, false, none, [], text⟩) toks) c1 toks1 →
      Reading conv nfc c1 (.text toks1 false rest) c' toks' → Reading conv nfc c (.text toks space (b ++ (u.inner ++ (e ++ rest)))) c' toks'
  /-- A group written `\begingroup … \endgroup` or `\bgroup … \egroup`. -/
  | groupCmd {c c1 c' : Doc} {toks toks1 toks' : List Tok} {space : Bool} (g : Bool) (body rest : Str) : GroupBody noWord (groupCommands g).1 (groupCommands g).2 body → MayFollow noWord body → MayFollow noWord rest →
      ¬ Contains (body ++ (groupCommands g).2 ++ rest) ("\\end".toList ++ (groupCommands g).1.drop 1) → (∀ m ∈ ["begingroup".toList, "bgroup".toList], ∀ x ∈ c.defs, ¬ Meant x.1 m) →
      (∀ a ∈ body.head?, isNameChar a = false ∧ oddLetter a = false) → Reading conv nfc { c with next := c.next + 1 } (.token true (placed c.next (EnvT.groupToken body)) toks) c1 toks1 →
      Reading conv nfc c1 (.text toks1 false rest) c' toks' → Reading conv nfc c (.text toks space ((groupCommands g).1 ++ (body ++ ((groupCommands g).2 ++ rest)))) c' toks'
  /-- An environment written `\n … \endn`; blanks around its body are kept. -/
  | pair {c c1 c' : Doc} {toks toks1 toks' : List Tok} {space : Bool} (r : EnvRow) (n rest : Str) (u : EnvInner) : (n ≠ [] ∧ ∀ x ∈ n, isLetter x = true) →
      (∀ k ∈ ["newenvironment", "renewenvironment", "provideenvironment"], ¬ k.toList <+: n) → n ≠ "comment".toList → ¬ n <+: "end".toList ++ n → Dict.get? c.env.envs n = none →
      Describes r (goesBy (Dict.get? c.env.thms) n) → u.Fits r.reqs → (∀ x ∈ u.render.head?, isWord x = false ∧ x ≠ '@') → GroupBody (fun _ => true) ('\\' :: n) ("\\end".toList ++ n) u.render →
      EnvName c.defs n (u.render ++ ("\\end".toList ++ n ++ rest)) →
      Reading conv nfc { c with next := c.next + 1 } (.token true (placed c.next (envWith (Dict.get? c.env.thms) (Dict.get? c.env.floats) r n u u.untrimmed)) toks) c1 toks1 →
      Reading conv nfc c1 (.text toks1 false rest) c' toks' → Reading conv nfc c (.text toks space ('\\' :: (n ++ (u.render ++ ("\\end".toList ++ n ++ rest))))) c' toks'
  /-- A heading that has been read: labels go to it from now on. -/
  | headingAgain {c : Doc} {toks' : List Tok} (t : Tok) (toks : List Tok) : (t.type = "section".toList ∨ t.type = "paragraph".toList) → TitleRead t.fields → Adds false t toks toks' →
      Reading conv nfc c (.token false t toks) { c with cur := some t.id } toks'
  /-- A footnote or a caption that has been read: labels go to it from now on. -/
  | noteAgain {c : Doc} {toks' : List Tok} (t : Tok) (toks : List Tok) : (t.type = "footnote".toList ∨ t.type = "caption".toList) → (∀ s, t.content ≠ .str s) → Adds false t toks toks' →
      Reading conv nfc c (.token false t toks) { c with cur := some t.id } toks'
  | titleAgain {c : Doc} {toks' : List Tok} (t : Tok) (toks : List Tok) : (t.type = "title".toList ∨ t.type = "abstract".toList) → (∀ s, t.content ≠ .str s) → Adds false t toks toks' →
      Reading conv nfc c (.token false t toks) c toks'
  | citeAgain {c : Doc} {toks' : List Tok} (t : Tok) (toks : List Tok) : t.type = "citation".toList → TitleRead t.fields → Adds false t toks toks' → Reading conv nfc c (.token false t toks) c toks'
  /-- The keys of a reference that has been read are converted again. -/
  | refAgain {c : Doc} {toks' : List Tok} (id : Nat) (keys : List Str) (fs : List (Str × Val)) (sty : Option (List Str)) (toks : List Tok) : (∀ x ∈ keys, Unmet c.defs x) → TitleRead fs →
      Adds false (.mk id "ref".toList (.strs (keys.map conv)) fs sty) toks toks' → Reading conv nfc c (.token false (.mk id "ref".toList (.strs keys) fs sty) toks) c toks'
  /-- The address of a link that has been read is converted again. -/
  | urlAgain {c : Doc} {toks' : List Tok} (id : Nat) (a : Str) (fs : List (Str × Val)) (sty : Option (List Str)) (toks : List Tok) : Unmet c.defs a → TitleRead fs →
      Adds false (.mk id "url".toList (.str (conv a)) fs sty) toks toks' → Reading conv nfc c (.token false (.mk id "url".toList (.str a) fs sty) toks) c toks'

/-- What the parser does with it. -/
def Job.Does {V X} (cfg : Cfg V X) (st : St V X) (st' : St V X) (toks' : List Tok) : Job → Prop
  | .text toks space s => Runs cfg st toks space s st' toks'
  | .token body t toks => Processes cfg body st t toks st' toks'
  | .titled t toks => Titles cfg st t toks st' toks'
  | .tokens ts toks => ProcessesAll cfg st ts toks st' toks'

theorem Runs.flag {V X} {cfg : Cfg V X} {st st' : St V X} {toks toks' : List Tok} {b : Bool} (b' : Bool) (h : Runs cfg st toks b [] st' toks') : Runs cfg st toks b' [] st' toks' := by
  obtain ⟨N, h⟩ := h
  refine ⟨N, fun n hn => ?_⟩
  rw [← h n hn]
  cases n <;> rfl

theorem said_eq {V X} (st : St V X) (t : Content.CTok) : contentTok st t = said st.next t := rfl

theorem says_last {w arg : Str} {t : Content.CTok} (h : Says w arg t) : arg.getLast? = some '}' := by
  cases h <;> simp [List.getLast?_append, List.getLast?_cons]

theorem endsBlank_last (b : Bool) {x : Str} {z : Char} (h : x.getLast? = some z) : endsBlank b x = isSpace z := by unfold endsBlank; rw [h]

theorem bare_last {w star : Str} (hw : w ≠ []) (hl : ∀ c ∈ w, isLetter c = true) (hs : star = [] ∨ star = ['*']) (b : Bool) : endsBlank b ('\\' :: (w ++ star)) = false := by
  rcases hs with rfl | rfl
  · rw [List.append_nil]
    cases h : w.getLast? with
    | none => exact absurd (List.getLast?_eq_none_iff.1 h) hw
    | some z => rw [endsBlank_last b (z := z) (by rw [List.getLast?_cons, h]; rfl)]; exact letter_space (hl z (List.mem_of_getLast? h))
  · rw [← List.cons_append]; exact endsBlank_snoc b ('\\' :: w) '*'

theorem Runs.blanks {V X} {cfg : Cfg V X} {st st' : St V X} {toks toks' : List Tok} {b : Bool} {s : Str} (hs : Blank s) (b' : Bool) (h : Runs cfg st toks b [] st' toks') : Runs cfg st toks b' s st' toks' := by
  obtain ⟨N, h⟩ := h
  obtain ⟨M, hm⟩ := Runs.done cfg st toks b' hs
  obtain ⟨K, hk⟩ := Runs.done cfg st toks b (s := []) (fun c hc => by cases hc)
  refine ⟨N + M + K, fun n hn => ?_⟩
  rw [← h n (by omega), hm n (by omega), hk n (by omega)]

theorem item_go {V X} {cfg : Cfg V X} {st st' : St V X} {toks toks' : List Tok} {i : ListItem} {next : Str} {z : Char} {space : Bool} {l : Left} (hz : i.render.getLast? = some z) (h1 : l.toks = toks)
    (h2 : next ≠ [] → l.rest = next ∧ l.space = endsBlank space i.render) (h3 : next = [] → Blank l.rest) (h : Runs cfg st toks (isSpace z) next st' toks') :
    Runs cfg st l.toks l.space l.rest st' toks' := by
  rw [h1]
  cases next with
  | nil => exact Runs.blanks (h3 rfl) _ h
  | cons a next =>
    obtain ⟨e1, e2⟩ := h2 (by simp)
    rw [e1, e2, endsBlank_last _ hz]; exact h

/-- The parser does what the reading says. -/
theorem reading_sound {V X} {cfg : Cfg V X} (ho : SomeOrder cfg.order) (hl : Letters cfg.cmds) (hm : MathReady cfg) {c c' : Doc} {j : Job} {toks' : List Tok} (h : Reading cfg.cmds.conv cfg.nfc c j c' toks') :
    ∀ st : St V X, Fits cfg c st → ∃ st', Fits cfg c' st' ∧ Job.Does cfg st st' toks' j := by
  induction h with
  | done c toks space ws hws => exact fun st f => ⟨st, f, Runs.done cfg st toks space hws⟩
  | blank ws rest hws hne _ ih => exact fun st f => let ⟨st', f', h⟩ := ih st f; ⟨st', f', Runs.blank hws hne h⟩
  | text x rest a z n hx hh ha hz hf hu had _ ih =>
    intro st f
    obtain ⟨st', f', h⟩ := ih { st with next := n } (f.nextTo n)
    refine ⟨st', f', ?_⟩
    have hne : x ≠ [] := by rintro rfl; cases hh
    have hact := Acts.text hl f.known _ hx hne hf hu (f.next ▸ had)
    obtain ⟨b, x', rfl⟩ : ∃ b x', x = b :: x' := by
      cases x with
      | nil => exact absurd rfl hne
      | cons b x => exact ⟨b, x, rfl⟩
    obtain rfl : b = a := by simpa using hh
    refine Runs.act ha hact ?_
    simp only
    cases rest with
    | nil => exact Runs.flag _ h
    | cons d rest => rw [if_neg (by simp), endsBlank_last _ hz]; exact h
  | group x rest hx _ had _ ih1 ih2 =>
    intro st f
    obtain ⟨st1, f1, h1⟩ := ih1 st f
    obtain ⟨st', f', h2⟩ := ih2 st1 f1
    exact ⟨st', f', Runs.act (by decide) (Acts.group _ hx h1 had) h2⟩
  | «break» d rest n hu hd hod had _ ih =>
    intro st f
    obtain ⟨st', f', h⟩ := ih { st with next := n } (f.nextTo n)
    exact ⟨st', f', Runs.act (by decide) (Acts.break ho hl f.known _ hu hd hod (f.next ▸ had)) h⟩
  | label ws l rest ls n hws hx hne hu hp hlab _ ih =>
    intro st f
    obtain ⟨st', f', h⟩ := ih { st with labels := ls, next := n } (f.labelled ls n)
    exact ⟨st', f', Runs.act (by decide) (Acts.label ho hl f.known _ hws hx hne hu hp (f.labels ▸ f.cur ▸ f.next ▸ hlab)) h⟩
  | bare w star rest t hs hr hb hst hu ht had _ ih =>
    intro st f
    obtain ⟨st', f', h⟩ := ih st.fresh f.freshed
    refine ⟨st', f', Runs.act (by decide) (acts_unknown (rest := rest) (pre := '\\' :: (w ++ star)) ho hl f.known _ hst.passed hst.handlers hst.last (by simp)
      (unknown_bare hl f.known hst.handlers.letters.1 hst.handlers.letters.2.1 hs (fun a ha => ?_) hb hu (f.next ▸ ht) had)) ?_⟩
    · unfold nameOrStar; rw [(hr a ha).1]; simp [(hr a ha).2]
    · rw [bare_last hst.handlers.letters.1 hst.handlers.letters.2.1 hs]; exact h
  | arg w star ws x rest t hs hws hx hst hu ht had _ ih =>
    intro st f
    obtain ⟨st', f', h⟩ := ih st.fresh f.freshed
    refine ⟨st', f', Runs.act (by decide) (acts_unknown (rest := rest) (pre := '\\' :: (w ++ (star ++ (ws ++ '{' :: (x ++ ['}']))))) ho hl f.known _ hst.passed hst.handlers hst.last (by simp)
      (unknown_arg hl f.known hst.handlers.letters.1 hst.handlers.letters.2.1 hs hws hx hu (f.next ▸ ht) had)) ?_⟩
    rw [endsBlank_last _ (z := '}') (by simp [List.getLast?_append, List.getLast?_cons])]; exact h
  | says w arg rest t hs hu _ _ ih1 ih2 =>
    intro st f
    obtain ⟨st1, f1, h1⟩ := ih1 st.fresh f.freshed
    obtain ⟨st', f', h2⟩ := ih2 st1 f1
    refine ⟨st', f', Runs.act (by decide) (acts_says ho hl f.known _ hs hu (by rw [said_eq, f.next]; exact h1)) ?_⟩
    rw [endsBlank_last _ (z := '}') (by rw [← List.cons_append, List.getLast?_append, says_last hs]; rfl)]; exact h2
  | heading id type v x fs toks ht hf _ ih =>
    intro st f
    obtain ⟨st', f', h⟩ := ih { st with cur := some id } (f.at _)
    exact ⟨st', f', processes_heading ht hf h⟩
  | note id type x fs toks ht _ ih =>
    intro st f
    obtain ⟨st', f', h⟩ := ih { st with cur := some id } (f.at _)
    exact ⟨st', f', processes_note ht h⟩
  | title id type x fs toks ht _ ih =>
    intro st f
    obtain ⟨st', f', h⟩ := ih st f
    exact ⟨st', f', processes_title ht h⟩
  | asis id type v fs toks ht => exact fun st f => ⟨st, f, processes_asis ht⟩
  | cite id v fs toks hf => exact fun st f => ⟨st, f, processes_cite hf⟩
  | citeNotes id v x fs toks hf _ ih =>
    intro st f
    obtain ⟨st', f', h⟩ := ih st f
    exact ⟨st', f', processes_cite_notes hf h⟩
  | ref id keys fs toks hu hf => exact fun st f => ⟨st, f, processes_ref hl f.known hu hf⟩
  | refTitled id keys x fs toks hu hf _ ih =>
    intro st f
    obtain ⟨st', f', h⟩ := ih st f
    exact ⟨st', f', processes_ref_titled hl f.known hu hf h⟩
  | url id a fs toks hu hf => exact fun st f => ⟨st, f, processes_url hl f.known hu hf⟩
  | urlTitled id a x fs toks hu hf _ ih =>
    intro st f
    obtain ⟨st', f', h⟩ := ih st f
    exact ⟨st', f', processes_url_titled hl f'.known hu hf h⟩
  | env r name b e rest u hname hpl hu hnew hr hfit hbody hb he _ _ ih1 ih2 =>
    intro st f
    obtain ⟨st1, f1, h1⟩ := ih1 st.fresh f.freshed
    obtain ⟨st', f', h2⟩ := ih2 st1 f1
    refine ⟨st', f', ?_⟩
    have hact := fun sp => acts_env (st := st) ho hl f.known sp (mid := u.render) (rest := rest) hb he hname.2.1 hpl hu
      (EnvT.C55_environment cfg.cmds.alpha st.env r name b e rest u hname (f.env ▸ hnew) (f.env ▸ hr) hfit hbody hb he) (by rw [f.next, f.env]; exact h1)
    obtain ⟨ws, hws, rfl⟩ := hb
    exact Runs.act (c := '\\') (by decide) (hact _) h2
  | item i next t z hi hn hpairs hne hod hu ht hz _ _ ih1 ih2 =>
    intro st f
    obtain ⟨st1, f1, h1⟩ := ih1 st.fresh f.freshed
    obtain ⟨st', f', h2⟩ := ih2 st1 f1
    obtain ⟨l, ha, hl1, hl2, hl3⟩ := acts_item ho hl f.known _ hi hn hpairs hne hod hu ht (by rw [f.next]; exact h1)
    exact ⟨st', f', Runs.act (c := '\\') (by decide) ha (item_go hz hl1 hl2 hl3 h2)⟩
  | itemEmpty i next z hi hn hpairs hne hod hu ht hz _ ih =>
    intro st f
    obtain ⟨st', f', h2⟩ := ih st f
    obtain ⟨l, ha, hl1, hl2, hl3⟩ := acts_item_empty ho hl f.known _ hi hn hpairs hne hod hu ht
    exact ⟨st', f', Runs.act (c := '\\') (by decide) ha (item_go hz hl1 hl2 hl3 h2)⟩
  | body id type x fs sty toks h hr hx _ _ ih1 ih2 =>
    intro st f
    obtain ⟨st1, f1, h1⟩ := ih1 { st with cur := some id } (f.at _)
    obtain ⟨st', f', h2⟩ := ih2 { st1 with cur := st.cur } (by rw [f.cur]; exact f1.at _)
    exact ⟨st', f', processes_body h hr hx h1 h2⟩
  | raw id type x fs sty toks h hr _ ih =>
    intro st f
    obtain ⟨st', f', h2⟩ := ih st f
    exact ⟨st', f', processes_raw h hr h2⟩
  | untitled t toks hf had => exact fun st f => ⟨st, f, titles_none hf had⟩
  | titled id type v y fs gs sty toks hf _ had ih =>
    intro st f
    obtain ⟨st', f', h⟩ := ih st f
    exact ⟨st', f', titles_some hf h had⟩
  | use w arg rest out he hw _ ih =>
    intro st f
    obtain ⟨st', f', h⟩ := ih st f
    exact ⟨st', f', Runs.act (by decide) (Acts.use hl f.known _ _ he hw) h⟩
  | define w arg rest tok z hd hw hu hp hi hz _ ih =>
    intro st f
    obtain ⟨st1, f1, ha⟩ := Acts.define hl f _ _ hd hw hu hp hi
    obtain ⟨st', f', h⟩ := ih st1 f1
    exact ⟨st', f', Runs.act (by decide) ha (by simp only; rw [endsBlank_last _ hz]; exact h)⟩
  | cond s out rest hc _ ih =>
    intro st f
    obtain ⟨st', f', h⟩ := ih st f
    exact ⟨st', f', Runs.act (by decide) (Acts.chosen hl f.known _ _ hc) h⟩
  | switch w x out rest hs hw hu _ ih =>
    intro st f
    obtain ⟨st', f', h⟩ := ih st f
    exact ⟨st', f', Runs.act (by decide) (Acts.switched hl f.known _ _ hs hw hu) h⟩
  | styled n sty arg body rest hn hs ha hne hu hp _ hst _ _ ih1 ih2 ih3 =>
    intro st f
    obtain ⟨st1, f1, h1⟩ := ih1 st f
    obtain ⟨st2, f2, h2⟩ := ih2 st1 f1
    obtain ⟨st', f', h3⟩ := ih3 st2 f2
    exact ⟨st', f', Runs.act (by decide) (Acts.styled ho hl f.known _ hn hs ha hne hu hp h1 hst h2) h3⟩
  | styledEmpty n sty arg body rest hn hs ha hne hu hp _ ih =>
    intro st f
    obtain ⟨st', f', h⟩ := ih st f
    exact ⟨st', f', Runs.act (by decide) (Acts.styledEmpty ho hl f.known _ _ hn hs ha hne hu hp) h⟩
  | tokensNil toks => exact fun st f => ⟨st, f, processes_nil cfg st toks⟩
  | tokensCons t ts toks _ _ ih1 ih2 =>
    intro st f
    obtain ⟨st1, f1, h1⟩ := ih1 st f
    obtain ⟨st', f', h2⟩ := ih2 st1 f1
    exact ⟨st', f', processes_cons h1 h2⟩
  | ready t toks ht ha => exact fun st f => ⟨st, f, processes_ready ht ha⟩
  | formula w rest q hw hq hu _ ih =>
    intro st f
    obtain ⟨st', f', h⟩ := ih { st with next := st.next + q.toList.length } (by rw [f.next]; exact f.nextTo _)
    obtain ⟨b, r, hr, hb⟩ := formula_first w
    have ha := fun l sp => Acts.formula (st := st) ho hl hm f.known l sp hw rest hq hu
    rw [hr, List.cons_append] at ha ⊢
    exact ⟨st', f', Runs.act hb (ha _ _) (by simp only; rw [f.next] at h ⊢; exact h)⟩
  | layout w x rest out z n hlay hw hodd hu hp hod had hz _ ih =>
    intro st f
    obtain ⟨st', f', h⟩ := ih { st with next := n } (f.nextTo n)
    exact ⟨st', f', Runs.act (by decide) (Acts.layout ho hl f.known _ hlay hw hodd hu hp hod (f.next ▸ had)) (by simp only; rw [endsBlank_last _ hz]; exact h)⟩
  | accent a mark arg base rest hk hne harg hu hp hod had _ ih =>
    intro st f
    obtain ⟨st', f', h⟩ := ih st.fresh f.freshed
    obtain ⟨z, hz, hz0⟩ := accent_last harg
    exact ⟨st', f', Runs.act (by decide) (Acts.accent ho hl f.known _ hk hne harg hu hp hod (f.next ▸ had)) (by simp only; rw [endsBlank_last _ hz, hz0]; exact h)⟩
  | package t rest o ht hu _ ih =>
    intro st f
    obtain ⟨st', f', h⟩ := ih { st with next := st.next + o.toList.length } (by rw [f.next]; exact f.nextTo _)
    obtain ⟨⟨w, _, x, e, _⟩, _⟩ := graphics_form ht
    have ha := fun l sp => Acts.package (st := st) hl f.known l sp ht hu rest
    subst e
    rw [List.cons_append] at ha ⊢
    exact ⟨st', f', Runs.act (by decide) (ha _ _) (by simp only; rw [f.next] at h ⊢; exact h)⟩
  | loop w x rest ht hu hp _ ih =>
    intro st f
    obtain ⟨st', f', h⟩ := ih st f
    exact ⟨st', f', Runs.act (by decide) (Acts.loop ho hl f.known _ _ ht hu hp) h⟩
  | code t rest z ht hv hu hz _ ih =>
    intro st f
    obtain ⟨st', f', h⟩ := ih st.fresh f.freshed
    have ha := fun l sp => Acts.code (st := st) ho hl f.known l sp ht hv hu rest hz
    obtain ⟨_, b, z', hb, hb0, _⟩ := reach_code ho hl (parse cfg 0) 0 f.known [] true ht hv hu rest
    cases hw : t.written with
    | nil => rw [hw] at hb; cases hb
    | cons b' r =>
      rw [hw] at hb
      obtain rfl : b' = b := by simpa using hb
      rw [hw, List.cons_append] at ha
      rw [List.cons_append]
      exact ⟨st', f', Runs.act hb0 (ha _ _) (by simp only; rw [f.next]; exact h)⟩
  | comment b inner e rest hb he hbody hu _ ih =>
    intro st f
    obtain ⟨st', f', h⟩ := ih st f
    refine ⟨st', f', ?_⟩
    have ha := fun l sp => Acts.comment (st := st) ho hl f.known l sp rest hb he hbody hu
    obtain ⟨ws, hws, rfl⟩ := hb
    exact Runs.act (c := '\\') (by decide) (ha _ _) h
  | newEnv d rest hd hu _ ih =>
    intro st f
    obtain ⟨st', f', h⟩ := ih { st with env := { st.env with envs := Dict.set st.env.envs d.name ⟨d.beginCode, d.endCode, d.count, d.defaults⟩ } }
      ⟨⟨f.known.reg, f.known.plain, f.known.ifs⟩, by rw [f.env], f.aliases, f.colors, f.labels, f.cur, f.next⟩
    refine ⟨st', f', ?_⟩
    have ha := fun l sp => Acts.newEnv (st := st) ho hl f.known l sp hd rest hu
    obtain ⟨w, _, star, _, hk⟩ := kw_word d
    obtain ⟨x, hx⟩ : ∃ x, d.render ++ rest = '\\' :: x := ⟨_, by unfold EnvDefine.render; rw [hk]; rfl⟩
    rw [hx] at ha ⊢
    exact Runs.act (by decide) (ha _ _) h
  | userEnv d u r text b e rest hd hs hr hname hpl hb he hu _ _ ih1 ih2 =>
    intro st f
    obtain ⟨st1, f1, h1⟩ := ih1 st.fresh f.freshed
    obtain ⟨st', f', h2⟩ := ih2 st1 f1
    refine ⟨st', f', ?_⟩
    have ha := fun sp => Acts.userEnv (st := st) ho hl f.known sp (f.env ▸ hd) hs hr hname hpl rest hb he hu (by rw [f.next]; exact h1)
    obtain ⟨ws, hws, rfl⟩ := hb
    exact Runs.act (c := '\\') (by decide) (ha _) h2
  | groupCmd g body rest hbody hm' hp hno hu hod _ _ ih1 ih2 =>
    intro st f
    obtain ⟨st1, f1, h1⟩ := ih1 st.fresh f.freshed
    obtain ⟨st', f', h2⟩ := ih2 st1 f1
    refine ⟨st', f', ?_⟩
    have ha := fun sp => Acts.groupCmd (st := st) ho hl f.known sp g rest hbody hm' hp hno hu hod (by rw [f.next]; exact h1)
    cases g with
    | false => exact Runs.act (c := '\\') (by decide) (ha _) h2
    | true => exact Runs.act (c := '\\') (by decide) (ha _) h2
  | pair r n rest u hn hkw hcom hpre hnew hr hf hhead hbody he _ _ ih1 ih2 =>
    intro st f
    obtain ⟨st1, f1, h1⟩ := ih1 st.fresh f.freshed
    obtain ⟨st', f', h2⟩ := ih2 st1 f1
    exact ⟨st', f', Runs.act (by decide) (Acts.pair (st := st) ho hl f.known _ hn hkw hcom hpre (f.env ▸ hnew) (f.env ▸ hr) hf hhead hbody he (by rw [f.next, f.env]; exact h1)) h2⟩
  | headingAgain t toks ht hf ha => exact fun st f => ⟨{ st with cur := some t.id }, f.at _, processes_heading_again ht hf ha⟩
  | noteAgain t toks ht hf ha => exact fun st f => ⟨{ st with cur := some t.id }, f.at _, processes_note_again ht hf ha⟩
  | titleAgain t toks ht hf ha => exact fun st f => ⟨st, f, processes_title_again ht hf ha⟩
  | citeAgain t toks ht hf ha => exact fun st f => ⟨st, f, processes_cite_again ht hf ha⟩
  | refAgain id keys fs sty toks hu hf ha => exact fun st f => ⟨st, f, processes_ref_again hl f.known hu hf ha⟩
  | urlAgain id a fs sty toks hu hf ha => exact fun st f => ⟨st, f, processes_url_again hl f.known hu hf ha⟩

end L2J.Psr
