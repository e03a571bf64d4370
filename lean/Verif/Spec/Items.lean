import Verif.Spec.EnvToken
/-! What the items of a list are. -/
namespace L2J.Spec

/-- `\name … \endname` starts here: the name is a whole word. -/
def PairAt (s : Str) : Prop :=
  ∃ n v w, s = '\\' :: (n ++ (v ++ ("\\end".toList ++ (n ++ w)))) ∧ n ≠ [] ∧ (∀ x ∈ n, isWord x = true ∨ x = '@') ∧
    ((n.getLast?.map isWord).getD false ≠ ((v ++ ("\\end".toList ++ (n ++ w))).head?.map isWord).getD false)

/-- No such pair anywhere in a text. -/
def NoPairs (s : Str) : Prop := ∀ u v, s = u ++ v → ¬ PairAt v

/-- An environment or a group within an item. -/
inductive Block where
  | env (name b inner e : Str)
  | group (k : Bool) (inner : Str)

def Block.render : Block → Str
  | .env _ b inner e => b ++ inner ++ e
  | .group k inner => (groupCommands k).1 ++ inner ++ (groupCommands k).2

/-- It is closed properly. Anything may stand in it: other lists as well. -/
def Block.Ok : Block → Prop
  | .env name b inner e => '\\' ∉ name ∧ '}' ∉ name ∧ strip name = name ∧ EnvBody name inner ∧ IsDelim "\\begin".toList name b ∧ IsDelim "\\end".toList name e
  | .group k inner => GroupBody noWord (groupCommands k).1 (groupCommands k).2 inner ∧ MayFollow noWord inner

/-- Text without environments, groups and `\item` (`\itemsep` is allowed). -/
def ItemText (t : Str) : Prop :=
  ∀ u v, t = u ++ v → ¬ "\\begin".toList <+: v ∧ ¬ "\\bgroup".toList <+: v ∧ ¬ StartsCommand noWord "\\item".toList v

/-- An item: blanks, a title in brackets, blanks, and the body: pieces of text and blocks, then text. -/
structure ListItem where
  ws1 : Str
  title : Option Str
  ws2 : Str
  parts : List (Str × Block)
  tail : Str

def partsRender : List (Str × Block) → Str
  | [] => []
  | (t, b) :: l => t ++ (b.render ++ partsRender l)

def ListItem.body (i : ListItem) : Str := partsRender i.parts ++ i.tail

def ListItem.opt (i : ListItem) : Str := match i.title with | some t => '[' :: (t ++ [']']) | none => []

def ListItem.render (i : ListItem) : Str := "\\item".toList ++ (i.ws1 ++ (i.opt ++ (i.ws2 ++ i.body)))

/-- A group is followed by something that does not make its last command a longer one. -/
def PartsOk : List (Str × Block) → Str → Prop
  | [], tail => ItemText tail
  | (t, b) :: l, tail => ItemText t ∧ b.Ok ∧ MayFollow noWord (partsRender l ++ tail) ∧ PartsOk l tail

/-- It can be written so: `\item` is a word of its own, the body starts with its first character that is not blank and not with a
bracket, and an item without a body has no title. -/
def ListItem.Ok (i : ListItem) : Prop :=
  (∀ c ∈ i.ws1, isSpace c = true) ∧ (∀ c ∈ i.ws2, isSpace c = true) ∧ (∀ t ∈ i.title, ']' ∉ t) ∧ PartsOk i.parts i.tail ∧
  (∀ c ∈ i.body.head?, isSpace c = false ∧ c ≠ '[') ∧ MayFollow noWord (i.ws1 ++ (i.opt ++ (i.ws2 ++ i.body))) ∧ (i.body = [] → i.title = none)

/-- The token expected: an item without a body has none. -/
def ListItem.token (i : ListItem) : Option EnvT.Item :=
  if i.body = [] then none else some ⟨(i.title.filter (· ≠ [])).map strip, strip i.body⟩

end L2J.Spec
