import Verif.Spec.BibItem
import Verif.Spec.Bib
import Verif.Spec.Wrapped
/-! Bibliographies compiled by biblatex: how their entries are written, and what the entries say. -/
namespace L2J.Spec

/-- An entry: its key and type, the family and given names of its authors, its fields as they are written, and its eprint number. -/
structure BblEntry where
  key : Str
  type : Str
  authors : List (Str × Str)
  fields : List (Str × Str)
  eprint : Option Str

/-- `out` is `s` with each `\bibrangedash` replaced by two dashes; blanks up to a word behind it are left out. -/
inductive Dashes : Str → Str → Prop
  | nil : Dashes [] []
  | keep (c s out) : ¬ StartsCommand noWord "\\bibrangedash".toList (c :: s) → Dashes s out → Dashes (c :: s) (c :: out)
  | wide (ws x out) : ws ≠ [] → (∀ c ∈ ws, isSpace c = true) → (∃ c ∈ x.head?, isWord c = true) → Dashes x out → Dashes ("\\bibrangedash".toList ++ (ws ++ x)) ("--".toList ++ out)
  | tight (x out) : MayFollow noWord x → (∀ c ∈ (x.dropWhile isSpace).head?, isWord c = false) → Dashes x out → Dashes ("\\bibrangedash".toList ++ x) ("--".toList ++ out)

/-- A part of a name: `w{x}`. -/
def PartText (block : Str) (w : String) (x : Str) : Prop :=
  ∃ pre post, block = pre ++ (w.toList ++ '{' :: (x ++ '}' :: post)) ∧ ¬ Contains pre w.toList ∧ x ≠ [] ∧ Wrappable '{' '}' x

/-- The authors of an entry: blocks `{hash=…}{family={…}, …, given={…}, …}`. -/
inductive AuthorsText : Str → List (Str × Str) → Prop
  | nil (t) : ¬ Contains t "{hash=".toList → AuthorsText t []
  | cons (pre hash block post family given as) : ¬ Contains pre "{hash=".toList → IsName hash → PartText block "family=" family → PartText block "given=" given →
      ¬ Contains block "{hash=".toList → Wrappable '{' '}' block → AuthorsText post as →
      AuthorsText (pre ++ ("{hash=".toList ++ (hash ++ ("}{".toList ++ (block ++ '}' :: post))))) ((family, given) :: as)

/-- The fields of an entry: `\field{name}{value}`, with other text between them. -/
inductive FieldsText : Str → List (Str × Str) → Prop
  | nil (t) : ¬ Contains t "\\field".toList → FieldsText t []
  | cons (pre k v rest fs) : ¬ Contains pre "\\field".toList → k ≠ [] → (∀ c ∈ k, c ≠ '{' ∧ c ≠ '}' ∧ c ≠ '\\') → Wrappable '{' '}' v → ¬ Contains v "\\field".toList → FieldsText rest fs →
      FieldsText (pre ++ ("\\field".toList ++ '{' :: (k ++ ("}{".toList ++ (v ++ '}' :: rest))))) ((k, v) :: fs)

/-- How an entry is written, up to `\endentry`. -/
structure WrittenEntry (c : BblEntry) (s : Str) : Prop where
  header : c.key ≠ [] ∧ '}' ∉ c.key ∧ c.type ≠ [] ∧ '}' ∉ c.type ∧
    ∃ opts body, '}' ∉ opts ∧ s = "\\entry{".toList ++ (c.key ++ ("}{".toList ++ (c.type ++ ("}{".toList ++ (opts ++ '}' :: body)))))
  authors : (¬ Contains s "\\name{author}".toList ∧ c.authors = []) ∨
    ∃ pre n o ws t post, s = pre ++ ("\\name{author}".toList ++ (wrapAll '{' '}' [n, o, (ws, t)] ++ post)) ∧ ¬ Contains pre "\\name{author}".toList ∧ WellWrapped '{' '}' [n, o, (ws, t)] ∧
      AuthorsText t c.authors
  fields : FieldsText s c.fields
  eprint : (¬ Contains s "\\verb{eprint}".toList ∧ c.eprint = none) ∨
    ∃ pre ws1 ws2 x ws3 post, s = pre ++ ("\\verb{eprint}".toList ++ (ws1 ++ ("\\verb".toList ++ (ws2 ++ (x ++ (ws3 ++ ("\\endverb".toList ++ post))))))) ∧
      ¬ Contains pre "\\verb{eprint}".toList ∧ (∀ c ∈ ws1 ++ ws2 ++ ws3, isSpace c = true) ∧ ws2 ≠ [] ∧ ws3 ≠ [] ∧ x ≠ [] ∧ strip x = x ∧ ¬ Contains x "\\endverb".toList ∧ c.eprint = some x

/-- A compiled bibliography: its entries, with other text between them. -/
inductive BblText : Str → List BblEntry → Prop
  | nil (t) : ¬ Contains t "\\entry{".toList → BblText t []
  | cons (pre mid rest c cs s1 s2) : ¬ Contains pre "\\entry{".toList → ¬ Contains mid "\\endentry".toList →
      CommandReplaced "\\bibinitperiod".toList ['.'] ("\\entry{".toList ++ (mid ++ "\\endentry".toList)) s1 → Dashes s1 s2 → WrittenEntry c s2 → BblText rest cs →
      BblText (pre ++ ("\\entry{".toList ++ (mid ++ ("\\endentry".toList ++ rest)))) (c :: cs)

/-- The name of an author: the family name, and the first letter of the given name. -/
def authorName (a : Str × Str) : Str := a.1 ++ ", ".toList ++ a.2.take 1 ++ ['.']

/-- The name a field is kept under; two internal fields are left out. -/
def keptAs (k : Str) : Option Str :=
  if k ∈ ["labelnamesource".toList, "labeltitlesource".toList] then none else if k = "journaltitle".toList then some "journal".toList else some k

/-- The last value that is given for a field. -/
def BblEntry.field (c : BblEntry) (k : Str) : Option Str := (c.fields.reverse.find? fun f => keptAs (strip f.1) = some k).map fun f => strip f.2

/-- What an entry says about the field `k`. -/
def BblEntry.says (c : BblEntry) (k : Str) : Option Str :=
  if k = "author".toList ∧ c.authors ≠ [] then some (strip (joinWith " and ".toList (c.authors.map authorName)))
  else if k = "eprint".toList ∧ c.eprint ≠ none then c.eprint
  else c.field k

/-- What is needed for an entry to be read again: plain keys and names, and texts that are balanced and without an `@`. -/
structure BblEntry.Plain (c : BblEntry) : Prop where
  key : PlainKey c.key
  type : IsName c.type
  names : ∀ f ∈ c.fields, IsName (strip f.1) ∧ lower (strip f.1) = strip f.1 ∧ strip f.1 ∉ ["key".toList, "type".toList, "author".toList]
  values : ∀ f ∈ c.fields, Wrappable '{' '}' (strip f.2) ∧ '@' ∉ f.2
  authors : ∀ a ∈ c.authors, '@' ∉ a.1 ∧ ∀ x ∈ a.2.head?, x ∉ "{}\\@".toList
  eprint : ∀ x ∈ c.eprint, Wrappable '{' '}' x ∧ '@' ∉ x

/-- The entries that are read: in order, each with its key, type and fields. -/
inductive BblRead : List BblEntry → List BibEntry → Prop
  | nil : BblRead [] []
  | cons (c e cs es) : e.key = strip c.key → e.entryType = lower c.type → (∀ k, dictGet e.fields k = c.says k) → BblRead cs es → BblRead (c :: cs) (e :: es)

end L2J.Spec
