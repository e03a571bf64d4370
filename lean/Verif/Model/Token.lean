import Verif.Model.PyStr
/-
Model of the token dictionaries exchanged between the parser and the builder, and of decimal
rendering.
-/
namespace L2J

/-- The value of a token's `type` key. The builder compares it with these literals only
(structure/builder.py); any other string is `other`. -/
inductive TType where
  | text | section | paragraph | appendix | equation | algorithm | math_env | table | figure | list
  | bibliography | tabular
  | other (s : Str)
deriving DecidableEq, Repr

/-- The keys of a token dictionary the builder looks at (structure/builder.py).  `none` = key absent.
`extra` stands for every other key (labels, name, display, ...), which the builder only carries along. -/
structure Attrs where
  type : TType
  level : Option Nat := none
  numbered : Option Bool := none
  numbering : Option Str := none
  styles : Option (List Str) := none
  depth : Option Nat := none
  /-- `content` when it is a string -/
  text : Option Str := none
  /-- `content` is a list -/
  hasList : Bool := false
  /-- `title` is a list -/
  titleIsList : Bool := false
  extra : Str := []
deriving DecidableEq, Repr

/-- An element of a token list. `content`/`title` hold the list when the Python value is a list and are
empty otherwise. Values, not references: a dictionary object occurring twice in the input is outside
the model. -/
inductive Item where
  /-- an element that is neither a dict nor a list (a bare string, `None`) -/
  | raw (s : Str)
  | lst (l : List Item)
  | tok (a : Attrs) (title : List Item) (content : List Item)
deriving Repr

mutual
/-- Equality of items is decidable (used to evaluate examples only). -/
def Item.decEq : (x y : Item) → Decidable (x = y)
  | .raw s, .raw s' => if h : s = s' then isTrue (by rw [h]) else isFalse (by intro e; injection e; contradiction)
  | .lst l, .lst l' =>
    match Item.decEqL l l' with
    | isTrue h => isTrue (by rw [h])
    | isFalse h => isFalse (by intro e; injection e; contradiction)
  | .tok a t c, .tok a' t' c' =>
    match (inferInstance : Decidable (a = a')), Item.decEqL t t', Item.decEqL c c' with
    | isTrue h1, isTrue h2, isTrue h3 => isTrue (by rw [h1, h2, h3])
    | isFalse h, _, _ => isFalse (by intro e; injection e; contradiction)
    | _, isFalse h, _ => isFalse (by intro e; injection e; contradiction)
    | _, _, isFalse h => isFalse (by intro e; injection e; contradiction)
  | .raw _, .lst _ => isFalse (by intro e; cases e)
  | .raw _, .tok _ _ _ => isFalse (by intro e; cases e)
  | .lst _, .raw _ => isFalse (by intro e; cases e)
  | .lst _, .tok _ _ _ => isFalse (by intro e; cases e)
  | .tok _ _ _, .raw _ => isFalse (by intro e; cases e)
  | .tok _ _ _, .lst _ => isFalse (by intro e; cases e)
def Item.decEqL : (x y : List Item) → Decidable (x = y)
  | [], [] => isTrue rfl
  | [], _ :: _ => isFalse (by intro e; cases e)
  | _ :: _, [] => isFalse (by intro e; cases e)
  | x :: xs, y :: ys =>
    match Item.decEq x y, Item.decEqL xs ys with
    | isTrue h1, isTrue h2 => isTrue (by rw [h1, h2])
    | isFalse h, _ => isFalse (by intro e; injection e; contradiction)
    | _, isFalse h => isFalse (by intro e; injection e; contradiction)
end

instance : DecidableEq Item := Item.decEq

/-- `str(n)` for a natural number: least significant digit last. The fuel `n + 1` is enough. -/
def natStrAux : Nat → Nat → Str → Str
  | 0, _, acc => acc
  | fuel + 1, n, acc =>
    let acc := Char.ofNat (48 + n % 10) :: acc
    if n / 10 = 0 then acc else natStrAux fuel (n / 10) acc

/-- `str(n)`. -/
def natStr (n : Nat) : Str := natStrAux (n + 1) n []

end L2J
