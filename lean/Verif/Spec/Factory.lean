import Verif.Model.Factory
/-! What token construction must preserve (C21). -/
namespace L2J.Factory.Spec
open L2J.Factory

/-- A dict whose type is unknown (or `date`): no token can be made of it. -/
def Dropped : Val → Bool
  | .dict (some (.unknown _)) .. => true
  | .dict (some .date) .. => true
  | _ => false

/-- A dict with a `type`. -/
def Typed : Val → Bool
  | .dict (some _) .. => true
  | _ => false

/-- A dict of type bibitem. -/
def IsBibitem : Val → Bool
  | .dict (some (.known .bibitem)) .. => true
  | _ => false

/-- The spans of a cell, 1 unless given. -/
def spanOf (r : Rest) : Rest :=
  ["rowspan".toList, "colspan".toList].map fun k => (k, ((r.find? fun kv => kv.1 == k).map (·.2)).getD ['1'])

/-- Token classes that have a `title`. -/
def HasTitle : TokenType → Bool
  | .section | .paragraph | .item | .citation | .ref | .math_env | .url | .code | .caption => true
  | _ => false

/-- Scalar keys that reach the class: all of them, except that equations and theorem-like environments pass a
fixed selection. -/
def passed : TokenType → Rest → Rest
  | .equation, r => r.filter fun kv => ["display".toList, "align".toList, "numbering".toList, "labels".toList, "styles".toList].contains kv.1
  | .math_env, r => r.filter fun kv => ["labels".toList, "styles".toList, "name".toList, "numbering".toList].contains kv.1
  | _, r => r

/-- A table cell that is not a value at all: an untyped dict without a span (or no value). -/
def NoCell : Val → Bool
  | .absent => true
  | .dict Option.none _ _ _ _ _ r => !(r.any fun kv => kv.1 == "rowspan".toList || kv.1 == "colspan".toList)
  | _ => false

variable (scalars : TokenType → Rest → Option Rest)

mutual
/-- `t` is the faithful construction of `v`: the same strings and scalars; for a typed dict a token of that
type whose content is the faithful construction, in order, of the dict's content. -/
def Kept : Val → Tok → Prop
  | .absent, t => t = .absent ∨ t = .none ∨ t = .lst []
  | .none, t => t = .none
  | .str s, t => t = .str s ∨ s = [] ∧ t = .lst []
  | .atom s, t => t = .atom s
  | .lst l, t => ∃ ts, t = .lst ts ∧ KeptL l ts
  | .dict ty c ti p pk ph r, t =>
    match ty with
    | Option.none => t = .raw (.dict ty c ti p pk ph r)
    | some .date => False
    | some (.unknown _) => False
    | some (.known k) =>
      ∃ c' ti' p' pk' ph' r', t = .tok k c' ti' p' pk' ph' r' ∧
        (k = .tabular → KeptTable c c' ∧ r' = []) ∧
        (k = .bibliography → KeptBib c c' ∧ r' = []) ∧
        (k ≠ .tabular → k ≠ .bibliography → (Kept c c' ∨ Dropped c = true ∧ c' = .none) ∧
          scalars k (passed k r) = some r' ∧ (HasTitle k = true → Kept ti ti' ∨ Dropped ti = true ∧ ti' = .none)) ∧
        (k = .math_env → Kept p p' ∨ (Typed p = false ∨ Dropped p = true) ∧ p' = .none) ∧
        (k = .equation → pk' = pk ∧ KeptLists ph ph')
/-- Content lists: in order, leaving out exactly the dicts of unknown type. -/
def KeptL : List Val → List Tok → Prop
  | [], ts => ts = []
  | v :: vs, ts =>
    (Dropped v = true ∧ KeptL vs ts) ∨
    (Dropped v = false ∧ ∃ t ts', ts = t :: ts' ∧ Kept v t ∧ KeptL vs ts')
/-- The lists standing for the placeholders of an equation: one to one. -/
def KeptLists : List Val → List Tok → Prop
  | [], ts => ts = []
  | v :: vs, ts => ∃ t ts', ts = t :: ts' ∧ Kept v t ∧ KeptLists vs ts'
/-- A bibliography: in order, the items of type bibitem. -/
def KeptBib : Val → Tok → Prop
  | .lst l, t => ∃ ts, t = .lst ts ∧ KeptBibL l ts
  | _, t => t = .lst []
def KeptBibL : List Val → List Tok → Prop
  | [], ts => ts = []
  | v :: vs, ts =>
    (IsBibitem v = true ∧ ∃ t ts', ts = t :: ts' ∧ Kept v t ∧ KeptBibL vs ts') ∨
    (IsBibitem v = false ∧ KeptBibL vs ts)
/-- A table: the same number of rows, each with its cells at the same positions. -/
def KeptTable : Val → Tok → Prop
  | .lst l, t => ∃ ts, t = .lst ts ∧ KeptRows l ts
  | _, _ => False
def KeptRows : List Val → List Tok → Prop
  | [], ts => ts = []
  | v :: vs, ts => ∃ t ts', ts = .lst t :: ts' ∧ KeptRow v t ∧ KeptRows vs ts'
def KeptRow : Val → List Tok → Prop
  | .lst l, ts => KeptCells l ts
  | _, _ => False
def KeptCells : List Val → List Tok → Prop
  | [], ts => ts = []
  | v :: vs, ts =>
    (NoCell v = true ∧ KeptCells vs ts) ∨
    (NoCell v = false ∧ ∃ t ts', ts = t :: ts' ∧
      ((Dropped v = true ∧ t = .none) ∨ (Typed v = true ∧ Dropped v = false ∧ Kept v t) ∨
        (Typed v = false ∧ KeptCell v t)) ∧ KeptCells vs ts')
/-- A cell that is not a typed dict: an untyped dict becomes a cell with its spans. -/
def KeptCell : Val → Tok → Prop
  | .dict _ c _ _ _ _ r, t => ∃ c', t = .cell c' (spanOf r) ∧ KeptCell c c'
  | .lst l, t => ∃ ts, t = .lst ts ∧ KeptNested l ts
  | .str s, t => t = .str s
  | .none, t => t = .none
  | .atom s, t => t = .atom s
  | .absent, _ => False
/-- A list inside a cell: position by position; a dict of unknown type becomes `None`. -/
def KeptNested : List Val → List Tok → Prop
  | [], ts => ts = []
  | v :: vs, ts =>
    (v = .absent ∧ KeptNested vs ts) ∨
    (v ≠ .absent ∧ ∃ t ts', ts = t :: ts' ∧
      ((Dropped v = true ∧ t = .none) ∨ (Typed v = true ∧ Dropped v = false ∧ Kept v t) ∨
        (Typed v = false ∧ KeptIn v t)) ∧ KeptNested vs ts')
def KeptIn : Val → Tok → Prop
  | .dict ty c ti p pk ph r, t => t = .raw (.dict ty c ti p pk ph r)
  | .lst l, t => ∃ ts, t = .lst ts ∧ KeptNested l ts
  | .str s, t => t = .str s
  | .none, t => t = .none
  | .atom s, t => t = .atom s
  | .absent, _ => False
end

/-- The top level of the built document: in order, leaving out dicts of unknown or missing type and empty
strings. -/
def KeptTop : List Val → List Tok → Prop
  | [], ts => ts = []
  | v :: vs, ts =>
    ((Dropped v = true ∨ v = .str [] ∨ (Typed v = false ∧ ∀ s, v ≠ .str s)) ∧ KeptTop vs ts) ∨
    ((Typed v = true ∧ Dropped v = false ∨ ∃ s, v = .str s ∧ s ≠ []) ∧
      ∃ t ts', ts = t :: ts' ∧ Kept scalars v t ∧ KeptTop vs ts')

/-- A list whose elements satisfy `p`. -/
def ListOf (p : Val → Prop) (v : Val) : Prop := ∃ l, v = .lst l ∧ ∀ x ∈ l, p x

def IsStr (v : Val) : Prop := ∃ s, v = .str s

/-- A dict of the given known type. -/
def TypedAs (k : TokenType) : Val → Bool
  | .dict (some (.known k')) .. => decide (k' = k)
  | _ => false

/-- The documented shape of `content` for each type (parser output): a string, a list of token dicts, ... -/
def ContentShape : TokenType → Val → Prop
  | .text, v | .code, v | .algorithmic, v | .includegraphics, v | .includepdf, v | .diagram, v | .url, v | .equation, v => IsStr v
  | .command, v => IsStr v ∨ v = .absent ∨ v = .none
  | .title, v | .group, v | .footnote, v | .caption, v => ListOf (fun x => Typed x = true) v
  | .math_env, v => ListOf (fun x => Typed x = true ∧ Dropped x = false) v
  | .appendix, v | .algorithm, v | .section, v | .paragraph, v => v = .absent ∨ ListOf (fun x => Typed x = true) v
  | .list, v => v = .absent ∨ ListOf (fun x => Dropped x = true ∨ TypedAs .item x = true) v
  | .bibliography, v => v = .absent ∨ ∃ l, v = .lst l
  | .citation, v | .ref, v => ListOf IsStr v
  | .author, v => ListOf (ListOf fun x => Typed x = true) v
  | .tabular, v => ListOf (ListOf fun x =>
      ∀ c ti p pk ph r, x = .dict Option.none c ti p pk ph r → IsStr c ∨ c = .none ∨ ∃ l, c = .lst l) v
  | _, v => IsStr v ∨ ListOf (fun x => Typed x = true) v

/-- The documented shape of `title`. -/
def TitleShape : TokenType → Val → Prop
  | .section, v | .paragraph, v => ListOf (fun x => Typed x = true) v
  | .math_env, v => v = .absent ∨ ListOf (fun x => Typed x = true ∧ Dropped x = false) v
  | .item, v | .citation, v | .ref, v => v = .absent ∨ ListOf (fun x => Typed x = true) v
  | .url, v => v = .absent ∨ IsStr v ∨ ListOf (fun x => Typed x = true) v
  | .code, v | .caption, v => v = .absent ∨ IsStr v
  | _, _ => True

mutual
/-- Every typed dict inside has the documented shape and scalar fields its class accepts. -/
def WellFormed : Val → Prop
  | .dict ty c ti p _ ph r =>
    WellFormed c ∧ WellFormed ti ∧ WellFormed p ∧ WellFormedL ph ∧
    ∀ k, ty = some (.known k) →
      ContentShape k c ∧ TitleShape k ti ∧
      (k ≠ .tabular → k ≠ .bibliography → ∃ r', scalars k (passed k r) = some r') ∧
      (k = .math_env → p = .absent ∨ TypedAs .math_env p = true) ∧
      (k = .equation → ∀ x ∈ ph, ListOf (fun y => Typed y = true ∧ Dropped y = false) x)
  | .lst l => WellFormedL l
  | _ => True
def WellFormedL : List Val → Prop
  | [] => True
  | v :: vs => WellFormed v ∧ WellFormedL vs
end

end L2J.Factory.Spec
