import Verif.Model.Preproc
import Verif.Spec.Whitespace
/-! What the protection of blocks is supposed to achieve. -/
namespace L2J.Spec

/-- A part of a text: ordinary text or a protected block, given by its number. -/
inductive Seg where
  | text (s : Str)
  | block (i : Nat)
deriving DecidableEq

/-- The text in which block `i` is written as `f i`. -/
def render (f : Nat → Str) : List Seg → Str
  | [] => []
  | .text s :: r => s ++ render f r
  | .block i :: r => f i ++ render f r

/-- Matches are non-empty and lie inside the text. -/
def SearcherWF (p : Searcher) : Prop := ∀ s a e, p s = some (a, e) → a < e ∧ e ≤ s.length

/-- `(a, e)` is the match that starts first. -/
def Earliest (pats : List Searcher) (s : Str) (a e : Nat) : Prop :=
  (∃ p ∈ pats, p s = some (a, e)) ∧ ∀ p ∈ pats, ∀ a' e', p s = some (a', e') → a ≤ a'

/-- The text is split at its blocks: each time the earliest match in what remains. -/
inductive BlockSplit (pats : List Searcher) : Str → List (Str × Str) → Str → Prop where
  | none (s : Str) (h : ∀ p ∈ pats, p s = .none) : BlockSplit pats s [] s
  | some (s t b rest : Str) (bs : List (Str × Str)) (last : Str) (h : s = t ++ b ++ rest)
      (he : Earliest pats s t.length (t.length + b.length)) (hr : BlockSplit pats rest bs last) :
      BlockSplit pats s ((t, b) :: bs) last

/-- `t'` is `t` with every stretch of blanks replaced by some (non-empty) stretch of blanks. -/
inductive SameButBlanks : Str → Str → Prop where
  | nil : SameButBlanks [] []
  | char (c : Char) {a b} (h : SameButBlanks a b) : SameButBlanks (c :: a) (c :: b)
  | gap (g g' : Str) (hg : ∀ c ∈ g, Ws c) (hg' : ∀ c ∈ g', Ws c) (h1 : g ≠ []) (h2 : g' ≠ []) {a b}
      (h : SameButBlanks a b) : SameButBlanks (g ++ a) (g' ++ b)

/-- The text made of texts and blocks in turn. -/
def weave : List (Str × Str) → Str → Str
  | [], last => last
  | (t, b) :: bs, last => t ++ b ++ weave bs last

/-- The same with the whitespace at both ends of the text removed: blocks are not touched. -/
def weaveTrimmed : List (Str × Str) → Str → Str
  | [], last => strip last
  | (t, b) :: bs, last => lstrip t ++ b ++ weave bs (rstrip last)

/-- The same blocks, and texts that differ in blanks only. -/
inductive SameBlocks : List (Str × Str) → List (Str × Str) → Prop where
  | nil : SameBlocks [] []
  | cons (t t' b : Str) {bs bs'} (h : SameButBlanks t t') (hr : SameBlocks bs bs') :
      SameBlocks ((t, b) :: bs) ((t', b) :: bs')

end L2J.Spec
