import Verif.Model.Archive
/-! What it means for an extraction to stay inside a directory. -/
namespace L2J.Spec

/-- A name of a directory entry. -/
structure ValidName (c : Str) : Prop where
  nonempty : c ≠ []
  noSlash : '/' ∉ c
  notDot : c ≠ ['.']
  notDotDot : c ≠ ['.', '.']

/-- The absolute path with these components. -/
def absPath (p : List Str) : Str := p.flatMap fun c => '/' :: c

/-- A freshly made directory: it and the directories above it are directories, and nothing is in it. -/
structure FreshDir (fs : PFS) (base : List Str) : Prop where
  ne : base ≠ []
  valid : ∀ c ∈ base, ValidName c
  dirs : ∀ p, p <+: base → fs p = some .dir
  fresh : ∀ p, base <+: p → p ≠ base → fs p = none

/-- Nothing outside of `base` differs. -/
def OutsideUnchanged (base : List Str) (fs fs' : PFS) : Prop := ∀ p, ¬ base <+: p → fs' p = fs p

end L2J.Spec
