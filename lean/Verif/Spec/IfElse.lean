import Verif.Model.IfElse
/-! What the branches of a conditional are. The only things used from the model are the four search functions and
the result types. -/
namespace L2J.Spec

/-- Matches are non-empty and inside the searched text. -/
def CondDelims.WF (D : CondDelims) : Prop :=
  ∀ s h, (D.ifs s = some h ∨ D.fi s = some h ∨ D.els s = some h ∨ D.elsif s = some h) →
    h.start < h.stop ∧ h.stop ≤ s.length

/-- A delimiter found in the text: `t[a:b]` matches the pattern for `kind`. -/
structure CondEv where
  kind : CondKind
  a : Nat
  b : Nat
  group : Option Str

/-- The leftmost match of the pattern for `k` at or after `p`. -/
def FirstOf (D : CondDelims) (t : Str) (p : Nat) (k : CondKind) (h : Hit) : Prop :=
  (match k with
    | .start => D.ifs (t.drop p)
    | .fi => D.fi (t.drop p)
    | .els => D.els (t.drop p)
    | .elsif => D.elsif (t.drop p)) = some h

/-- Preference among matches that start at the same place. -/
def rank : CondKind → Nat
  | .start => 0
  | .fi => 1
  | .els => 2
  | .elsif => 3

/-- Inside a nested conditional only `\if...` and `\fi` count. -/
def Counts (depth : Nat) (k : CondKind) : Prop := depth = 1 ∨ k = .start ∨ k = .fi

/-- `e` is the next delimiter at or after `p` that counts at nesting depth `depth`. -/
def NextCond (D : CondDelims) (t : Str) (p depth : Nat) (e : CondEv) : Prop :=
  ∃ h, FirstOf D t p e.kind h ∧ Counts depth e.kind ∧ e.a = p + h.start ∧ e.b = p + h.stop ∧ e.group = h.group ∧
    ∀ k' h', FirstOf D t p k' h' → Counts depth k' →
      h.start < h'.start ∨ (h.start = h'.start ∧ rank e.kind ≤ rank k')

/-- Reading from `p` at nesting depth `d`, `evs` are the delimiters of the outer conditional, in order: `\else`s and
`\elsif`s at depth one, and last the matching `\fi`. -/
inductive TopDelims (D : CondDelims) (t : Str) : Nat → Nat → List CondEv → Prop
  | fi (p e) : NextCond D t p 1 e → e.kind = .fi → TopDelims D t p 1 [e]
  | sep (p e es) : NextCond D t p 1 e → e.kind = .els ∨ e.kind = .elsif → TopDelims D t e.b 1 es →
      TopDelims D t p 1 (e :: es)
  | opens (p d e es) : 1 ≤ d → NextCond D t p d e → e.kind = .start → TopDelims D t e.b (d + 1) es →
      TopDelims D t p d es
  | closes (p d e es) : 1 ≤ d → NextCond D t p (d + 1) e → e.kind = .fi → TopDelims D t e.b d es →
      TopDelims D t p (d + 1) es

/-- Reading from `p` at depth `d`, the text runs out of delimiters before the conditional is closed, some text
being left. -/
inductive RunsDry (D : CondDelims) (t : Str) : Nat → Nat → Prop
  | here (p d) : 1 ≤ d → p < t.length → (∀ e, ¬ NextCond D t p d e) → RunsDry D t p d
  | sep (p e) : NextCond D t p 1 e → e.kind = .els ∨ e.kind = .elsif → RunsDry D t e.b 1 → RunsDry D t p 1
  | opens (p d e) : 1 ≤ d → NextCond D t p d e → e.kind = .start → RunsDry D t e.b (d + 1) → RunsDry D t p d
  | closes (p d e) : 1 ≤ d → NextCond D t p (d + 1) e → e.kind = .fi → RunsDry D t e.b d → RunsDry D t p (d + 1)

end L2J.Spec

namespace L2J.Spec

/-- The stretches of text between consecutive delimiters, from `p` on (not including anything after the last). -/
def between (t : Str) : Nat → List CondEv → List Str
  | _, [] => []
  | p, e :: es => slice t p e.a :: between t e.b es

/-- Reading from `p` at depth `d`, the text ends exactly at the end of a delimiter and the conditional is still
open (only `\if...`, `\else` and `\fi` occurring). -/
inductive EndsOpen (D : CondDelims) (t : Str) : Nat → Nat → Prop
  | here (d) : 1 ≤ d → EndsOpen D t t.length d
  | els (p e) : NextCond D t p 1 e → e.kind = .els → EndsOpen D t e.b 1 → EndsOpen D t p 1
  | opens (p d e) : 1 ≤ d → NextCond D t p d e → e.kind = .start → EndsOpen D t e.b (d + 1) → EndsOpen D t p d
  | closes (p d e) : 1 ≤ d → NextCond D t p (d + 1) e → e.kind = .fi → EndsOpen D t e.b d → EndsOpen D t p (d + 1)

end L2J.Spec
