import Verif.Props.C02
/-! C05: `extract_args` and the amount of input it reports as consumed. -/
namespace L2J
open Spec

/-- The full property: the optional blocks, then the required blocks right after them, and
`end_pos` is the end of the last block extracted. (This is false of the code, see below.) -/
def ArgsSpec (content : Str) (reqArgs optArgs : Nat) (r : ArgsResult) : Prop :=
  ∃ p q, r.opt.length ≤ optArgs ∧ Blocks content '[' ']' 0 r.opt p ∧
    (r.opt.length < optArgs → NoBlockFrom content '[' ']' p) ∧
    r.req.length ≤ reqArgs ∧ Blocks content '{' '}' p r.req q ∧
    (r.req.length < reqArgs → NoBlockFrom content '{' '}' q) ∧ r.endPos = q

theorem Spec.Blocks.shift {t : Str} {o c : Char} (k : Nat) (hk : escapedAt t k = false) (hkl : k ≤ t.length)
    {p q : Nat} {bs : List Str} (h : Blocks (t.drop k) o c p bs q) :
    Blocks t o c (k + p) bs (k + q) := by
  induction h with
  | nil p => exact .nil _
  | cons p s e q bs h1 h2 _ ih =>
    rw [slice_drop]
    have hb := (isBlock_drop_iff t o c k s e hk hkl).1 h2
    have hlen := block_len h2
    have hs : SpaceTo t (k + p) (k + s) := by
      refine ⟨by have := h1.1; omega, fun j h3 h4 => ?_, ?_⟩
      · have := h1.2.1 (j - k) (by omega) (by omega)
        rw [List.getElem?_drop, show k + (j - k) = j by omega] at this
        exact this
      · intro x hx
        exact h1.2.2 x (by rw [List.getElem?_drop]; exact hx)
    have := Blocks.cons (k + p) (k + s) (k + e) (k + q) bs hs hb ih
    rw [show k + e - 1 = k + (e - 1) by omega, show k + s + 1 = k + (s + 1) by omega] at this
    exact this

theorem noBlockFrom_shift {t : Str} {o c : Char} (k q : Nat) (hk : escapedAt t k = false) (hkl : k ≤ t.length)
    (h : NoBlockFrom (t.drop k) o c q) : NoBlockFrom t o c (k + q) := by
  rintro ⟨s, e, h1, h2⟩
  obtain ⟨s', rfl⟩ : ∃ a, s = k + a := ⟨s - k, by have := h1.1; omega⟩
  obtain ⟨e', rfl⟩ : ∃ a, e = k + a := ⟨e - k, by have := h2.lt; omega⟩
  refine h ⟨s', e', ⟨by have := h1.1; omega, fun j h3 h4 => ?_, fun x hx => ?_⟩,
    (isBlock_drop_iff t o c k s' e' hk hkl).2 h2⟩
  · rw [List.getElem?_drop]; exact h1.2.1 (k + j) (by omega) (by omega)
  · rw [List.getElem?_drop] at hx; exact h1.2.2 x hx

/-- Blocks end just after a live closer (or are empty). -/
theorem Spec.Blocks.end_unescaped {t : Str} {o c : Char} (hc : c ≠ '\\') {p q : Nat} {bs : List Str}
    (h : Blocks t o c p bs q) (hp : escapedAt t p = false) : escapedAt t q = false := by
  induction h with
  | nil p => exact hp
  | cons p s e q bs h1 h2 _ ih => exact ih (block_end_unescaped hc h2)

/-- C05, what the code really computes: the extracted blocks are the right ones, and
`end_pos` is the end `q` of the last block *minus the length `p` consumed by the optional blocks*
when required arguments are requested. -/
theorem C05_args_exact (content : Str) (reqArgs optArgs : Nat) :
    ∃ p q, (extractArgs content reqArgs optArgs).opt.length ≤ optArgs ∧
      Blocks content '[' ']' 0 (extractArgs content reqArgs optArgs).opt p ∧
      ((extractArgs content reqArgs optArgs).opt.length < optArgs → NoBlockFrom content '[' ']' p) ∧
      (extractArgs content reqArgs optArgs).req.length ≤ reqArgs ∧
      Blocks content '{' '}' p (extractArgs content reqArgs optArgs).req q ∧
      ((extractArgs content reqArgs optArgs).req.length < reqArgs → NoBlockFrom content '{' '}' q) ∧
      (extractArgs content reqArgs optArgs).endPos = if reqArgs > 0 then q - p else q := by
  -- first stage
  have stage1 : ∃ p, ∃ opt : List Str, (if optArgs > 0 then seqBlocks content '[' ']' (some optArgs) else ([], 0)) = (opt, p) ∧
      opt.length ≤ optArgs ∧ Blocks content '[' ']' 0 opt p ∧
      (opt.length < optArgs → NoBlockFrom content '[' ']' p) := by
    by_cases h : optArgs > 0
    · rw [if_pos h]
      obtain ⟨h1, h2, h3⟩ := (C02_seq_iff content '[' ']' (by decide) optArgs _ _).1 rfl
      exact ⟨_, _, rfl, h1, h2, h3⟩
    · rw [if_neg h]
      exact ⟨0, [], rfl, by simp, .nil 0, fun h' => absurd h' (by simp; omega)⟩
  obtain ⟨p, opt, e1, h1, h2, h3⟩ := stage1
  have hpl := h2.le_length (Nat.zero_le _)
  have hpe := h2.end_unescaped (by decide) rfl
  have hcont : (if p > 0 then content.drop p else content) = content.drop p := by
    by_cases h : p > 0
    · rw [if_pos h]
    · rw [if_neg h]; have : p = 0 := by omega
      subst this; rfl
  unfold extractArgs
  rw [e1]
  simp only [hcont]
  by_cases hr : reqArgs > 0
  · simp only [hr, if_true]
    obtain ⟨g1, g2, g3⟩ := (C02_seq_iff (content.drop p) '{' '}' (by decide) reqArgs _ _).1 rfl
    refine ⟨p, p + (seqBlocks (content.drop p) '{' '}' (some reqArgs)).2, h1, h2, h3, g1, ?_, ?_, ?_⟩
    · exact Blocks.shift p hpe hpl g2
    · intro h; exact noBlockFrom_shift p _ hpe hpl (g3 h)
    · simp
  · simp only [hr, if_false]
    exact ⟨p, p, h1, h2, h3, by simp, .nil p, fun h => absurd h (by simp; omega), rfl⟩

/-- C05 (partial): the full specification holds when no required argument is requested, or when no
optional block was found. Missing: calls that request required arguments and find an optional
block, where the code violates the property (`C05_args_violated`). -/
theorem C05_args_partial (content : Str) (reqArgs optArgs : Nat)
    (h : reqArgs = 0 ∨ (extractArgs content reqArgs optArgs).opt = []) :
    ArgsSpec content reqArgs optArgs (extractArgs content reqArgs optArgs) := by
  obtain ⟨p, q, h1, h2, h3, h4, h5, h6, h7⟩ := C05_args_exact content reqArgs optArgs
  refine ⟨p, q, h1, h2, h3, h4, h5, h6, ?_⟩
  rw [h7]
  rcases h with h | h
  · simp [h]
  · rw [h] at h2; cases h2; simp

/-- The specification's end position is unique. -/
theorem ArgsSpec.unique {content : Str} {reqArgs optArgs : Nat} {r r' : ArgsResult}
    (h : ArgsSpec content reqArgs optArgs r) (h' : ArgsSpec content reqArgs optArgs r') : r = r' := by
  obtain ⟨p, q, h1, h2, h3, h4, h5, h6, h7⟩ := h
  obtain ⟨p', q', g1, g2, g3, g4, g5, g6, g7⟩ := h'
  obtain ⟨a, b⟩ := h2.unique g2 h1 g1 h3 g3
  subst b
  obtain ⟨a', b'⟩ := h5.unique g5 h4 g4 h6 g6
  cases r; cases r'
  simp_all

/-- C05 is violated whenever required arguments are requested and an optional block is present:
the reported position is never the end of the last extracted block. -/
theorem C05_args_violated_always (content : Str) (reqArgs optArgs : Nat) (hreq : 0 < reqArgs)
    (hopt : (extractArgs content reqArgs optArgs).opt ≠ []) :
    ¬ ArgsSpec content reqArgs optArgs (extractArgs content reqArgs optArgs) := by
  obtain ⟨p, q, h1, h2, h3, h4, h5, h6, h7⟩ := C05_args_exact content reqArgs optArgs
  rintro ⟨p', q', g1, g2, g3, g4, g5, g6, g7⟩
  obtain ⟨_, b⟩ := h2.unique g2 h1 g1 h3 g3
  subst b
  obtain ⟨_, b'⟩ := h5.unique g5 h4 g4 h6 g6
  subst b'
  rw [if_pos hreq] at h7
  have hle := h5.le
  have hle2 := h2.le
  have : 0 < (extractArgs content reqArgs optArgs).opt.length := List.length_pos_iff.2 hopt
  omega

/-- C05, concrete violation: `extract_args("[a]{b}rest", 1, 1)` reports 3 instead of 6, so
`content[end_pos:]` is `{b}rest`: the argument shows up again in the body. -/
theorem C05_args_violated :
    ¬ ∀ content reqArgs optArgs, ArgsSpec content reqArgs optArgs (extractArgs content reqArgs optArgs) := by
  intro h
  exact C05_args_violated_always "[a]{b}rest".toList 1 1 (by decide) (by decide) (h _ _ _)

/-- Tests: the defect, and a case meeting the hypothesis of the partial theorem. -/
example : extractArgs "[a]{b}rest".toList 1 1 = ⟨["b".toList], ["a".toList], 3⟩ := by decide
example : extractArgs "{a} {b}rest".toList 2 1 = ⟨["a".toList, "b".toList], [], 7⟩ := by decide

end L2J
