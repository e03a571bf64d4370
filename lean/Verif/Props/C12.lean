import Verif.Lemmas.Doc
/-!
C12 Equations, tables, figures and algorithms are numbered 1..n in document order: in the output of the
builder the numbered tokens of each of the four kinds, read in document order, carry exactly the numberings
'1','2',...,'n'; tokens of those kinds not flagged numbered carry no number; no other token is given a
number from those counters.
-/
namespace L2J
open Spec

/-- The decimal rendering used below is the usual one: it reads back as the number, consists of digits and
has no leading zero. -/
theorem C12_decimal (n : Nat) : decVal (natStr n) = n ∧ (∀ c ∈ natStr n, 48 ≤ c.toNat ∧ c.toNat < 58) ∧
    (0 < n → (natStr n).head? ≠ some '0') :=
  ⟨natStr_val n, natStr_digits n, natStr_head n⟩

/-- Every document as the parser produces it (headings without content of their own, appendix marks at top
level only, nothing numbered inside bibliographies): the numbered tokens of each simple kind in the output
are those of the input, in the same order, numbered 1, 2, 3, ...

Missing for the full property: tokens inside table cells (see `C12_violated_in_table`). -/
theorem C12_numbered_partial (st : Num) (doc out : List Item) (n : Num) (k : TType) (hk : k ∈ simpleKinds)
    (hs : ShapedL doc) (hp : ∀ x ∈ doc, TopPlain skipBib x)
    (h : organizeContent st doc = some (out, n)) :
    attrsOf (isNumbered k) (flatList skipBib out 0) =
      (attrsOf (isNumbered k) (flatList skipBib doc 0)).mapIdx
        (fun i a => { a with numbering := some (natStr (i + 1)) }) := by
  obtain ⟨ia, ha⟩ := organizeContent_flat goodSkip_bib st doc hs hp
    (Or.inl (by intro a ha; simp [skipBib, ha])) out n h
  have := (ann_simple k hk _ _ _ _ _ _ ha).1
  have hz : cnt k {} = 0 := by unfold cnt; split <;> rfl
  rw [this, hz, processTokens_flat goodSkip_bib _ _ doc hs 0]
  · simp
  · intro a hx
    simp only [isNumbered, decide_eq_false_iff_not, hx]
    intro hh
    have := hh.1
    subst this
    simp [simpleKinds] at hk

/-- The number strings themselves: '1', '2', ..., 'n'. -/
theorem C12_sequence_partial (st : Num) (doc out : List Item) (n : Num) (k : TType) (hk : k ∈ simpleKinds)
    (hs : ShapedL doc) (hp : ∀ x ∈ doc, TopPlain skipBib x)
    (h : organizeContent st doc = some (out, n)) :
    (attrsOf (isNumbered k) (flatList skipBib out 0)).map (·.numbering) =
      (List.range (attrsOf (isNumbered k) (flatList skipBib doc 0)).length).map (fun i => some (natStr (i + 1))) := by
  rw [C12_numbered_partial st doc out n k hk hs hp h]
  apply List.ext_getElem
  · simp
  · intro i h1 h2; simp

theorem attrsOf_kept (p : Attrs → Bool) (f : Attrs → Option Str)
    (hp : ∀ a a' : Attrs, a'.core = a.core → p a' = p a)
    (hf : ∀ a a' : Attrs, p a = true → a'.core = a.core → (givesNumber a = false → a'.numbering = a.numbering) → f a' = f a)
    {evs evs' : List Ev} (h : AllKept evs evs') :
    (attrsOf p evs').map f = (attrsOf p evs).map f := by
  induction h with
  | nil => rfl
  | cons ev ev' evs evs' hk _ ih =>
    obtain ⟨node, e⟩ := ev
    obtain ⟨node', e'⟩ := ev'
    have hn := hk.node
    cases node <;> cases node' <;> simp only [] at hn
    · simpa only [attrsOf, List.filterMap_cons] using ih
    · simpa only [attrsOf, List.filterMap_cons] using ih
    · rename_i a t a' t'
      have hpe := hp a a' hn.2.1
      simp only [attrsOf, List.filterMap_cons] at ih ⊢
      rw [hpe]
      by_cases hpa : p a = true
      · simp only [hpa, if_true, List.map_cons, ih, hf a a' hpa hn.2.1 hn.2.2.2.2]
      · simp only [Bool.not_eq_true] at hpa
        simpa [hpa] using ih

/-- Unnumbered tokens of the four kinds keep whatever number they came with (none), whatever is built. -/
theorem C12_unnumbered (st : Num) (doc out : List Item) (n : Num) (k : TType) (hk : k ∈ simpleKinds)
    (hs : ShapedL doc) (hp : ∀ x ∈ doc, TopPlain skipBib x)
    (h : organizeContent st doc = some (out, n)) :
    (attrsOf (isUnnumbered k) (flatList skipBib out 0)).map (·.numbering) =
      (attrsOf (isUnnumbered k) (flatList skipBib doc 0)).map (·.numbering) := by
  obtain ⟨ia, ha⟩ := organizeContent_flat goodSkip_bib st doc hs hp
    (Or.inl (by intro a ha; simp [skipBib, ha])) out n h
  rw [← processTokens_flat goodSkip_bib (isUnnumbered k) _ doc hs 0]
  · refine attrsOf_kept _ _ ?_ ?_ (ann_kept _ _ _ _ _ _ ha)
    · intro a a' hc
      have h1 : a'.type = a.type := congrArg (·.1) hc
      have h2 : a'.numbered = a.numbered := congrArg (·.2.2.1) hc
      simp [isUnnumbered, h1, h2]
    · intro a a' hpa _ hn
      apply hn
      simp only [isUnnumbered, decide_eq_true_eq] at hpa
      have hks : k ≠ .section := by intro e; subst e; simp [simpleKinds] at hk
      simp [givesNumber, hpa.1, hpa.2, hks]
  · intro a hx
    simp only [isUnnumbered, decide_eq_false_iff_not, hx]
    intro hh
    have := hh.1
    subst this
    simp [simpleKinds] at hk

/-- Tokens of every other kind (not a heading, not a theorem-like environment, not text, which has no
number) keep the number they came with. -/
theorem C12_others (st : Num) (doc out : List Item) (n : Num) (k : TType)
    (hk : k ∉ [.equation, .table, .figure, .algorithm, .math_env, .section, .text])
    (hs : ShapedL doc) (hp : ∀ x ∈ doc, TopPlain skipBib x)
    (h : organizeContent st doc = some (out, n)) :
    (attrsOf (fun a => a.type = k) (flatList skipBib out 0)).map (·.numbering) =
      (attrsOf (fun a => a.type = k) (flatList skipBib doc 0)).map (·.numbering) := by
  obtain ⟨ia, ha⟩ := organizeContent_flat goodSkip_bib st doc hs hp
    (Or.inl (by intro a ha; simp [skipBib, ha])) out n h
  simp only [List.mem_cons, List.not_mem_nil, or_false, not_or] at hk
  rw [← processTokens_flat goodSkip_bib (fun a => a.type = k) _ doc hs 0]
  · refine attrsOf_kept _ _ ?_ ?_ (ann_kept _ _ _ _ _ _ ha)
    · intro a a' hc
      have h1 : a'.type = a.type := congrArg (·.1) hc
      simp [h1]
    · intro a a' hpa _ hn
      apply hn
      simp only [decide_eq_true_eq] at hpa
      simp [givesNumber, hpa, simpleKinds, hk]
  · intro a hx
    simp only [decide_eq_false_iff_not, hx]
    exact fun e => hk.2.2.2.2.2.2 e.symm

/-- The full property fails inside table cells: a numbered equation in a table row gets no number, while the
equation after the table is number 1 (builder.py:349-351 passes lists through unread). -/
theorem C12_violated_in_table :
    let eq : Attrs := { type := .equation, numbered := some true }
    let tab : Attrs := { type := .tabular, hasList := true }
    organizeContent {} [.tok tab [] [.lst [.tok eq [] []]], .tok eq [] []] =
      some ([.tok tab [] [.lst [.tok eq [] []]], .tok { eq with numbering := some "1".toList } [] []], { eq := 1 }) := by
  rfl

/-- The hypotheses are met by a document with a section, an equation inside a list and an appendix. -/
example :
    let eq : Item := .tok { type := .equation, numbered := some true } [] []
    let doc : List Item := [.tok { type := .section, level := some 1 } [] [],
      .tok { type := .list, hasList := true } [] [.tok { type := .other "item".toList, hasList := true } [] [eq]],
      .tok { type := .appendix } [] [], eq]
    ShapedL doc ∧ (∀ x ∈ doc, TopPlain skipBib x) ∧
    (organizeContent {} doc).map (fun r => (attrsOf (isNumbered .equation) (flatList skipBib r.1 0)).map (·.numbering)) =
      some [some "1".toList, some "2".toList] := by
  refine ⟨by simp [ShapedL, Shaped], ?_, by decide +kernel⟩
  intro x hx
  simp only [List.mem_cons, List.not_mem_nil, or_false] at hx
  rcases hx with rfl | rfl | rfl | rfl
  · left; simp [Plain, PlainL, skipBib]
  · left; simp [Plain, PlainL, skipBib]
  · right; exact ⟨_, _, _, rfl, rfl, trivial⟩
  · left; simp [Plain, PlainL, skipBib]

end L2J
