import Verif.Lemmas.Doc
import Verif.Lemmas.MathNum
/-!
C16 Theorem-like environments get distinct numbers: numbered theorem-like environments in one document receive
pairwise distinct numbers of the form section.counter.
-/
namespace L2J
open Spec

/-- Form: every numbered theorem-like environment carries "s.c" for two decimal numbers, and the pairs (s, c)
increase strictly in document order, for every document without appendix marks and unnumbered top-level
sections.

Missing for the full property: documents with such headings, where it is violated, see `C16_violated_star`
and `C16_violated_appendix`. -/
theorem C16_form_partial (st : Num) (doc out : List Item) (n : Num)
    (hs : ShapedL doc) (hp : ∀ x ∈ doc, TopPlain skipBib x)
    (hr : attrsOf restartsTheorems (flatList skipBib doc 0) = [])
    (h : organizeContent st doc = some (out, n)) :
    ∃ ks : List (Nat × Nat),
      (attrsOf (isNumbered .math_env) (flatList skipBib out 0)).map (·.numbering) =
        ks.map (fun k => some (natStr k.1 ++ '.' :: natStr k.2)) ∧
      ks.Pairwise (fun x y => x.1 < y.1 ∨ x.1 = y.1 ∧ x.2 < y.2) ∧ ∀ k ∈ ks, 1 ≤ k.1 ∨ 1 ≤ k.2 := by
  obtain ⟨ia, ha⟩ := organizeContent_flat goodSkip_bib st doc hs hp
    (Or.inl (by intro a ha; simp [skipBib, ha])) out n h
  rw [← processTokens_flat goodSkip_bib restartsTheorems (by intro a hx; simp [restartsTheorems, hx]) doc hs 0] at hr
  obtain ⟨ks, h1, h2, h3⟩ := ann_math _ _ _ _ _ _ ha hr
  refine ⟨ks, h1, h2, ?_⟩
  intro k hk
  have := h3 k hk
  unfold MKey.lt mkey at this
  simp only at this
  omega

/-- Pairwise distinct numbers, for the same documents. -/
theorem C16_distinct_partial (st : Num) (doc out : List Item) (n : Num)
    (hs : ShapedL doc) (hp : ∀ x ∈ doc, TopPlain skipBib x)
    (hr : attrsOf restartsTheorems (flatList skipBib doc 0) = [])
    (h : organizeContent st doc = some (out, n)) :
    ((attrsOf (isNumbered .math_env) (flatList skipBib out 0)).map (·.numbering)).Nodup := by
  obtain ⟨ks, h1, h2, _⟩ := C16_form_partial st doc out n hs hp hr h
  rw [h1, List.nodup_iff_pairwise_ne, List.pairwise_map]
  refine List.Pairwise.imp ?_ h2
  intro x y hxy he
  have := mrender_inj (Option.some.inj he)
  subst this
  omega

/-- The code violates the property: an unnumbered top-level section (`\section*`) restarts the counter without
a new section number (builder.py:388-390), so two theorems are both "1.1". -/
theorem C16_violated_star :
    let sec (b : Bool) : Item := .tok { type := .section, level := some 1, numbered := some b } [] []
    let thm : Item := .tok { type := .math_env, numbered := some true } [] []
    (organizeContent {} [sec true, thm, sec false, thm]).map
        (fun r => (attrsOf (isNumbered .math_env) (flatList skipBib r.1 0)).map (·.numbering)) =
      some [some "1.1".toList, some "1.1".toList] := by
  decide +kernel

/-- ... and in an appendix, whose section counter starts over but is printed as a digit in theorem numbers. -/
theorem C16_violated_appendix :
    let sec : Item := .tok { type := .section, level := some 1, numbered := some true } [] []
    let thm : Item := .tok { type := .math_env, numbered := some true } [] []
    (organizeContent {} [sec, thm, .tok { type := .appendix, hasList := true } [] [], sec, thm]).map
        (fun r => (attrsOf (isNumbered .math_env) (flatList skipBib r.1 0)).map (·.numbering)) =
      some [some "1.1".toList, some "1.1".toList] := by
  decide +kernel

/-- The hypotheses are met by a document with theorems before, inside and between sections. -/
example :
    let sec (l : Nat) : Item := .tok { type := .section, level := some l } [] []
    let thm : Item := .tok { type := .math_env, numbered := some true, hasList := true } [] []
    let doc : List Item := [thm, sec 1, thm, sec 2, thm, .tok { type := .other "quote".toList, hasList := true } [] [thm], sec 1, thm]
    ShapedL doc ∧ (∀ x ∈ doc, TopPlain skipBib x) ∧ attrsOf restartsTheorems (flatList skipBib doc 0) = [] ∧
    (organizeContent {} doc).map (fun r => (attrsOf (isNumbered .math_env) (flatList skipBib r.1 0)).map (·.numbering)) =
      some (["0.1", "1.1", "1.2", "1.3", "2.1"].map fun s => some s.toList) := by
  refine ⟨by simp [ShapedL, Shaped], ?_, by decide +kernel, by decide +kernel⟩
  intro x hx
  simp only [List.mem_cons, List.not_mem_nil, or_false] at hx
  rcases hx with rfl | rfl | rfl | rfl | rfl | rfl | rfl | rfl
  all_goals (left; simp [Plain, PlainL, skipBib])

end L2J
