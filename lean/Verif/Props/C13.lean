import Verif.Lemmas.Doc
import Verif.Lemmas.SecExt
/-!
C13 Section numbers are unique and hierarchical: among numbered sections of levels 1 to 3 in a document body,
no two sections receive the same number, and a section's number extends the number of the enclosing
lower-level section.
-/
namespace L2J
open Spec

/-- Uniqueness, for every document as the parser produces it (nested content included) with at most one
appendix mark. Since the build succeeds, every numbered section has level 1 to 3 (C20). The bound keeps
appendix letters `chr(64 + n)` below the surrogate range.

Missing for the full property: documents with two appendix marks, see `C13_violated_two_appendices`. -/
theorem C13_unique_partial (st : Num) (doc out : List Item) (n : Num)
    (hs : ShapedL doc) (hp : ∀ x ∈ doc, TopPlain skipBib x)
    (happ : (attrsOf isAppendix (flatList skipBib doc 0)).length ≤ 1)
    (hbound : (attrsOf isNumberedSection (flatList skipBib doc 0)).length < 55232)
    (h : organizeContent st doc = some (out, n)) :
    ((attrsOf isNumberedSection (flatList skipBib out 0)).map (·.numbering)).Nodup := by
  obtain ⟨ia, ha⟩ := organizeContent_flat goodSkip_bib st doc hs hp
    (Or.inl (by intro a ha; simp [skipBib, ha])) out n h
  rw [← processTokens_flat goodSkip_bib isAppendix (by intro a hx; simp [isAppendix, hx]) doc hs 0] at happ
  rw [← processTokens_flat goodSkip_bib isNumberedSection (by intro a hx; simp [isNumberedSection, hx]) doc hs 0] at hbound
  obtain ⟨ks, h1, h2, h3⟩ := ann_keys _ _ _ _ _ _ ha (by simpa using happ)
  rw [h1]
  refine keys_nodup h2 ?_
  intro k hk
  have := (h3 k hk).2
  have e : ({} : Num).s1 = 0 := rfl
  omega

/-- Every numbered section does carry a number (so uniqueness is not about missing numbers). -/
theorem C13_every_section_numbered (st : Num) (doc out : List Item) (n : Num)
    (hs : ShapedL doc) (hp : ∀ x ∈ doc, TopPlain skipBib x)
    (happ : (attrsOf isAppendix (flatList skipBib doc 0)).length ≤ 1)
    (h : organizeContent st doc = some (out, n)) :
    ∀ a ∈ attrsOf isNumberedSection (flatList skipBib out 0), ∃ s, a.numbering = some s ∧ s ≠ [] := by
  obtain ⟨ia, ha⟩ := organizeContent_flat goodSkip_bib st doc hs hp
    (Or.inl (by intro a ha; simp [skipBib, ha])) out n h
  rw [← processTokens_flat goodSkip_bib isAppendix (by intro a hx; simp [isAppendix, hx]) doc hs 0] at happ
  obtain ⟨ks, h1, h2, h3⟩ := ann_keys _ _ _ _ _ _ ha (by simpa using happ)
  intro a hm
  have : a.numbering ∈ (attrsOf isNumberedSection (flatList skipBib out 0)).map (·.numbering) := List.mem_map.2 ⟨a, hm, rfl⟩
  rw [h1, List.mem_map] at this
  obtain ⟨k, _, hk⟩ := this
  refine ⟨render k, hk.symm, ?_⟩
  intro he
  unfold render at he
  simp only [List.append_eq_nil_iff] at he
  have := he.1.1
  unfold firstStr at this
  split at this
  · simp at this
  · exact natStr_ne_nil _ this

/-- Hierarchy, for every document with section headings at top level or in an appendix: the number of a
section is the number of each numbered section around it, followed by a dot and more. -/
theorem C13_extends_partial (st : Num) (doc out : List Item) (n : Num) (hd : SecTopL doc)
    (h : organizeContent st doc = some (out, n)) : TreeL NumberExtends [] out :=
  organize_ext _ (concat_secTop _ (procItems_secTop doc hd)) _ _ _ h

/-- The full property fails for two appendix marks: both restart at "A" (builder.py:353-371). -/
theorem C13_violated_two_appendices :
    let app : Item := .tok { type := .appendix, hasList := true } [] []
    let sec : Item := .tok { type := .section, level := some 1, hasList := true } [] []
    (organizeContent {} [app, sec, app, sec]).map
        (fun r => (attrsOf isNumberedSection (flatList skipBib r.1 0)).map (·.numbering)) =
      some [some "A".toList, some "A".toList] := by
  decide +kernel

/-- An appendix mark inside another token restarts the outer counters while the outer sections stay numeric:
two sections numbered "1" (builder.py:363-364, 371). -/
theorem C13_violated_nested_appendix :
    let sec : Item := .tok { type := .section, level := some 1, hasList := true } [] []
    let env : Item := .tok { type := .other "environment".toList, hasList := true } []
      [.tok { type := .appendix, hasList := true } [] []]
    (organizeContent {} [sec, env, sec]).map
        (fun r => (attrsOf isNumberedSection (flatList skipBib r.1 0)).map (·.numbering)) =
      some [some "1".toList, some "1".toList] := by
  decide +kernel

/-- The hypotheses are met by a document with sections at all three levels and an appendix. -/
example :
    let sec (l : Nat) : Item := .tok { type := .section, level := some l } [] []
    let doc : List Item := [sec 1, sec 2, .raw "x".toList, sec 3, sec 1, sec 2, .tok { type := .appendix } [] [], sec 1, sec 2]
    ShapedL doc ∧ (∀ x ∈ doc, TopPlain skipBib x) ∧ SecTopL doc ∧
    (attrsOf isAppendix (flatList skipBib doc 0)).length ≤ 1 ∧
    (attrsOf isNumberedSection (flatList skipBib doc 0)).length < 55232 ∧
    (organizeContent {} doc).map (fun r => (attrsOf isNumberedSection (flatList skipBib r.1 0)).map (·.numbering)) =
      some (["1", "1.1", "1.1.1", "2", "2.1", "A", "A.1"].map fun s => some s.toList) := by
  refine ⟨by simp [ShapedL, Shaped], ?_, by simp [SecTopL, SecTop, NoSecL], by decide +kernel, by decide +kernel, by decide +kernel⟩
  intro x hx
  simp only [List.mem_cons, List.not_mem_nil, or_false] at hx
  rcases hx with rfl | rfl | rfl | rfl | rfl | rfl | rfl | rfl | rfl
  all_goals first
    | (left; simp [Plain, PlainL, skipBib]; done)
    | (right; exact ⟨_, _, _, rfl, rfl, trivial⟩)

end L2J
