import Verif.Lemmas.HeadsLast
/-!
C14 Section tree nesting: after organising, every section nested (directly) inside another section has a
strictly greater level, and content follows the section heading it came after.
-/
namespace L2J
open Spec

/-- Every document, whatever its tokens: in the built tree a section directly inside a section has a
strictly greater level, no section is directly inside a paragraph, and a paragraph directly inside a
paragraph has a strictly greater level. -/
theorem C14_nesting (st : Num) (doc out : List Item) (n : Num) (h : organizeContent st doc = some (out, n)) :
    TreeL HeadingsNested [] out := by
  have := organize_nest _ _ _ _ h
  exact go _ _ this
where
  go : ∀ (anc : List Attrs) (l : List Item), TreeL Nest anc l → TreeL HeadingsNested anc l
  | _, [], _ => by simp [TreeL]
  | anc, .raw s :: xs, h => by simp only [TreeL, TreeI, true_and] at h ⊢; exact go anc xs h
  | anc, .lst s :: xs, h => by simp only [TreeL, TreeI, true_and] at h ⊢; exact go anc xs h
  | anc, .tok a t c :: xs, h => by
    simp only [TreeL, TreeI] at h ⊢
    exact ⟨⟨h.1.1.2, go _ c h.1.2⟩, go anc xs h.2⟩

/-- Content goes to the nearest heading before it: in every content list of the built tree the tokens that
are not headings come before all headings, so (reading in document order, see C15) nothing is ever placed
beside an earlier subheading it came after. For documents without bibliography (which closes all headings)
whose appendix marks are plain marks. -/
theorem C14_content_follows_heading (st : Num) (doc out : List Item) (n : Num) (hd : NoBibL doc)
    (h : organizeContent st doc = some (out, n)) : AllLists HeadingsLast out :=
  organize_heads _ (concat_noBib _ (procItems_noBib doc hd)) _ _ _ h

/-- A concrete document: a subsection goes into the section, the next section does not, the text is placed
below the subsection it follows. -/
example :
    let sec (l : Nat) (s : Option Str) (c : List Item) : Item :=
      .tok { type := .section, level := some l, numbered := some true, numbering := s, hasList := s.isSome } [] c
    let tx : Item := .tok { type := .text, text := some "x".toList } [] []
    organizeContent {} [sec 1 none [], sec 2 none [], tx, sec 1 none []] =
      some ([sec 1 (some "1".toList) [sec 2 (some "1.1".toList) [tx]], sec 1 (some "2".toList) []], { s1 := 2 }) := by
  decide +kernel

/-- The hypothesis of the second theorem is met by a document with headings, an appendix and nested content. -/
example : NoBibL [.tok { type := .section, level := some 1 } [] [], .tok { type := .list, hasList := true } [] [.raw "x".toList],
    .tok { type := .appendix } [] [], .tok { type := .text } [] []] := by
  simp [NoBibL, NoBib]

end L2J
