import Verif.Lemmas.Doc
/-!
C15 Organising loses no content and preserves document order: flattening the organised tree of a flat token
sequence (no appendix/bibliography markers) in preorder gives back exactly the input sequence.
-/
namespace L2J
open Spec

/-- Reading the organised tree in preorder gives the reading of the input, node by node: the same bare
strings and lists, and for each token the same type, level, numbered flag, styles, title and extra keys, the
same enclosing lists, the same text (headings get an empty content list) and the same number, except where
the builder assigns one. Holds for nested content and with appendix marks and bibliographies too, as long as
no bibliography follows an appendix mark and headings bring no content of their own. -/
theorem C15_same_reading (doc out : List Item) (n n' : Num) (hp : ∀ x ∈ doc, TopPlain noSkip x)
    (hb : doc.Pairwise fun x y => x.hasType .appendix → ¬ y.hasType .bibliography)
    (h : organize doc n = some (out, n')) :
    AllKept (flatList noSkip doc 0) (flatList noSkip out 0) := by
  obtain ⟨ia, ha⟩ := organize_flat goodSkip_none doc hp (Or.inr hb) n n' out h
  exact ann_kept _ _ _ _ _ _ ha

/-- The same for the public entry point, whose input is first merged (C17). -/
theorem C15_document (st : Num) (doc out : List Item) (n' : Num) (hs : ShapedL doc)
    (hp : ∀ x ∈ doc, TopPlain noSkip x)
    (hb : doc.Pairwise fun x y => x.hasType .appendix → ¬ y.hasType .bibliography)
    (h : organizeContent st doc = some (out, n')) :
    AllKept (flatList noSkip (processTokens doc) 0) (flatList noSkip out 0) := by
  obtain ⟨ia, ha⟩ := organizeContent_flat goodSkip_none st doc hs hp (Or.inr hb) out n' h
  exact ann_kept _ _ _ _ _ _ ha

/-- A flat token: no content list of its own. -/
def FlatTok : Item → Prop
  | .tok a _ c => a.type ≠ .appendix ∧ a.type ≠ .bibliography ∧ c = []
  | _ => True

theorem Spec.AllKept.length : ∀ {x y : List Ev}, AllKept x y → y.length = x.length := by
  intro x y h
  induction h with
  | nil => rfl
  | cons _ _ _ _ _ _ ih => simp [ih]

/-- A flat token sequence: the tree has exactly as many nodes as the input has tokens, in the same order. -/
theorem C15_flat (doc out : List Item) (n n' : Num) (hf : ∀ x ∈ doc, FlatTok x)
    (h : organize doc n = some (out, n')) :
    AllKept (flatList noSkip doc 0) (flatList noSkip out 0) ∧ (flatList noSkip out 0).length = doc.length := by
  have hplain : ∀ x ∈ doc, TopPlain noSkip x := by
    intro x hx
    left
    have := hf x hx
    cases x with
    | raw s => simp [Plain]
    | lst s => simp [Plain]
    | tok a t c =>
      obtain ⟨h1, h2, rfl⟩ := this
      simp [Plain, PlainL, noSkip, h1]
  have hb : doc.Pairwise fun x y => x.hasType .appendix → ¬ y.hasType .bibliography := by
    refine List.Pairwise.imp_of_mem ?_ (List.pairwise_of_forall (R := fun _ _ => True) (by simp))
    intro x y hx hy _ ha
    have := hf x hx
    cases x with
    | tok a t c => exact absurd ha this.1
    | raw s => simp [Item.hasType] at ha
    | lst s => simp [Item.hasType] at ha
  have hk := C15_same_reading doc out n n' hplain hb h
  refine ⟨hk, hk.length.trans ?_⟩
  clear hk hb hplain h
  induction doc with
  | nil => rfl
  | cons x xs ih =>
    have := hf x (by simp)
    simp only [flatList, List.length_append, List.length_cons, ih (fun y hy => hf y (by simp [hy]))]
    cases x with
    | raw s => simp [flatItem]; omega
    | lst s => simp [flatItem]; omega
    | tok a t c =>
      obtain ⟨_, _, rfl⟩ := this
      simp [flatItem, noSkip, flatList]; omega

/-- Beyond the property's scope the order is not kept: text after a bibliography that follows an appendix
mark is moved into the appendix, before the bibliography (builder.py:367, 394). -/
theorem C15_appendix_bibliography_reorders :
    let tx : Item := .tok { type := .text, text := some "x".toList } [] []
    let bib : Item := .tok { type := .bibliography, hasList := true } [] []
    organizeContent {} [.tok { type := .appendix, hasList := true } [] [], bib, tx] =
      some ([.tok { type := .appendix, hasList := true } [] [tx], bib], {}) := by
  rfl

/-- Content of a heading token is discarded (builder.py:319). -/
theorem C15_heading_content_discarded :
    let tx : Item := .tok { type := .text, text := some "x".toList } [] []
    organizeContent {} [.tok { type := .section, level := some 1, numbered := some false, hasList := true } [] [tx]] =
      some ([.tok { type := .section, level := some 1, numbered := some false, hasList := true } [] []], {}) := by
  rfl

example : ∀ x ∈ [Item.tok { type := .section, level := some 1 } [] [], .raw "a".toList,
    .tok { type := .paragraph, level := some 1 } [] [], .tok { type := .text } [] []], FlatTok x := by
  simp [FlatTok]

end L2J
