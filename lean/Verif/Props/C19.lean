import Verif.Lemmas.Tree
/-!
C19 List depth equals nesting depth: every list token in the built document has depth one more than the
number of list tokens enclosing it.
-/
namespace L2J
open Spec

/-- Every document: in the built tree each list token (reached through token contents) has as depth one
more than the number of list tokens around it. Tokens inside table cells and titles are not visited by the
builder and not covered (`C19_violated_in_table`). -/
theorem C19_depth_partial (st : Num) (doc out : List Item) (n : Num) (h : organizeContent st doc = some (out, n)) :
    TreeL DepthRight [] out :=
  go _ _ (organize_nest _ _ _ _ h)
where
  go : ∀ (anc : List Attrs) (l : List Item), TreeL Nest anc l → TreeL DepthRight anc l
  | _, [], _ => by simp [TreeL]
  | anc, .raw s :: xs, h => by simp only [TreeL, TreeI, true_and] at h ⊢; exact go anc xs h
  | anc, .lst s :: xs, h => by simp only [TreeL, TreeI, true_and] at h ⊢; exact go anc xs h
  | anc, .tok a t c :: xs, h => by
    simp only [TreeL, TreeI] at h ⊢
    exact ⟨⟨h.1.1.1, go _ c h.1.2⟩, go anc xs h.2⟩

/-- A list in a table cell is given no depth. -/
theorem C19_violated_in_table :
    let li : Item := .tok { type := .list, hasList := true } [] []
    let tab : Attrs := { type := .tabular, hasList := true }
    organizeContent {} [.tok tab [] [.lst [li]]] = some ([.tok tab [] [.lst [li]]], {}) := by rfl

/-- Two nested lists inside a section. -/
example :
    let li (d : Option Nat) (c : List Item) : Item := .tok { type := .list, hasList := true, depth := d } [] c
    let item (c : List Item) : Item := .tok { type := .other "item".toList, hasList := true } [] c
    organizeContent {} [.tok { type := .section, level := some 1, numbered := some false } [] [], li none [item [li none []]]] =
      some ([.tok { type := .section, level := some 1, numbered := some false, hasList := true } []
        [li (some 1) [item [li (some 2) []]]]], {}) := by rfl

end L2J
