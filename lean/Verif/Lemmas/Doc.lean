import Verif.Lemmas.Canon
import Verif.Lemmas.NatStr
/-! From `organize` to `organizeContent`. -/
namespace L2J
open Spec
variable {skip : Attrs → Bool}

theorem clear_eq (n : Num) : n.clear = {} := rfl

/-- A pairwise relation that ignores text tokens survives text merging. -/
theorem concat_pairwise (R : Item → Item → Prop)
    (h1 : ∀ x y, IsText x → R x y) (h2 : ∀ x y, IsText y → R x y) :
    ∀ (l : List Item) (cur : Option (Attrs × List Item × List Item)),
    (∀ a t c, cur = some (a, t, c) → a.type = .text) → l.Pairwise R → (concatText cur l).Pairwise R ∧
      ∀ y ∈ concatText cur l, IsText y ∨ y ∈ l := by
  intro l
  induction l with
  | nil =>
    intro cur hc _
    cases cur with
    | none => simp [concatText]
    | some r =>
      obtain ⟨a, t, c⟩ := r
      have := hc a t c rfl
      simp [concatText, IsText, this]
  | cons x rest ih =>
    intro cur hc hp
    have hr := (List.pairwise_cons.1 hp).2
    have hx := (List.pairwise_cons.1 hp).1
    have hother : ∀ (he : concatText cur (x :: rest) = (match cur with
        | some (a, t0, c0) => .tok a t0 c0 :: x :: concatText none rest
        | none => x :: concatText none rest)), (concatText cur (x :: rest)).Pairwise R ∧
          ∀ y ∈ concatText cur (x :: rest), IsText y ∨ y ∈ x :: rest := by
      intro he
      obtain ⟨p1, p2⟩ := ih none (by simp) hr
      have q1 : (x :: concatText none rest).Pairwise R := by
        refine List.pairwise_cons.2 ⟨?_, p1⟩
        intro y hy
        rcases p2 y hy with h | h
        · exact h2 x y h
        · exact hx y h
      have q2 : ∀ y ∈ x :: concatText none rest, IsText y ∨ y ∈ x :: rest := by
        intro y hy
        rcases List.mem_cons.1 hy with rfl | hy
        · right; simp
        · rcases p2 y hy with h | h
          · exact Or.inl h
          · right; simp [h]
      rw [he]
      cases cur with
      | none => exact ⟨q1, q2⟩
      | some r =>
        obtain ⟨a, t, c⟩ := r
        have ha := hc a t c rfl
        refine ⟨List.pairwise_cons.2 ⟨fun y _ => h1 _ y ha, q1⟩, ?_⟩
        intro y hy
        rcases List.mem_cons.1 hy with rfl | hy
        · exact Or.inl ha
        · exact q2 y hy
    cases x with
    | raw s => exact hother (by cases cur <;> simp [concatText])
    | lst s => exact hother (by cases cur <;> simp [concatText])
    | tok b t c =>
      by_cases hb : b.type = .text
      · have hself : ∀ a t' c', some (b, t, c) = some (a, t', c') → a.type = .text := by
          intro a t' c' h; injection h with h; injection h with h _; subst h; exact hb
        have wk : ∀ (r : List Item), (∀ y ∈ r, IsText y ∨ y ∈ rest) → ∀ y ∈ r, IsText y ∨ y ∈ .tok b t c :: rest := by
          intro r h y hy
          rcases h y hy with h | h
          · exact Or.inl h
          · right; simp [h]
        cases cur with
        | none =>
          simp only [concatText, hb, if_true]
          obtain ⟨p1, p2⟩ := ih _ hself hr
          exact ⟨p1, wk _ p2⟩
        | some r =>
          obtain ⟨a, t0, c0⟩ := r
          have ha := hc a t0 c0 rfl
          by_cases hst : a.styles = b.styles
          · simp only [concatText, hb, if_true, hst]
            obtain ⟨p1, p2⟩ := ih (some ({ a with styles := b.styles, text := some (a.text.getD [] ++ if shouldAddSpace (b.text.getD []) (a.text.getD []) then ' ' :: b.text.getD [] else b.text.getD []) }, t0, c0)) (by
              intro a' t' c' h; injection h with h; injection h with h _; subst h; exact ha) hr
            exact ⟨p1, wk _ p2⟩
          · simp only [concatText, hb, if_true, hst, if_false]
            obtain ⟨p1, p2⟩ := ih _ hself hr
            refine ⟨List.pairwise_cons.2 ⟨fun y _ => h1 _ y ha, p1⟩, ?_⟩
            intro y hy
            rcases List.mem_cons.1 hy with rfl | hy
            · exact Or.inl ha
            · exact wk _ p2 y hy
      · exact hother (by cases cur <;> simp [concatText, hb])

theorem procItem_hasType (x : Item) (ty : TType) : (procItem x).hasType ty ↔ x.hasType ty := by
  cases x <;> simp [procItem, Item.hasType]

/-- "no bibliography after an appendix mark" survives text merging. -/
theorem processTokens_bib (l : List Item)
    (h : l.Pairwise fun x y => x.hasType .appendix → ¬ y.hasType .bibliography) :
    (processTokens l).Pairwise fun x y => x.hasType .appendix → ¬ y.hasType .bibliography := by
  have t : ∀ x, IsText x → ¬ x.hasType .appendix ∧ ¬ x.hasType .bibliography := by
    intro x hx
    cases x with
    | raw s => simp [Item.hasType]
    | lst s => simp [Item.hasType]
    | tok a t c => simp only [IsText] at hx; simp [Item.hasType, hx]
  refine (concat_pairwise (fun x y => x.hasType .appendix → ¬ y.hasType .bibliography) (fun x y hx h => absurd h (t x hx).1) (fun x y hy _ => (t y hy).2) _ none (by simp) ?_).1
  rw [procItems_eq_map, List.pairwise_map]
  refine h.imp ?_
  intro a b hab ha hb
  exact hab ((procItem_hasType a _).1 ha) ((procItem_hasType b _).1 hb)

/-- The built document read in order is the numbered reading of the merged input. -/
theorem organizeContent_flat (gs : GoodSkip skip) (st : Num) (doc : List Item) (hs : ShapedL doc)
    (hp : ∀ x ∈ doc, TopPlain skip x)
    (hb : (∀ a : Attrs, a.type = .bibliography → skip a = true) ∨
      doc.Pairwise fun x y => x.hasType .appendix → ¬ y.hasType .bibliography)
    (out : List Item) (n' : Num) (h : organizeContent st doc = some (out, n')) :
    ∃ ia, ann (flatList skip (processTokens doc) 0) false {} = some (flatList skip out 0, ia, n') :=
  organize_flat gs _ (processTokens_top gs doc hs hp) (hb.imp_right (processTokens_bib doc)) _ _ _ h

end L2J
