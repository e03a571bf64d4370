import Verif.Lemmas.Builder
namespace L2J
open Spec
variable {skip : Attrs → Bool}

/-! Text concatenation only touches text tokens. -/

theorem attrsOf_append (p : Attrs → Bool) (x y : List Ev) : attrsOf p (x ++ y) = attrsOf p x ++ attrsOf p y := by
  simp [attrsOf]

/-- A selection that ignores text tokens. -/
def NoText (p : Attrs → Bool) : Prop := ∀ a : Attrs, a.type = .text → p a = false

/-- Text tokens have no list content. -/
def textLeaf : Item → Prop
  | .tok a _ c => a.type = .text → c = []
  | _ => True

theorem concatText_flat (gs : GoodSkip skip) (p : Attrs → Bool) (hp : NoText p) (e : Nat) :
    ∀ (l : List Item) (cur : Option (Attrs × List Item × List Item)),
    (∀ x ∈ l, textLeaf x) →
    (∀ a t c, cur = some (a, t, c) → a.type = .text ∧ c = []) →
    attrsOf p (flatList skip (concatText cur l) e) = attrsOf p (flatList skip l e) := by
  have htext : ∀ (a : Attrs) t, a.type = .text → attrsOf p (flatItem skip (.tok a t []) e) = [] := by
    intro a t ha
    have : skip a = false := by
      cases h : skip a with
      | false => rfl
      | true => have := gs.bib a h; rw [ha] at this; cases this
    simp [flatItem, this, attrsOf, hp a ha, flatList]
  intro l
  induction l with
  | nil =>
    intro cur _ hc
    unfold concatText
    cases cur with
    | none => rfl
    | some r =>
      obtain ⟨a, t, c⟩ := r
      obtain ⟨h1, rfl⟩ := hc a t c rfl
      simp only [flatList, List.append_nil, htext a t h1]
      rfl
  | cons x l ih =>
    intro cur hl hc
    have hl' : ∀ x ∈ l, textLeaf x := fun y hy => hl y (by simp [hy])
    have ihn := ih none hl' (by simp)
    cases x with
    | raw s =>
      unfold concatText
      cases cur with
      | none => simp only [flatList, attrsOf_append, ihn]
      | some r =>
        obtain ⟨a, t, c⟩ := r
        obtain ⟨h1, rfl⟩ := hc a t c rfl
        simp only [flatList, attrsOf_append, ihn, htext a t h1, List.nil_append]
    | lst s =>
      unfold concatText
      cases cur with
      | none => simp only [flatList, attrsOf_append, ihn]
      | some r =>
        obtain ⟨a, t, c⟩ := r
        obtain ⟨h1, rfl⟩ := hc a t c rfl
        simp only [flatList, attrsOf_append, ihn, htext a t h1, List.nil_append]
    | tok b t' c' =>
      unfold concatText
      by_cases hb : b.type = .text
      · have hc0 : c' = [] := hl (.tok b t' c') (by simp) hb
        subst hc0
        rw [if_pos hb]
        have hx : ∀ cur', (∀ a t c, cur' = some (a, t, c) → a.type = .text ∧ c = []) →
            attrsOf p (flatList skip (concatText cur' l) e) = attrsOf p (flatList skip (Item.tok b t' [] :: l) e) := by
          intro cur' hc'
          rw [ih cur' hl' hc']
          simp only [flatList, attrsOf_append, htext b t' hb, List.nil_append]
        cases cur with
        | none => exact hx _ (by rintro _ _ _ ⟨⟩; exact ⟨hb, rfl⟩)
        | some r =>
          obtain ⟨a, t, c⟩ := r
          obtain ⟨h1, rfl⟩ := hc a t c rfl
          simp only []
          split
          · exact hx _ (by rintro _ _ _ ⟨⟩; exact ⟨h1, rfl⟩)
          · rw [flatList, attrsOf_append, htext a t h1, List.nil_append]
            exact hx _ (by rintro _ _ _ ⟨⟩; exact ⟨hb, rfl⟩)
      · rw [if_neg hb]
        cases cur with
        | none => simp only [flatList, attrsOf_append, ihn]
        | some r =>
          obtain ⟨a, t, c⟩ := r
          obtain ⟨h1, rfl⟩ := hc a t c rfl
          simp only [flatList, attrsOf_append, ihn, htext a t h1, List.nil_append]

theorem procItems_eq_map : ∀ l, procItems l = l.map procItem
  | [] => by simp [procItems]
  | x :: xs => by simp [procItems, procItems_eq_map xs]

theorem procRows_eq_map : ∀ l, procRows l = l.map procRow
  | [] => by simp [procRows]
  | x :: xs => by simp [procRows, procRows_eq_map xs]

theorem procItem_textLeaf (x : Item) (h : Shaped x) : textLeaf (procItem x) := by
  cases x with
  | raw s => simp [procItem, textLeaf]
  | lst l => simp [procItem, textLeaf]
  | tok a t c =>
    unfold Shaped at h
    simp only [procItem, textLeaf]
    intro ha
    rw [h.1 ha, if_neg (by rw [ha]; decide)]
    simp [procItems, concatText]

theorem ShapedL_mem {l : List Item} (h : ShapedL l) : ∀ x ∈ l, Shaped x := by
  induction l with
  | nil => simp
  | cons y l ih =>
    unfold ShapedL at h
    intro x hx
    simp at hx
    rcases hx with rfl | hx
    · exact h.1
    · exact ih h.2 x hx

theorem procItems_textLeaf {l : List Item} (h : ShapedL l) : ∀ x ∈ procItems l, textLeaf x := by
  rw [procItems_eq_map]
  intro x hx
  simp at hx
  obtain ⟨y, hy, rfl⟩ := hx
  exact procItem_textLeaf y (ShapedL_mem h y hy)

/-- Rows are lists: reading them gives no token. -/
theorem procRows_flat (p : Attrs → Bool) (e : Nat) (l : List Item) (h : ∀ x ∈ l, ∃ r, x = .lst r) :
    attrsOf p (flatList skip (procRows l) e) = attrsOf p (flatList skip l e) := by
  induction l with
  | nil => simp [procRows]
  | cons x l ih =>
    obtain ⟨r, rfl⟩ := h x (by simp)
    simp only [procRows, procRow, flatList, attrsOf_append, flatItem]
    rw [ih (fun y hy => h y (by simp [hy]))]
    simp [attrsOf]

mutual
theorem procItem_flat (gs : GoodSkip skip) (p : Attrs → Bool) (hp : NoText p) (x : Item) (ht : Shaped x) (e : Nat) :
    attrsOf p (flatItem skip (procItem x) e) = attrsOf p (flatItem skip x e) := by
  match x, ht with
  | .raw s, _ => simp [procItem]
  | .lst l, _ => simp [procItem, flatItem, attrsOf]
  | .tok a t c, ht =>
    unfold Shaped at ht
    simp only [procItem, flatItem]
    split
    · rfl
    · have e1 : ∀ e, attrsOf p (flatList skip (if a.type = .tabular then procRows c else concatText none (procItems c)) e) =
          attrsOf p (flatList skip c e) := by
        intro e
        split
        · rename_i h; exact procRows_flat p e c (ht.2.1 h)
        · rw [concatText_flat gs p hp e _ none (procItems_textLeaf ht.2.2) (by simp)]
          exact procItems_flat gs p hp c ht.2.2 e
      have e2 : ∀ (x y : List Ev) t', attrsOf p x = attrsOf p y →
          attrsOf p (⟨.tok a t', e⟩ :: x) = attrsOf p (⟨.tok a t, e⟩ :: y) := by
        intro x y t' h
        simp only [attrsOf, List.filterMap_cons] at h ⊢
        rw [h]
      exact e2 _ _ _ (e1 _)
theorem procItems_flat (gs : GoodSkip skip) (p : Attrs → Bool) (hp : NoText p) (l : List Item) (ht : ShapedL l) (e : Nat) :
    attrsOf p (flatList skip (procItems l) e) = attrsOf p (flatList skip l e) := by
  match l, ht with
  | [], _ => simp [procItems]
  | x :: xs, ht =>
    unfold ShapedL at ht
    simp only [procItems, flatList, attrsOf_append]
    rw [procItem_flat gs p hp x ht.1, procItems_flat gs p hp xs ht.2]
end

/-- Text concatenation does not change which non-text tokens are read, nor their order. -/
theorem processTokens_flat (gs : GoodSkip skip) (p : Attrs → Bool) (hp : NoText p) (l : List Item) (ht : ShapedL l) (e : Nat) :
    attrsOf p (flatList skip (processTokens l) e) = attrsOf p (flatList skip l e) := by
  unfold processTokens
  rw [concatText_flat gs p hp e _ none (procItems_textLeaf ht) (by simp)]
  exact procItems_flat gs p hp l ht e

end L2J
