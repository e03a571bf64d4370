import Verif.Model.Builder
import Verif.Spec.Concat
import Verif.Lemmas.Numbering
namespace L2J
open Spec

theorem startsWith_single (s : Str) (c : Char) : startsWith s [c] = decide (s.head? = some c) := by
  cases s with
  | nil => rfl
  | cons d s =>
    simp only [startsWith, List.head?_cons, Option.some.injEq]
    by_cases h : c = d
    · subst h; simp
    · have h' : ¬ d = c := fun e => h e.symm
      simp [List.isPrefixOf, h, h']

theorem endsWith_single (s : Str) (c : Char) : endsWith s [c] = decide (s.getLast? = some c) := by
  unfold endsWith List.isSuffixOf
  rw [show ([c] : List Char).reverse = [c] from rfl, show ([c] : List Char).isPrefixOf s.reverse = startsWith s.reverse [c] from rfl,
    startsWith_single, List.head?_reverse]

theorem joinText_eq (s t : Str) :
    s ++ (if shouldAddSpace t s then ' ' :: t else t) = joinText s t := by
  by_cases h1 : (∃ c ∈ noSpaceBefore, t.head? = some c)
  · have hj : joinText s t = s ++ t := if_pos (Or.inl h1)
    rw [hj, if_neg]
    unfold shouldAddSpace
    simp only [startsWith_single, endsWith_single, closingPunct, openingPunct,
      List.any_cons, List.any_nil, Bool.or_false]
    simp only [noSpaceBefore, List.mem_cons, List.not_mem_nil, or_false] at h1
    obtain ⟨c, hc, h⟩ := h1
    rw [h]
    rcases hc with rfl | rfl | rfl | rfl | rfl | rfl | rfl | rfl | rfl | rfl <;> simp
  · have h1' : ∀ c ∈ noSpaceBefore, ¬ t.head? = some c := fun c hc h => h1 ⟨c, hc, h⟩
    simp only [noSpaceBefore, List.mem_cons, List.not_mem_nil, or_false, forall_eq_or_imp, forall_eq] at h1'
    unfold shouldAddSpace
    simp only [startsWith_single, endsWith_single, closingPunct, openingPunct,
      List.any_cons, List.any_nil, Bool.or_false]
    by_cases h2 : (∃ c ∈ noSpaceAfter, s.getLast? = some c)
    · have hj : joinText s t = s ++ t := if_pos (Or.inr h2)
      rw [hj]
      simp only [noSpaceAfter, List.mem_cons, List.not_mem_nil, or_false] at h2
      obtain ⟨c, hc, h⟩ := h2
      rw [h]
      rcases hc with rfl | rfl | rfl | rfl | rfl | rfl <;> simp [h1']
    · have hj : joinText s t = s ++ ' ' :: t := if_neg (not_or.2 ⟨h1, h2⟩)
      rw [hj]
      have h2' : ∀ c ∈ noSpaceAfter, ¬ s.getLast? = some c := fun c hc h => h2 ⟨c, hc, h⟩
      simp only [noSpaceAfter, List.mem_cons, List.not_mem_nil, or_false, forall_eq_or_imp, forall_eq] at h2'
      simp [h1', h2']

/-- The group that `cur` stands for. -/
def Pend : Option (Attrs × List Item × List Item) → List Item → Prop
  | none, g => g = []
  | some (a, t, c), g => ∃ a0 l, g = .tok a0 t c :: l ∧ a0.type = .text ∧ (∀ y ∈ l, SameText (.tok a0 t c) y) ∧
      a.type = .text ∧ a.styles = a0.styles ∧
      a.text.getD [] = l.foldl (fun s y => joinText s (textOf y)) (a0.text.getD []) ∧
      mergeRun g = some (.tok a t c)

theorem Pend.run {a : Attrs} {t c g : List Item} (h : Pend (some (a, t, c)) g) :
    IsRun g ∧ mergeRun g = some (.tok a t c) ∧ g ≠ [] := by
  obtain ⟨a0, l, rfl, h1, h2, _, _, _, h5⟩ := h
  refine ⟨?_, h5, by simp⟩
  cases l with
  | nil => exact Or.inl ⟨_, rfl⟩
  | cons y l => exact Or.inr ⟨_, y :: l, rfl, by simp, h2⟩

/-- Concatenation as merging of consecutive groups. -/
theorem concat_groups : ∀ (l : List Item) (cur : Option (Attrs × List Item × List Item)) (g : List Item),
    Pend cur g → ∃ gs : List (List Item), g ++ l = gs.flatten ∧ (concatText cur l).map some = gs.map mergeRun ∧
      ∀ g ∈ gs, IsRun g := by
  intro l
  induction l with
  | nil =>
    intro cur g h
    cases cur with
    | none => exact ⟨[], by rw [show g = [] from h]; rfl, by simp [concatText], by simp⟩
    | some r =>
      obtain ⟨a, t, c⟩ := r
      obtain ⟨h1, h2, _⟩ := h.run
      exact ⟨[g], by simp, by simp [concatText, h2], by simpa using h1⟩
  | cons x rest ih =>
    intro cur g h
    have hother : ∀ (hx : concatText cur (x :: rest) = (match cur with
        | some (a, t0, c0) => .tok a t0 c0 :: x :: concatText none rest
        | none => x :: concatText none rest)), ∃ gs : List (List Item), g ++ x :: rest = gs.flatten ∧
          (concatText cur (x :: rest)).map some = gs.map mergeRun ∧ ∀ g ∈ gs, IsRun g := by
      intro hx
      obtain ⟨gs, h1, h2, h3⟩ := ih none [] rfl
      rw [hx]
      cases cur with
      | none =>
        refine ⟨[x] :: gs, by rw [show g = [] from h]; simpa using h1, by simp [h2, mergeRun], ?_⟩
        intro g hg
        rcases List.mem_cons.1 hg with rfl | hg
        · exact Or.inl ⟨x, rfl⟩
        · exact h3 g hg
      | some r =>
        obtain ⟨a, t, c⟩ := r
        obtain ⟨r1, r2, _⟩ := h.run
        refine ⟨g :: [x] :: gs, by simpa using h1, by
          simp only [List.map_cons, h2, r2]; rfl, ?_⟩
        intro g' hg
        rcases List.mem_cons.1 hg with rfl | hg
        · exact r1
        rcases List.mem_cons.1 hg with rfl | hg
        · exact Or.inl ⟨x, rfl⟩
        · exact h3 g' hg
    cases x with
    | raw s => exact hother (by cases cur <;> simp [concatText])
    | lst s => exact hother (by cases cur <;> simp [concatText])
    | tok b t c =>
      by_cases hb : b.type = .text
      · have hself : Pend (some (b, t, c)) [.tok b t c] :=
          ⟨b, [], rfl, hb, by simp, hb, rfl, rfl, rfl⟩
        cases cur with
        | none =>
          obtain ⟨gs, h1, h2, h3⟩ := ih (some (b, t, c)) _ hself
          refine ⟨gs, by rw [show g = [] from h]; simpa using h1, ?_, h3⟩
          simp only [concatText, hb, if_true]
          exact h2
        | some r =>
          obtain ⟨a, t0, c0⟩ := r
          by_cases hst : a.styles = b.styles
          · simp only [concatText, hb, if_true, hst]
            rw [joinText_eq]
            obtain ⟨a0, l, rfl, p1, p2, p3, p4, p5, p6⟩ := h
            have hp : Pend (some ({ a with text := some (joinText (a.text.getD []) (b.text.getD [])) }, t0, c0))
                ((.tok a0 t0 c0 :: l) ++ [.tok b t c]) := by
              refine ⟨a0, l ++ [.tok b t c], rfl, p1, ?_, p3, p4, ?_, ?_⟩
              · intro y hy
                rcases List.mem_append.1 hy with hy | hy
                · exact p2 y hy
                · simp only [List.mem_singleton] at hy
                  subst hy
                  exact ⟨p1, hb, by rw [← p4, hst]⟩
              · simp only [List.foldl_append, List.foldl_cons, List.foldl_nil, Option.getD_some, p5, textOf]
              · cases l with
                | nil =>
                  simp only [mergeRun, Option.some.injEq] at p6
                  injection p6 with p6
                  subst p6
                  simp only [List.cons_append, List.nil_append, mergeRun, List.foldl_cons, List.foldl_nil, textOf]
                | cons y l =>
                  simp only [mergeRun, Option.some.injEq] at p6
                  injection p6 with p6
                  subst p6
                  simp only [List.cons_append, mergeRun, List.foldl_cons, List.foldl_append, List.foldl_nil, textOf,
                    Option.getD_some]
            obtain ⟨gs, h1, h2, h3⟩ := ih _ _ hp
            refine ⟨gs, by simpa using h1, ?_, h3⟩
            rw [← h2, hst]
          · obtain ⟨gs, h1, h2, h3⟩ := ih (some (b, t, c)) _ hself
            obtain ⟨r1, r2, _⟩ := h.run
            refine ⟨g :: gs, by simpa using h1, ?_, ?_⟩
            · simp only [concatText, hb, if_true, hst, if_false, List.map_cons, h2, r2]
            · intro g' hg
              rcases List.mem_cons.1 hg with rfl | hg
              · exact r1
              · exact h3 g' hg
      · exact hother (by cases cur <;> simp [concatText, hb])

/-- The first element of the result when text is pending. -/
theorem concat_head : ∀ (l : List Item) (a : Attrs) (t c : List Item), a.type = .text →
    ∃ a' rest, concatText (some (a, t, c)) l = .tok a' t c :: rest ∧ a'.type = .text ∧ a'.styles = a.styles := by
  intro l
  induction l with
  | nil => intro a t c h; exact ⟨a, [], by simp [concatText], h, rfl⟩
  | cons x rest ih =>
    intro a t c h
    cases x with
    | raw s => exact ⟨a, .raw s :: concatText none rest, by simp only [concatText], h, rfl⟩
    | lst s => exact ⟨a, .lst s :: concatText none rest, by simp only [concatText], h, rfl⟩
    | tok b u d =>
      by_cases hb : b.type = .text
      · by_cases hst : a.styles = b.styles
        · simp only [concatText, hb, if_true, hst]
          obtain ⟨a', r, h1, h2, h3⟩ := ih { a with styles := b.styles, text := some (a.text.getD [] ++ if shouldAddSpace (b.text.getD []) (a.text.getD []) then ' ' :: b.text.getD [] else b.text.getD []) } t c h
          exact ⟨a', r, h1, h2, h3⟩
        · refine ⟨a, concatText (some (b, u, d)) rest, ?_, h, rfl⟩
          simp only [concatText, hb, if_true, hst, if_false]
      · refine ⟨a, .tok b u d :: concatText none rest, ?_, h, rfl⟩
        simp only [concatText, hb, if_false]

theorem noMergeable_cons {x : Item} {l : List Item} (h1 : ∀ y, l.head? = some y → ¬ SameText x y)
    (h2 : NoMergeable l) : NoMergeable (x :: l) := by
  cases l with
  | nil => simp [NoMergeable]
  | cons y l => exact ⟨h1 y rfl, h2⟩

theorem concat_noMergeable : ∀ (l : List Item) (cur : Option (Attrs × List Item × List Item)),
    (∀ a t c, cur = some (a, t, c) → a.type = .text) → NoMergeable (concatText cur l) := by
  intro l
  induction l with
  | nil => intro cur _; cases cur <;> simp [concatText, NoMergeable]
  | cons x rest ih =>
    intro cur hcur
    have hnone := ih none (by simp)
    have hother : ∀ (hnt : ∀ y, ¬ SameText x y) (hnt' : ∀ y, ¬ SameText y x)
        (hx : concatText cur (x :: rest) = (match cur with
        | some (a, t0, c0) => .tok a t0 c0 :: x :: concatText none rest
        | none => x :: concatText none rest)), NoMergeable (concatText cur (x :: rest)) := by
      intro hnt hnt' hx
      rw [hx]
      have h1 : NoMergeable (x :: concatText none rest) := noMergeable_cons (fun y _ => hnt y) hnone
      cases cur with
      | none => exact h1
      | some r => exact noMergeable_cons (fun y hy => by simp at hy; subst hy; exact hnt' _) h1
    cases x with
    | raw s => exact hother (by intro y; simp [SameText]) (by intro y; cases y <;> simp [SameText]) (by cases cur <;> simp [concatText])
    | lst s => exact hother (by intro y; simp [SameText]) (by intro y; cases y <;> simp [SameText]) (by cases cur <;> simp [concatText])
    | tok b t c =>
      by_cases hb : b.type = .text
      · cases cur with
        | none =>
          simp only [concatText, hb, if_true]
          exact ih _ (by intro a t c h; injection h with h; injection h with h _; subst h; exact hb)
        | some r =>
          obtain ⟨a, t0, c0⟩ := r
          have ha : a.type = .text := hcur a t0 c0 rfl
          by_cases hst : a.styles = b.styles
          · simp only [concatText, hb, if_true, hst]
            refine ih _ ?_
            intro a' t' c' h; injection h with h; injection h with h _; subst h; exact ha
          · simp only [concatText, hb, if_true, hst, if_false]
            obtain ⟨a', r, h1, h2, h3⟩ := concat_head rest b t c hb
            refine noMergeable_cons ?_ (ih _ (by intro a t c h; injection h with h; injection h with h _; subst h; exact hb))
            rw [h1]
            intro y hy
            simp at hy
            subst hy
            intro hs
            exact hst (hs.2.2.trans h3)
      · exact hother (by intro y; cases y <;> simp [SameText, hb]) (by intro y; cases y <;> simp [SameText, hb])
          (by cases cur <;> simp [concatText, hb])

/-- Nothing to merge: nothing changes. -/
theorem concat_fixed : ∀ (l : List Item),
    (NoMergeable l → concatText none l = l) ∧
    (∀ (a : Attrs) t c, a.type = .text → NoMergeable (.tok a t c :: l) → concatText (some (a, t, c)) l = .tok a t c :: l) := by
  intro l
  induction l with
  | nil => exact ⟨fun _ => by simp [concatText], fun a t c _ _ => by simp [concatText]⟩
  | cons x rest ih =>
    have htail : NoMergeable (x :: rest) → NoMergeable rest := by
      intro h; cases rest with
      | nil => simp [NoMergeable]
      | cons y r => exact h.2
    constructor
    · intro h
      cases x with
      | raw s => simp only [concatText, ih.1 (htail h)]
      | lst s => simp only [concatText, ih.1 (htail h)]
      | tok b t c =>
        by_cases hb : b.type = .text
        · simp only [concatText, hb, if_true]
          exact ih.2 b t c hb h
        · simp only [concatText, hb, if_false, ih.1 (htail h)]
    · intro a t c ha h
      have h2 : NoMergeable (x :: rest) := h.2
      have h1 : ¬ SameText (.tok a t c) x := h.1
      cases x with
      | raw s => simp only [concatText, ih.1 (htail h2)]
      | lst s => simp only [concatText, ih.1 (htail h2)]
      | tok b u d =>
        by_cases hb : b.type = .text
        · have hst : ¬ a.styles = b.styles := fun e => h1 ⟨ha, hb, e⟩
          simp only [concatText, hb, if_true, hst, if_false, ih.2 b u d hb h2]
        · simp only [concatText, hb, if_false, ih.1 (htail h2)]

theorem concat_idem (l : List Item) : concatText none (concatText none l) = concatText none l :=
  (concat_fixed _).1 (concat_noMergeable l none (by simp))

theorem CanonItems_iff (l : List Item) : CanonItems l ↔ ∀ x ∈ l, CanonItem x := by
  induction l with
  | nil => simp [CanonItems]
  | cons x l ih => simp [CanonItems, ih]

theorem concat_canon (l : List Item) (h : CanonItems l) :
    NoMergeable (concatText none l) ∧ CanonItems (concatText none l) := by
  refine ⟨concat_noMergeable l none (by simp), ?_⟩
  rw [CanonItems_iff] at h ⊢
  exact concatText_forall CanonItem (by intro a t c s h; unfold CanonItem at h ⊢; exact h) l none h (by simp)

mutual
theorem procItem_canon : ∀ x, CanonItem (procItem x)
  | .raw s => by simp [procItem, CanonItem]
  | .lst l => by
    simp only [procItem, CanonItem]
    exact concat_canon _ (procItems_canon l)
  | .tok a t c => by
    simp only [procItem, CanonItem]
    refine ⟨(concat_canon _ (procItems_canon t)).1, (concat_canon _ (procItems_canon t)).2, ?_⟩
    by_cases h : a.type = .tabular
    · simp only [h, if_true]; exact procRows_canon c
    · simp only [h, if_false]; exact concat_canon _ (procItems_canon c)
theorem procItems_canon : ∀ l, CanonItems (procItems l)
  | [] => by simp [procItems, CanonItems]
  | x :: xs => by
    simp only [procItems, CanonItems]
    exact ⟨procItem_canon x, procItems_canon xs⟩
theorem procRow_canon : ∀ x, CanonRows [procRow x]
  | .raw s => by simp [procRow, CanonRows]
  | .lst l => by simp [procRow, CanonRows, procItems_canon l]
  | .tok a t c => by simp [procRow, CanonRows]
theorem procRows_canon : ∀ l, CanonRows (procRows l)
  | [] => by simp [procRows, CanonRows]
  | x :: xs => by
    have h1 := procRow_canon x
    have h2 := procRows_canon xs
    simp only [procRows]
    cases hx : procRow x with
    | raw s => simpa only [CanonRows] using h2
    | tok a t c => simpa only [CanonRows] using h2
    | lst r => rw [hx] at h1; simp only [CanonRows] at h1 ⊢; exact ⟨h1.1, h2⟩
end

/-- A canonical tree is not changed by processing. -/
theorem proc_fix : (∀ x, CanonItem x → procItem x = x) ∧ (∀ l, CanonItems l → procItems l = l) := by
  constructor
  · exact go
  · exact goL
where
  go : ∀ x, CanonItem x → procItem x = x
  | .raw s, _ => by simp [procItem]
  | .lst l, h => by
    simp only [CanonItem] at h
    simp only [procItem, goL l h.2, (concat_fixed l).1 h.1]
  | .tok a t c, h => by
    simp only [CanonItem] at h
    simp only [procItem, goL t h.2.1, (concat_fixed t).1 h.1]
    by_cases ht : a.type = .tabular
    · simp only [ht, if_true] at h ⊢; rw [goR c h.2.2]
    · simp only [ht, if_false] at h ⊢; rw [goL c h.2.2.2, (concat_fixed c).1 h.2.2.1]
  goL : ∀ l, CanonItems l → procItems l = l
  | [], _ => by simp [procItems]
  | x :: xs, h => by
    simp only [CanonItems] at h
    simp only [procItems, go x h.1, goL xs h.2]
  goR : ∀ l, CanonRows l → procRows l = l
  | [], _ => by simp [procRows]
  | .raw s :: xs, h => by
    simp only [CanonRows] at h
    simp only [procRows, procRow, goR xs h]
  | .tok a t c :: xs, h => by
    simp only [CanonRows] at h
    simp only [procRows, procRow, goR xs h]
  | .lst r :: xs, h => by
    simp only [CanonRows] at h
    simp only [procRows, procRow, goL r h.1, goR xs h.2]

theorem processTokens_canon (l : List Item) : NoMergeable (processTokens l) ∧ CanonItems (processTokens l) :=
  concat_canon _ (procItems_canon l)

theorem processTokens_idem (l : List Item) : processTokens (processTokens l) = processTokens l := by
  obtain ⟨h1, h2⟩ := processTokens_canon l
  rw [show processTokens (processTokens l) = concatText none (procItems (processTokens l)) from rfl,
    proc_fix.2 _ h2, (concat_fixed _).1 h1]

end L2J
