import Verif.Model.Proofs
/-! C75: proofs put under the statement before them. -/
namespace L2J.Prf

/-- Environments with a statement: theorems and the like, all but proofs. -/
def _root_.L2J.Spec.IsStatement (name : Attrs → Str) (it : Item) : Prop :=
  ∃ a t c, it = .tok a t c ∧ a.type = .math_env ∧ (name a).map Char.toLower ≠ "proof".toList

def _root_.L2J.Spec.IsProof (name : Attrs → Str) (it : Item) : Prop :=
  ∃ a t c, it = .tok a t c ∧ a.type = .math_env ∧ (name a).map Char.toLower = "proof".toList

/-- The list from which a merged list was made. -/
def _root_.L2J.Spec.unmerged (l : List (Item × Option Item)) : List Item := l.flatMap fun x => x.1 :: x.2.toList

open L2J.Spec

theorem isStatement_iff {name : Attrs → Str} {it : Item} : isStatement name it = true ↔ IsStatement name it := by
  unfold isStatement mathName IsStatement
  cases it with
  | tok a t c =>
    by_cases h : a.type = .math_env
    · simp only [h, if_true, bne_iff_ne]
      exact ⟨fun hn => ⟨a, t, c, rfl, h, hn⟩, fun ⟨_, _, _, e, _, hn⟩ => (by cases e; exact hn)⟩
    · simp only [h, if_false]
      exact ⟨fun hn => (by cases hn), fun ⟨_, _, _, e, hm, _⟩ => by cases e; exact absurd hm h⟩
  | raw => simp
  | lst => simp

theorem isProof_iff {name : Attrs → Str} {it : Item} : isProof name it = true ↔ IsProof name it := by
  unfold isProof mathName IsProof
  cases it with
  | tok a t c =>
    by_cases h : a.type = .math_env
    · simp only [h, if_true, beq_iff_eq]
      exact ⟨fun hn => ⟨a, t, c, rfl, h, hn⟩, fun ⟨_, _, _, e, _, hn⟩ => (by cases e; exact hn)⟩
    · simp only [h, if_false]
      exact ⟨fun hn => (by cases hn), fun ⟨_, _, _, e, hm, _⟩ => by cases e; exact absurd hm h⟩
  | raw => simp
  | lst => simp

theorem not_both {name : Attrs → Str} {it : Item} (h1 : IsStatement name it) (h2 : IsProof name it) : False := by
  obtain ⟨a, t, c, rfl, _, hn⟩ := h1
  obtain ⟨_, _, _, e, _, h⟩ := h2
  cases e
  exact hn h

/-- C75: nothing is lost, doubled or moved. -/
theorem C75_nothing_lost (name : Attrs → Str) : ∀ tokens, unmerged (mergeProofs name tokens) = tokens
  | [] => rfl
  | [x] => rfl
  | x :: y :: rest => by
    rw [mergeProofs]
    split
    · show x :: y :: unmerged (mergeProofs name rest) = _
      rw [C75_nothing_lost name rest]
    · show x :: unmerged (mergeProofs name (y :: rest)) = _
      rw [C75_nothing_lost name (y :: rest)]

/-- C75: only proofs are put away, and only under statements. -/
theorem C75_only (name : Attrs → Str) : ∀ (tokens : List Item) (x y : Item), (x, some y) ∈ mergeProofs name tokens → IsStatement name x ∧ IsProof name y
  | [], x, y, h => by cases h
  | [z], x, y, h => by simp [mergeProofs] at h
  | z :: w :: rest, x, y, h => by
    rw [mergeProofs] at h
    split at h
    · next hc =>
      rw [Bool.and_eq_true] at hc
      rcases List.mem_cons.1 h with h | h
      · cases h; exact ⟨isStatement_iff.1 hc.1, isProof_iff.1 hc.2⟩
      · exact C75_only name rest x y h
    · rcases List.mem_cons.1 h with h | h
      · cases h
      · exact C75_only name (w :: rest) x y h

/-- C75: every proof right behind a statement is put under it, wherever they are in the list; and what happens to the others does not depend on it. -/
theorem C75_merged (name : Attrs → Str) : ∀ (a b : List Item) (x : Item), IsStatement name x →
    ∃ p q, (∀ y, IsProof name y → mergeProofs name (a ++ x :: y :: b) = p ++ (x, some y) :: q) ∧ unmerged p = a ∧ unmerged q = b
  | [], b, x, hx => by
    refine ⟨[], mergeProofs name b, fun y hy => ?_, rfl, C75_nothing_lost name b⟩
    rw [List.nil_append, mergeProofs, isStatement_iff.2 hx, isProof_iff.2 hy]
    rfl
  | [z], b, x, hx => by
    obtain ⟨p, q, h1, h2, h3⟩ := C75_merged name [] b x hx
    refine ⟨(z, none) :: p, q, fun y hy => ?_, ?_, h3⟩
    · show mergeProofs name (z :: x :: y :: b) = _
      rw [mergeProofs, if_neg, show x :: y :: b = [] ++ x :: y :: b from rfl, h1 y hy]
      · rfl
      · rw [Bool.and_eq_true]
        exact fun h => not_both hx (isProof_iff.1 h.2)
    · show z :: unmerged p = _
      rw [h2]
  | z :: w :: a, b, x, hx => by
    by_cases hc : (isStatement name z && isProof name w) = true
    · obtain ⟨p, q, h1, h2, h3⟩ := C75_merged name a b x hx
      refine ⟨(z, some w) :: p, q, fun y hy => ?_, ?_, h3⟩
      · show mergeProofs name (z :: w :: (a ++ x :: y :: b)) = _
        rw [mergeProofs, if_pos hc, h1 y hy]; rfl
      · show z :: w :: unmerged p = _
        rw [h2]
    · obtain ⟨p, q, h1, h2, h3⟩ := C75_merged name (w :: a) b x hx
      refine ⟨(z, none) :: p, q, fun y hy => ?_, ?_, h3⟩
      · show mergeProofs name (z :: w :: (a ++ x :: y :: b)) = _
        rw [mergeProofs, if_neg hc, show w :: (a ++ x :: y :: b) = (w :: a) ++ x :: y :: b from rfl, h1 y hy]; rfl
      · show z :: unmerged p = _
        rw [h2]

/-- C75, violated: what is put away is not looked at any more: everything else is organised and numbered in the same way whatever the proof contains, be it an empty one or one
with numbered equations; these get no numbers. -/
theorem C75_violated_numbering (name : Attrs → Str) (a b : List Item) (x y y' : Item) (hx : IsStatement name x) (hy : IsProof name y) (hy' : IsProof name y') (n : Num) :
    organizeMerged name (a ++ x :: y :: b) n = organizeMerged name (a ++ x :: y' :: b) n := by
  obtain ⟨p, q, h, _, _⟩ := C75_merged name a b x hx
  unfold organizeMerged
  rw [h y hy, h y' hy', List.map_append, List.map_append]
  rfl

/-! Merging in titles and contents, however deep. -/

mutual
/-- The tokens from which a merged token was made. -/
def _root_.L2J.Spec.apart : MItem → List Item
  | .raw s => [.raw s]
  | .lst l => [.lst (apartL l)]
  | .tok a t c p => .tok a (apartL t) (apartL c) :: apartO p
def _root_.L2J.Spec.apartL : List MItem → List Item
  | [] => []
  | x :: l => apart x ++ apartL l
def _root_.L2J.Spec.apartO : Option MItem → List Item
  | none => []
  | some x => apart x
end

def _root_.L2J.Spec.proofOf : MItem → Option MItem
  | .tok _ _ _ p => p
  | _ => none

def _root_.L2J.Spec.Statement (name : Attrs → Str) (x : MItem) : Prop :=
  ∃ a t c p, x = .tok a t c p ∧ a.type = .math_env ∧ (name a).map Char.toLower ≠ "proof".toList

def _root_.L2J.Spec.Proof (name : Attrs → Str) (x : MItem) : Prop :=
  ∃ a t c p, x = .tok a t c p ∧ a.type = .math_env ∧ (name a).map Char.toLower = "proof".toList

/-- Only statements have proofs, which are proofs (and have none themselves); and no statement without one stands right before a proof. -/
def _root_.L2J.Spec.WellMerged (name : Attrs → Str) (l : List MItem) : Prop :=
  (∀ x ∈ l, ∀ q ∈ proofOf x, Statement name x ∧ Proof name q ∧ proofOf q = none) ∧
  ∀ a x y b, l = a ++ x :: y :: b → Statement name x → Proof name y → proofOf x ≠ none

mutual
/-- All lists in a token, at every depth (those of its proof too), are such. -/
def _root_.L2J.Spec.Within (P : List MItem → Prop) : MItem → Prop
  | .raw _ => True
  | .lst l => P l ∧ WithinL P l
  | .tok _ t c p => P t ∧ WithinL P t ∧ P c ∧ WithinL P c ∧ WithinO P p
def _root_.L2J.Spec.WithinL (P : List MItem → Prop) : List MItem → Prop
  | [] => True
  | x :: l => Within P x ∧ WithinL P l
def _root_.L2J.Spec.WithinO (P : List MItem → Prop) : Option MItem → Prop
  | none => True
  | some x => Within P x
end

theorem test_statement {name : Attrs → Str} {x : MItem} : x.isStatement name = true ↔ Statement name x := by
  unfold MItem.isStatement MItem.name Statement
  cases x with
  | tok a t c p =>
    by_cases h : a.type = .math_env
    · simp only [h, if_true, bne_iff_ne]
      exact ⟨fun hn => ⟨a, t, c, p, rfl, h, hn⟩, fun ⟨_, _, _, _, e, _, hn⟩ => (by cases e; exact hn)⟩
    · simp only [h, if_false]
      exact ⟨fun hn => (by cases hn), fun ⟨_, _, _, _, e, hm, _⟩ => by cases e; exact absurd hm h⟩
  | raw => simp
  | lst => simp

theorem test_proof {name : Attrs → Str} {x : MItem} : x.isProof name = true ↔ Proof name x := by
  unfold MItem.isProof MItem.name Proof
  cases x with
  | tok a t c p =>
    by_cases h : a.type = .math_env
    · simp only [h, if_true, beq_iff_eq]
      exact ⟨fun hn => ⟨a, t, c, p, rfl, h, hn⟩, fun ⟨_, _, _, _, e, _, hn⟩ => (by cases e; exact hn)⟩
    · simp only [h, if_false]
      exact ⟨fun hn => (by cases hn), fun ⟨_, _, _, _, e, hm, _⟩ => by cases e; exact absurd hm h⟩
  | raw => simp
  | lst => simp

theorem mergeList_two (name : Attrs → Str) (x y : MItem) (l : List MItem) :
    Statement name x ∧ Proof name y ∧ mergeList name (x :: y :: l) = x.under y :: mergeList name l ∨
    ¬ (Statement name x ∧ Proof name y) ∧ mergeList name (x :: y :: l) = x :: mergeList name (y :: l) := by
  rw [mergeList]
  split
  · next h =>
    rw [Bool.and_eq_true, test_statement, test_proof] at h
    exact .inl ⟨h.1, h.2, rfl⟩
  · next h =>
    rw [Bool.and_eq_true, test_statement, test_proof] at h
    exact .inr ⟨h, rfl⟩

theorem apart_merge (name : Attrs → Str) : ∀ l : List MItem, (∀ x ∈ l, proofOf x = none) → apartL (mergeList name l) = apartL l
  | [], _ => rfl
  | [x], _ => rfl
  | x :: y :: l, h => by
    rcases mergeList_two name x y l with ⟨⟨a, t, c, p, rfl, _, _⟩, _, e⟩ | ⟨_, e⟩
    · have hp : p = none := h _ List.mem_cons_self
      subst hp
      rw [e]
      simp only [MItem.under, apartL, apart, apartO, apart_merge name l fun z hz => h z (by simp [hz]), List.cons_append, List.nil_append]
    · rw [e, apartL, apart_merge name (y :: l) fun z hz => h z (List.mem_cons_of_mem _ hz)]
      simp only [apartL]

theorem mergeItem_bare (name : Attrs → Str) (x : Item) : proofOf (mergeItem name x) = none := by
  cases x <;> simp [mergeItem, proofOf]

theorem mergeItems_bare (name : Attrs → Str) : ∀ (l : List Item), ∀ x ∈ mergeItems name l, proofOf x = none
  | [], x, h => by simp [mergeItems] at h
  | y :: l, x, h => by
    rw [mergeItems] at h
    rcases List.mem_cons.1 h with rfl | h
    · exact mergeItem_bare name y
    · exact mergeItems_bare name l x h

mutual
theorem apart_item (name : Attrs → Str) : ∀ x : Item, apart (mergeItem name x) = [x]
  | .raw s => by rw [mergeItem, apart]
  | .lst l => by rw [mergeItem, apart, apart_merge name _ (mergeItems_bare name l), apart_items name l]
  | .tok a t c => by
    rw [mergeItem, apart, apart_merge name _ (mergeItems_bare name t), apart_items name t, apart_merge name _ (mergeItems_bare name c), apart_items name c, apartO]
theorem apart_items (name : Attrs → Str) : ∀ l : List Item, apartL (mergeItems name l) = l
  | [] => by rw [mergeItems, apartL]
  | x :: l => by rw [mergeItems, apartL, apart_item name x, apart_items name l]; rfl
end

theorem under_proof {name : Attrs → Str} {x y : MItem} (h : Proof name (x.under y)) : Proof name x := by
  obtain ⟨a, t, c, p, e, h1, h2⟩ := h
  cases x with
  | tok a' t' c' p' => simp only [MItem.under, MItem.tok.injEq] at e; exact ⟨_, _, _, _, rfl, e.1 ▸ h1, e.1 ▸ h2⟩
  | raw => cases e
  | lst => cases e

/-- What stands first in a merged list is a proof only if what stood first was one. -/
theorem first_proof {name : Attrs → Str} {x y : MItem} {l r : List MItem} (h : mergeList name (x :: l) = y :: r) (hp : Proof name y) : Proof name x := by
  cases l with
  | nil => rw [mergeList] at h; cases h; exact hp
  | cons z l =>
    rcases mergeList_two name x z l with ⟨_, _, e⟩ | ⟨_, e⟩
    · rw [e] at h; cases h; exact under_proof hp
    · rw [e] at h; cases h; exact hp

theorem settled_cons {name : Attrs → Str} {x : MItem} {l : List MItem} (h1 : ∀ q ∈ proofOf x, Statement name x ∧ Proof name q ∧ proofOf q = none)
    (h2 : ∀ y r, l = y :: r → Statement name x → Proof name y → proofOf x ≠ none) (h : WellMerged name l) : WellMerged name (x :: l) := by
  refine ⟨fun z hz => ?_, ?_⟩
  · rcases List.mem_cons.1 hz with rfl | hz
    · exact h1
    · exact h.1 z hz
  · rintro a u v b e hu hv
    cases a with
    | nil => injection e with e1 e2; subst e1; exact h2 _ _ e2 hu hv
    | cons w a => injection e with _ e2; exact h.2 a u v b e2 hu hv

theorem settled_merge (name : Attrs → Str) : ∀ l : List MItem, (∀ x ∈ l, proofOf x = none) → WellMerged name (mergeList name l)
  | [], _ => ⟨fun x h => by simp [mergeList] at h, fun a x y b e => by simp [mergeList] at e⟩
  | [x], h => by
    refine settled_cons (l := []) (fun q hq => ?_) (fun y r e => by cases e) ⟨fun x h => (by cases h), fun a x y b e => (by simp at e)⟩
    rw [h x List.mem_cons_self] at hq; cases hq
  | x :: y :: l, h => by
    have hx : ∀ q ∈ proofOf x, Statement name x ∧ Proof name q ∧ proofOf q = none := fun q hq => by rw [h x List.mem_cons_self] at hq; cases hq
    rcases mergeList_two name x y l with ⟨hs, hp, e⟩ | ⟨hn, e⟩
    · rw [e]
      obtain ⟨a, t, c, p, rfl, h1, h2⟩ := hs
      refine settled_cons (fun q hq => ?_) (fun _ _ _ _ _ => by simp [MItem.under, proofOf]) (settled_merge name l fun z hz => h z (by simp [hz]))
      cases hq
      exact ⟨⟨a, t, c, some y, rfl, h1, h2⟩, hp, h y (by simp)⟩
    · rw [e]
      refine settled_cons hx (fun v r e' hs hv => ?_) (settled_merge name (y :: l) fun z hz => h z (List.mem_cons_of_mem _ hz))
      exact absurd ⟨hs, first_proof e' hv⟩ hn

theorem within_merge {P : List MItem → Prop} (name : Attrs → Str) : ∀ l : List MItem, WithinL P l → WithinL P (mergeList name l)
  | [], h => h
  | [x], h => h
  | x :: y :: l, h => by
    rw [WithinL, WithinL] at h
    rcases mergeList_two name x y l with ⟨⟨a, t, c, p, rfl, _, _⟩, _, e⟩ | ⟨_, e⟩
    · rw [e, WithinL]
      have h1 := h.1
      rw [Within] at h1
      refine ⟨?_, within_merge name l h.2.2⟩
      rw [MItem.under, Within]
      exact ⟨h1.1, h1.2.1, h1.2.2.1, h1.2.2.2.1, h.2.1⟩
    · rw [e, WithinL]
      exact ⟨h.1, within_merge name (y :: l) (by rw [WithinL]; exact h.2)⟩

mutual
theorem within_item (name : Attrs → Str) : ∀ x : Item, Within (WellMerged name) (mergeItem name x)
  | .raw s => by rw [mergeItem, Within]; trivial
  | .lst l => by
    rw [mergeItem, Within]
    exact ⟨settled_merge name _ (mergeItems_bare name l), within_merge name _ (within_items name l)⟩
  | .tok a t c => by
    rw [mergeItem, Within]
    exact ⟨settled_merge name _ (mergeItems_bare name t), within_merge name _ (within_items name t), settled_merge name _ (mergeItems_bare name c),
      within_merge name _ (within_items name c), trivial⟩
theorem within_items (name : Attrs → Str) : ∀ l : List Item, WithinL (WellMerged name) (mergeItems name l)
  | [] => by rw [mergeItems, WithinL]; trivial
  | x :: l => by rw [mergeItems, WithinL]; exact ⟨within_item name x, within_items name l⟩
end

theorem mergeList_rows (name : Attrs → Str) : ∀ l : List MItem, (∀ x ∈ l, ∃ r, x = .lst r) → mergeList name l = l
  | [], _ => rfl
  | [x], _ => rfl
  | x :: y :: l, h => by
    rcases mergeList_two name x y l with ⟨⟨_, _, _, _, e, _⟩, _, _⟩ | ⟨_, e⟩
    · obtain ⟨r, rfl⟩ := h x List.mem_cons_self; cases e
    · rw [e, mergeList_rows name (y :: l) fun z hz => h z (List.mem_cons_of_mem _ hz)]

/-- C75, for a whole document: nothing is lost, doubled or moved in any list at any depth; and in every list, at every depth, every proof right behind a statement is
under it, and only proofs are under statements. -/
theorem C75_deep (name : Attrs → Str) (tokens : List Item) :
    apartL (mergeAll name tokens) = tokens ∧ WellMerged name (mergeAll name tokens) ∧ WithinL (WellMerged name) (mergeAll name tokens) :=
  ⟨(apart_merge name _ (mergeItems_bare name tokens)).trans (apart_items name tokens), settled_merge name _ (mergeItems_bare name tokens),
    within_merge name _ (within_items name tokens)⟩

/-- The token without its proof. -/
def bare : MItem → MItem
  | .tok a t c _ => .tok a t c none
  | x => x

theorem tail_merged {name : Attrs → Str} {x : MItem} {l : List MItem} (h : WellMerged name (x :: l)) : WellMerged name l :=
  ⟨fun z hz => h.1 z (List.mem_cons_of_mem _ hz), fun a u v b e => h.2 (x :: a) u v b (by rw [e]; rfl)⟩

theorem proof_under {name : Attrs → Str} {x y : MItem} (h : Proof name x) : Proof name (x.under y) := by
  obtain ⟨a, t, c, p, rfl, h1, h2⟩ := h
  exact ⟨a, t, c, some y, rfl, h1, h2⟩

/-- If what stands first is a proof, what stands first when merged is one. -/
theorem proof_first {name : Attrs → Str} {x : MItem} {l : List MItem} (h : Proof name x) : ∃ y r, mergeList name (x :: l) = y :: r ∧ Proof name y := by
  cases l with
  | nil => exact ⟨x, [], rfl, h⟩
  | cons z l =>
    rcases mergeList_two name x z l with ⟨_, _, e⟩ | ⟨_, e⟩
    · exact ⟨_, _, e, proof_under h⟩
    · exact ⟨_, _, e, h⟩

theorem merge_alone {name : Attrs → Str} {x : MItem} {L l : List MItem} (e : mergeList name L = l)
    (h : ∀ y r, l = y :: r → Statement name x → ¬ Proof name y) : mergeList name (x :: L) = x :: l := by
  cases L with
  | nil => rw [← e]; rfl
  | cons z L =>
    rcases mergeList_two name x z L with ⟨h1, h2, _⟩ | ⟨_, e'⟩
    · obtain ⟨y, r, e2, hy⟩ := proof_first (l := L) h2
      exact absurd hy (h y r (e.symm.trans e2) h1)
    · rw [e', e]

mutual
theorem back_item (name : Attrs → Str) : ∀ x : MItem, Within (WellMerged name) x →
    (∃ i, apart x = i :: apartO (proofOf x) ∧ mergeItem name i = bare x) ∧ ∀ q, proofOf x = some q → ∃ i, apart q = i :: apartO (proofOf q) ∧ mergeItem name i = bare q
  | .raw s, _ => ⟨⟨.raw s, by rw [apart, proofOf]; rfl; simp, by rw [mergeItem, bare]; simp⟩, fun q h => by cases h⟩
  | .lst l, h => by
    rw [Within] at h
    refine ⟨⟨.lst (apartL l), by rw [apart, proofOf]; rfl; simp, ?_⟩, fun q h => by cases h⟩
    rw [mergeItem, back_list name l h.1 h.2, bare]
    simp
  | .tok a t c p, h => by
    rw [Within] at h
    refine ⟨⟨.tok a (apartL t) (apartL c), by rw [apart, proofOf], ?_⟩, ?_⟩
    · rw [mergeItem, back_list name t h.1 h.2.1, back_list name c h.2.2.1 h.2.2.2.1, bare]
    · exact back_opt name p h.2.2.2.2
theorem back_opt (name : Attrs → Str) : ∀ p : Option MItem, WithinO (WellMerged name) p → ∀ q, p = some q → ∃ i, apart q = i :: apartO (proofOf q) ∧ mergeItem name i = bare q
  | none, _, _, e => by cases e
  | some x, h, q, e => by
    rw [WithinO] at h
    have := (back_item name x h).1
    injection e with e
    rwa [e] at this
theorem back_list (name : Attrs → Str) : ∀ l : List MItem, WellMerged name l → WithinL (WellMerged name) l → mergeList name (mergeItems name (apartL l)) = l
  | [], _, _ => by rw [apartL, mergeItems, mergeList]
  | x :: l, h, hw => by
    rw [WithinL] at hw
    have ih := back_list name l (tail_merged h) hw.2
    obtain ⟨⟨i, h1, h2⟩, h3⟩ := back_item name x hw.1
    rw [apartL, h1, List.cons_append, mergeItems, h2]
    cases hp : proofOf x with
    | none =>
      have hb : bare x = x := by
        cases x with
        | tok a t c p => cases hp; rfl
        | raw => rfl
        | lst => rfl
      rw [hb, apartO, List.nil_append]
      refine merge_alone ih fun y r e hs hy => ?_
      exact h.2 [] x y r (by rw [e]; rfl) hs hy hp
    | some q =>
      obtain ⟨hs, hq, hn⟩ := h.1 x List.mem_cons_self q hp
      obtain ⟨j, h4, h5⟩ := h3 q hp
      rw [hn, apartO] at h4
      have hb : bare q = q := by
        cases q with
        | tok a t c p => cases hn; rfl
        | raw => rfl
        | lst => rfl
      rw [apartO, h4, List.cons_append, List.nil_append, mergeItems, h5, hb]
      obtain ⟨a, t, c, p, rfl, k1, k2⟩ := hs
      cases hp
      rcases mergeList_two name (bare (.tok a t c (some q))) q (mergeItems name (apartL l)) with ⟨_, _, e⟩ | ⟨hn, _⟩
      · rw [e, ih]; rfl
      · exact absurd ⟨⟨a, t, c, none, rfl, k1, k2⟩, hq⟩ hn
end

/-- C75: what C75_deep says leaves one result only. -/
theorem C75_determined (name : Attrs → Str) (tokens : List Item) (m : List MItem) (h : apartL m = tokens) (h1 : WellMerged name m) (h2 : WithinL (WellMerged name) m) :
    m = mergeAll name tokens := by
  rw [← h]
  exact (back_list name m h1 h2).symm

/-! A theorem, its proof with a numbered equation, and an equation behind it. -/

def exName : Attrs → Str := (·.extra)
def exEq : Item := .tok { type := .equation, numbered := some true, text := some ['x'] } [] []
def exThm : Item := .tok { type := .math_env, hasList := true, extra := "theorem".toList } [] []
def exProof : Item := .tok { type := .math_env, hasList := true, extra := "Proof".toList } [] [exEq]
def exEmpty : Item := .tok { type := .math_env, hasList := true, extra := "proof".toList } [] []

def numberOf : Item → Option Str
  | .tok a _ _ => a.numbering
  | _ => none

theorem exThm_statement : IsStatement exName exThm := ⟨_, _, _, rfl, rfl, by decide⟩
theorem exProof_proof : IsProof exName exProof := ⟨_, _, _, rfl, rfl, by decide⟩

example : mergeProofs exName [exEq, exThm, exProof, exEq] = [(exEq, none), (exThm, some exProof), (exEq, none)] := by
  simp [mergeProofs, show (isStatement exName exEq && isProof exName exThm) = false from by decide, show (isStatement exName exThm && isProof exName exProof) = true from by decide]

/-- The same in a list within a token. -/
example : (mergeAll exName [.tok { type := .list, hasList := true } [] [exThm, exEmpty, exEmpty]]).map (fun x => match x with | .tok _ _ c _ => c.map fun y => (proofOf y).isSome | _ => []) =
    [[true, false]] := by
  decide +kernel

example : organizeMerged exName [exThm, exProof, exEq] {} = organizeMerged exName [exThm, exEmpty, exEq] {} :=
  C75_violated_numbering exName [] [exEq] exThm exProof exEmpty exThm_statement exProof_proof ⟨_, _, _, rfl, rfl, by decide⟩ {}

/-- Merged, the equation behind the proof is number 1, otherwise number 2. -/
example : (organizeMerged exName [exThm, exProof, exEq] {}).map (fun r => r.1.map numberOf) = some [none, some ['1']] ∧
    (organize [exThm, exProof, exEq] {}).map (fun r => r.1.map numberOf) = some [none, none, some ['2']] := by decide +kernel

end L2J.Prf
