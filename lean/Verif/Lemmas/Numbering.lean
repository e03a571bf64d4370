import Verif.Lemmas.Concat
namespace L2J
open Spec
variable {skip : Attrs → Bool}

theorem concatText_forall (Q : Item → Prop)
    (hQ : ∀ a t c s, Q (.tok a t c) → Q (.tok { a with text := s } t c)) :
    ∀ (l : List Item) (cur : Option (Attrs × List Item × List Item)), (∀ x ∈ l, Q x) →
    (∀ a t c, cur = some (a, t, c) → Q (.tok a t c)) → ∀ x ∈ concatText cur l, Q x := by
  intro l
  induction l with
  | nil =>
    intro cur _ hc x hx
    unfold concatText at hx
    cases cur with
    | none => simp at hx
    | some r => obtain ⟨a, t, c⟩ := r; simp at hx; subst hx; exact hc a t c rfl
  | cons y l ih =>
    intro cur hl hc
    have hl' : ∀ x ∈ l, Q x := fun z hz => hl z (by simp [hz])
    have hy := hl y (by simp)
    have ihn := ih none hl' (by simp)
    have nontext : ∀ x, (x ∈ (match cur with
        | some (a, t0, c0) => Item.tok a t0 c0 :: y :: concatText none l
        | none => y :: concatText none l)) → Q x := by
      intro x hx
      cases cur with
      | none =>
        simp at hx
        rcases hx with rfl | hx
        · exact hy
        · exact ihn x hx
      | some r =>
        obtain ⟨a, t, c⟩ := r
        simp at hx
        rcases hx with rfl | rfl | hx
        · exact hc a t c rfl
        · exact hy
        · exact ihn x hx
    cases y with
    | raw s => intro x hx; unfold concatText at hx; exact nontext x hx
    | lst s => intro x hx; unfold concatText at hx; exact nontext x hx
    | tok b t' c' =>
      intro x hx
      unfold concatText at hx
      by_cases hb : b.type = .text
      · rw [if_pos hb] at hx
        cases cur with
        | none => exact ih _ hl' (by rintro _ _ _ ⟨⟩; exact hy) x hx
        | some r =>
          obtain ⟨a, t, c⟩ := r
          simp only [] at hx
          split at hx
          · exact ih _ hl' (by rintro _ _ _ ⟨⟩; exact hQ _ _ _ _ (hc a t c rfl)) x hx
          · simp at hx
            rcases hx with rfl | hx
            · exact hc a t c rfl
            · exact ih _ hl' (by rintro _ _ _ ⟨⟩; exact hy) x hx
      · rw [if_neg hb] at hx
        exact nontext x hx

theorem InertL_iff (l : List Item) : InertL l ↔ ∀ x ∈ l, Inert x := by
  induction l with
  | nil => simp [InertL]
  | cons x l ih => simp [InertL, ih]

theorem PlainL_iff (l : List Item) : PlainL skip l ↔ ∀ x ∈ l, Plain skip x := by
  induction l with
  | nil => simp [PlainL]
  | cons x l ih => simp [PlainL, ih]

theorem concat_inert (l : List Item) (h : InertL l) : InertL (concatText none l) := by
  rw [InertL_iff] at h ⊢
  exact concatText_forall Inert (by intro a t c s h; unfold Inert at h ⊢; exact h) l none h (by simp)

theorem concat_plain (gs : GoodSkip skip) (l : List Item) (h : PlainL skip l) : PlainL skip (concatText none l) := by
  rw [PlainL_iff] at h ⊢
  refine concatText_forall (Plain skip) ?_ l none h (by simp)
  intro a t c s h
  unfold Plain at h ⊢
  exact ⟨h.1, h.2.1, fun hs => h.2.2.1 (by rw [← hs]; exact gs.type _ _ rfl), h.2.2.2⟩

/-- A row that is processed keeps being a row. -/
theorem procRows_inert : ∀ (l : List Item), InertL l → (∀ x ∈ l, ∃ r, x = .lst r) → InertL (procRows l)
  | [], _, _ => by simp [procRows, InertL]
  | x :: xs, h, hr => by
    obtain ⟨r, rfl⟩ := hr x (by simp)
    unfold InertL at h
    simp only [procRows, procRow, InertL, Inert, true_and]
    exact procRows_inert xs h.2 (fun y hy => hr y (by simp [hy]))

theorem procRows_plain : ∀ (l : List Item), PlainL skip l → (∀ x ∈ l, ∃ r, x = .lst r) → PlainL skip (procRows l)
  | [], _, _ => by simp [procRows, PlainL]
  | x :: xs, h, hr => by
    obtain ⟨r, rfl⟩ := hr x (by simp)
    unfold PlainL at h
    simp only [procRows, procRow, PlainL, Plain, true_and]
    exact procRows_plain xs h.2 (fun y hy => hr y (by simp [hy]))

mutual
theorem procItem_inert (x : Item) (hs : Shaped x) (h : Inert x) : Inert (procItem x) := by
  match x, hs, h with
  | .raw s, _, _ => simp [procItem, Inert]
  | .lst l, _, _ => simp [procItem, Inert]
  | .tok a t c, hs, h =>
    unfold Shaped at hs
    unfold Inert at h
    simp only [procItem, Inert]
    refine ⟨h.1, h.2.1, h.2.2.1, ?_⟩
    split
    · rename_i ht; exact procRows_inert c h.2.2.2 (hs.2.1 ht)
    · exact concat_inert _ (procItems_inert c hs.2.2 h.2.2.2)
theorem procItems_inert (l : List Item) (hs : ShapedL l) (h : InertL l) : InertL (procItems l) := by
  match l, hs, h with
  | [], _, _ => simp [procItems, InertL]
  | x :: xs, hs, h =>
    unfold ShapedL at hs
    unfold InertL at h
    simp only [procItems, InertL]
    exact ⟨procItem_inert x hs.1 h.1, procItems_inert xs hs.2 h.2⟩
end

mutual
theorem procItem_plain (gs : GoodSkip skip) (x : Item) (hs : Shaped x) (h : Plain skip x) : Plain skip (procItem x) := by
  match x, hs, h with
  | .raw s, _, _ => simp [procItem, Plain]
  | .lst l, _, _ => simp [procItem, Plain]
  | .tok a t c, hs, h =>
    unfold Shaped at hs
    unfold Plain at h
    simp only [procItem, Plain]
    refine ⟨h.1, ?_, ?_, ?_⟩
    · intro hh
      have := h.2.1 hh
      subst this
      have : a.type ≠ .tabular := by rcases hh with hh | hh <;> rw [hh] <;> decide
      rw [if_neg this]
      simp [procItems, concatText]
    · intro hk
      have hb := gs.bib a hk
      rw [if_neg (by rw [hb]; decide)]
      exact concat_inert _ (procItems_inert c hs.2.2 (h.2.2.1 hk))
    · split
      · rename_i ht; exact procRows_plain c h.2.2.2 (hs.2.1 ht)
      · exact concat_plain gs _ (procItems_plain gs c hs.2.2 h.2.2.2)
theorem procItems_plain (gs : GoodSkip skip) (l : List Item) (hs : ShapedL l) (h : PlainL skip l) :
    PlainL skip (procItems l) := by
  match l, hs, h with
  | [], _, _ => simp [procItems, PlainL]
  | x :: xs, hs, h =>
    unfold ShapedL at hs
    unfold PlainL at h
    simp only [procItems, PlainL]
    exact ⟨procItem_plain gs x hs.1 h.1, procItems_plain gs xs hs.2 h.2⟩
end

theorem procItem_top (gs : GoodSkip skip) (x : Item) (hs : Shaped x) (h : TopPlain skip x) :
    TopPlain skip (procItem x) := by
  rcases h with h | ⟨a, t, c, rfl, ha, hc⟩
  · exact Or.inl (procItem_plain gs x hs h)
  · right
    unfold Shaped at hs
    refine ⟨a, _, _, by simp only [procItem]; rfl, ha, ?_⟩
    rw [if_neg (by rw [ha]; decide)]
    exact concat_plain gs _ (procItems_plain gs c hs.2.2 hc)

theorem processTokens_top (gs : GoodSkip skip) (l : List Item) (hs : ShapedL l) (h : ∀ x ∈ l, TopPlain skip x) :
    ∀ x ∈ processTokens l, TopPlain skip x := by
  unfold processTokens
  refine concatText_forall (TopPlain skip) ?_ _ none ?_ (by simp)
  · intro a t c s h
    rcases h with h | ⟨a', t', c', he, ha, hc⟩
    · left
      unfold Plain at h ⊢
      exact ⟨h.1, h.2.1, fun hs => h.2.2.1 (by rw [← hs]; exact gs.type _ _ rfl), h.2.2.2⟩
    · injection he with h1 h2 h3
      subst h1; subst h2; subst h3
      exact Or.inr ⟨_, _, _, rfl, ha, hc⟩
  · rw [procItems_eq_map]
    intro x hx
    simp at hx
    obtain ⟨y, hy, rfl⟩ := hx
    exact procItem_top gs y (ShapedL_mem hs y hy) (h y hy)

/-! ### Counters -/

/-- The counter of a simple kind. -/
def cnt (k : TType) (n : Num) : Nat :=
  match k with
  | .equation => n.eq
  | .table => n.tab
  | .figure => n.fig
  | .algorithm => n.alg
  | _ => 0

theorem updateSection_cnt {k : TType} {n n' : Num} {a a' : Attrs} {ia : Bool}
    (h : updateSection n a ia = some (n', a')) : cnt k n' = cnt k n ∧ a'.numbered = a.numbered := by
  unfold updateSection at h
  split at h
  · injection h with h; injection h with h1 h2; subst h1; subst h2; exact ⟨rfl, rfl⟩
  · simp only [] at h
    split at h
    · cases h
    · rename_i x hx
      injection h with h; injection h with h1 h2; subst h1; subst h2
      refine ⟨?_, rfl⟩
      split at hx
      · injection hx with hx; subst hx; cases k <;> rfl
      · split at hx
        · injection hx with hx; subst hx; cases k <;> rfl
        · split at hx
          · injection hx with hx; subst hx; cases k <;> rfl
          · cases hx

/-- Effect of one node on a simple counter and on the selection it concerns. -/
theorem annEv_simple (k : TType) (hk : k ∈ simpleKinds) (ev ev' : Ev) (ia ia' : Bool) (n n' : Num)
    (h : annEv ev ia n = some (ev', ia', n')) (evs evs' : List Ev) :
    (∃ a, attrsOf (isNumbered k) (ev :: evs) = a :: attrsOf (isNumbered k) evs ∧
      attrsOf (isNumbered k) (ev' :: evs') = { a with numbering := some (natStr (cnt k n + 1)) } :: attrsOf (isNumbered k) evs' ∧
      cnt k n' = cnt k n + 1) ∨
    (attrsOf (isNumbered k) (ev :: evs) = attrsOf (isNumbered k) evs ∧
      attrsOf (isNumbered k) (ev' :: evs') = attrsOf (isNumbered k) evs' ∧ cnt k n' = cnt k n) := by
  obtain ⟨node, e⟩ := ev
  cases node with
  | raw s =>
    simp only [annEv] at h
    injection h with h; injection h with h1 h; injection h with h2 h3
    subst h1; subst h3
    right; simp [attrsOf]
  | lst s =>
    simp only [annEv] at h
    injection h with h; injection h with h1 h; injection h with h2 h3
    subst h1; subst h3
    right; simp [attrsOf]
  | tok a t =>
    simp only [annEv] at h
    by_cases hap : a.type = .appendix
    · rw [if_pos hap] at h
      injection h with h; injection h with h1 h; injection h with h2 h3
      subst h1; subst h3
      right
      have hka : ¬ TType.appendix = k := by rintro rfl; revert hk; decide
      refine ⟨?_, ?_, ?_⟩
      · simp [attrsOf, isNumbered, hap, hka]
      · simp [attrsOf, isNumbered, hap, hka]
      · cases k <;> rfl
    · rw [if_neg hap] at h
      by_cases hsel : a.type = k ∧ a.numbered = some true
      · left
        obtain ⟨hty, hnum⟩ := hsel
        refine ⟨a, by simp [attrsOf, isNumbered, hty, hnum], ?_⟩
        simp only [simpleKinds, List.mem_cons, List.not_mem_nil, or_false] at hk
        have key : checkUpdateNumbering n a =
            ((checkUpdateNumbering n a).1, { a with numbering := some (natStr (cnt k n + 1)) }) ∧
            cnt k (checkUpdateNumbering n a).1 = cnt k n + 1 := by
          unfold checkUpdateNumbering
          rw [if_pos hnum]
          rcases hk with rfl | rfl | rfl | rfl <;> rw [hty] <;> simp [cnt]
        rw [key.1] at h
        have hnl : ¬ a.type = .list := by rw [hty]; rcases hk with rfl | rfl | rfl | rfl <;> decide
        have hns : ¬ a.type = .section := by rw [hty]; rcases hk with rfl | rfl | rfl | rfl <;> decide
        have hnp : ¬ a.type = .paragraph := by rw [hty]; rcases hk with rfl | rfl | rfl | rfl <;> decide
        simp only [if_neg hnl, if_neg hns, if_neg hnp] at h
        injection h with h; injection h with h1 h; injection h with h2 h3
        subst h1; subst h3
        refine ⟨by simp [attrsOf, isNumbered, hty, hnum], key.2⟩
      · right
        have hf : isNumbered k a = false := by simp [isNumbered]; intro h1 h2; exact hsel ⟨h1, h2⟩
        have hc : cnt k (checkUpdateNumbering n a).1 = cnt k n ∧
            (checkUpdateNumbering n a).2.numbered = a.numbered := by
          unfold checkUpdateNumbering
          by_cases hnum : a.numbered = some true
          · rw [if_pos hnum]
            have hty : ¬ a.type = k := fun h => hsel ⟨h, hnum⟩
            split
            · rename_i h1; refine ⟨?_, rfl⟩
              cases k <;> first | rfl | (exact absurd h1 hty)
            · split
              · rename_i h1; refine ⟨?_, rfl⟩
                cases k <;> first | rfl | (exact absurd h1 hty)
              · split
                · rename_i h1; refine ⟨?_, rfl⟩
                  cases k <;> rfl
                · split
                  · rename_i h1; refine ⟨?_, rfl⟩
                    cases k <;> first | rfl | (exact absurd h1 hty)
                  · split
                    · rename_i h1; refine ⟨?_, rfl⟩
                      cases k <;> first | rfl | (exact absurd h1 hty)
                    · exact ⟨rfl, rfl⟩
          · rw [if_neg hnum]; exact ⟨rfl, rfl⟩
        have ht := check_type n a
        generalize checkUpdateNumbering n a = r at h hc ht
        obtain ⟨n1, a1⟩ := r
        simp only [] at h hc ht
        generalize hb : (if a1.type = .list then { a1 with depth := some (e + 1) } else a1) = b at h
        have htb : b.type = a.type := by rw [← hb, ← ht]; split <;> rfl
        have hnb : b.numbered = a.numbered := by rw [← hb, ← hc.2]; split <;> rfl
        have sel : ∀ x : Attrs, x.type = a.type → x.numbered = a.numbered → isNumbered k x = false := by
          intro x h1 h2
          simp only [isNumbered, decide_eq_false_iff_not] at hf ⊢
          rw [h1, h2]; exact hf
        have fin : ∀ (x : Attrs) t, x.type = a.type → x.numbered = a.numbered →
            attrsOf (isNumbered k) (⟨.tok x t, e⟩ :: evs') = attrsOf (isNumbered k) evs' := by
          intro x t h1 h2; simp [attrsOf, sel x h1 h2]
        refine ⟨by simp [attrsOf, hf], ?_⟩
        split at h
        · cases hu : updateSection n1 b ia with
          | none => rw [hu] at h; cases h
          | some r =>
            obtain ⟨n3, a3⟩ := r
            rw [hu] at h
            simp only [] at h
            injection h with h; injection h with h1 h; injection h with h2 h3
            have hx := updateSection_cnt (k := k) hu
            have hy := updateSection_type hu
            subst h1
            refine ⟨fin _ _ (hy.1.trans htb) (hx.2.trans hnb), ?_⟩
            rw [← h3, ← hc.1, ← hx.1]
            split
            · cases k <;> rfl
            · rfl
        · split at h
          · injection h with h; injection h with h1 h; injection h with h2 h3
            subst h1; subst h3
            exact ⟨fin _ _ htb hnb, hc.1⟩
          · injection h with h; injection h with h1 h; injection h with h2 h3
            subst h1; subst h3
            exact ⟨fin _ _ htb hnb, hc.1⟩

/-- Tokens of a simple kind get consecutive numbers. -/
theorem ann_simple (k : TType) (hk : k ∈ simpleKinds) : ∀ (evs evs' : List Ev) (ia ia' : Bool) (n n' : Num),
    ann evs ia n = some (evs', ia', n') →
    attrsOf (isNumbered k) evs' = (attrsOf (isNumbered k) evs).mapIdx
      (fun i a => { a with numbering := some (natStr (cnt k n + i + 1)) }) ∧
    cnt k n' = cnt k n + (attrsOf (isNumbered k) evs).length
  | [], evs', ia, ia', n, n', h => by
    simp only [ann] at h
    injection h with h; injection h with h1 h; injection h with h2 h3
    subst h1; subst h3
    simp [attrsOf]
  | ev :: evs, evs', ia, ia', n, n', h => by
    simp only [ann] at h
    cases h1 : annEv ev ia n with
    | none => rw [h1] at h; cases h
    | some r =>
      obtain ⟨ev1, ia1, n1⟩ := r
      rw [h1] at h
      simp only [] at h
      cases h2 : ann evs ia1 n1 with
      | none => rw [h2] at h; cases h
      | some r =>
        obtain ⟨evs2, ia2, n2⟩ := r
        rw [h2] at h
        simp only [] at h
        injection h with h; injection h with h3 h; injection h with h4 h5
        subst h3; subst h5
        obtain ⟨i1, i2⟩ := ann_simple k hk evs evs2 ia1 ia2 n1 n2 h2
        rcases annEv_simple k hk ev ev1 ia ia1 n n1 h1 evs evs2 with ⟨a, e1, e2, e3⟩ | ⟨e1, e2, e3⟩
        · rw [e1, e2, i1, i2, e3, List.mapIdx_cons]
          refine ⟨?_, by simp; omega⟩
          congr 1
          apply congrArg (List.mapIdx · _)
          funext i a
          rw [show cnt k n + 1 + i + 1 = cnt k n + (i + 1) + 1 by omega]
        · rw [e1, e2, i1, i2, e3]
          exact ⟨rfl, rfl⟩


theorem check_core (n : Num) (a : Attrs) : (checkUpdateNumbering n a).2.core = a.core ∧
    (checkUpdateNumbering n a).2.depth = a.depth ∧ (checkUpdateNumbering n a).2.text = a.text ∧
    (checkUpdateNumbering n a).2.hasList = a.hasList ∧
    (givesNumber a = false → (checkUpdateNumbering n a).2.numbering = a.numbering) := by
  unfold checkUpdateNumbering
  by_cases hn : a.numbered = some true
  · rw [if_pos hn]
    repeat' (first | (split; rename_i hty; exact ⟨rfl, rfl, rfl, rfl, by simp [givesNumber, hn, hty, simpleKinds]⟩) | split)
    all_goals first
      | exact ⟨rfl, rfl, rfl, rfl, fun _ => rfl⟩
      | (refine ⟨rfl, rfl, rfl, rfl, ?_⟩; rename_i hty; simp [givesNumber, hn, hty, simpleKinds])
  · rw [if_neg hn]; exact ⟨rfl, rfl, rfl, rfl, fun _ => rfl⟩

theorem updateSection_core {n : Num} {a : Attrs} {ia : Bool} {n' : Num} {a' : Attrs}
    (h : updateSection n a ia = some (n', a')) : a'.core = a.core ∧ a'.depth = a.depth ∧
      (a.numbered = some false → a'.numbering = a.numbering) := by
  unfold updateSection at h
  split at h
  · injection h with h; injection h with _ h; subst h; exact ⟨rfl, rfl, fun _ => rfl⟩
  · rename_i hn
    simp only [] at h
    split at h
    · cases h
    · injection h with h; injection h with _ h; subst h; exact ⟨rfl, rfl, fun h => absurd h hn⟩

theorem core_type {a b : Attrs} (h : a.core = b.core) : a.type = b.type := congrArg (·.1) h

theorem annEv_kept (ev ev' : Ev) (ia ia' : Bool) (n n' : Num) (h : annEv ev ia n = some (ev', ia', n')) :
    Kept ev ev' := by
  obtain ⟨node, e⟩ := ev
  cases node with
  | raw s =>
    simp only [annEv] at h
    injection h with h; injection h with h1 h
    subst h1; exact ⟨rfl, rfl⟩
  | lst s =>
    simp only [annEv] at h
    injection h with h; injection h with h1 h
    subst h1; exact ⟨rfl, rfl⟩
  | tok a t =>
    simp only [annEv] at h
    by_cases hap : a.type = .appendix
    · rw [if_pos hap] at h
      injection h with h; injection h with h1 h
      subst h1
      refine ⟨rfl, rfl, rfl, ?_, ?_, fun _ => rfl⟩
      · rw [if_neg (by rw [hap]; decide)]
      · intro hc; exact absurd (Or.inr (Or.inr hap)) hc
    · rw [if_neg hap] at h
      obtain ⟨c1, c2, c3, c4, c5⟩ := check_core n a
      generalize checkUpdateNumbering n a = r at h c1 c2 c3 c4 c5
      obtain ⟨n1, a1⟩ := r
      simp only [] at h c1 c2 c3 c4 c5
      have ht1 := core_type c1
      generalize hb : (if a1.type = .list then { a1 with depth := some (e + 1) } else a1) = b at h
      have hbc : b.core = a.core := by rw [← hb, ← c1]; split <;> rfl
      have hbt : b.text = a.text := by rw [← hb, ← c3]; split <;> rfl
      have hbl : b.hasList = a.hasList := by rw [← hb, ← c4]; split <;> rfl
      have hbn : givesNumber a = false → b.numbering = a.numbering := by
        intro h; rw [← c5 h, ← hb]; split <;> rfl
      have hbd : b.depth = if a.type = .list then some (e + 1) else a.depth := by
        rw [← hb, ht1]
        split
        · rfl
        · exact c2
      have htb := core_type hbc
      split at h
      · rename_i hs
        cases hu : updateSection n1 b ia with
        | none => rw [hu] at h; cases h
        | some r =>
          obtain ⟨n3, a3⟩ := r
          rw [hu] at h
          simp only [] at h
          injection h with h; injection h with h1 h
          subst h1
          obtain ⟨u1, u2, u3⟩ := updateSection_core hu
          refine ⟨rfl, rfl, ?_, ?_, ?_, ?_⟩
          · exact (show a3.core = a.core from u1.trans hbc)
          · exact u2.trans hbd
          · intro hc; exact absurd (Or.inl (htb ▸ hs)) hc
          · intro hg
            have hbnum : b.numbered = a.numbered := congrArg (·.2.2.1) hbc
            have : b.numbered = some false := by
              by_cases hf : b.numbered = some false
              · exact hf
              · have hsa : a.type = .section := htb ▸ hs
                have : a.numbered ≠ some false := hbnum ▸ hf
                simp [givesNumber, hsa, this] at hg
            exact (u3 this).trans (hbn hg)
      · split at h
        · rename_i hs
          injection h with h; injection h with h1 h
          subst h1
          refine ⟨rfl, rfl, hbc, hbd, ?_, hbn⟩
          intro hc; exact absurd (Or.inr (Or.inl (htb ▸ hs))) hc
        · injection h with h; injection h with h1 h
          subst h1
          exact ⟨rfl, rfl, hbc, hbd, fun _ => ⟨hbt, hbl⟩, hbn⟩

theorem ann_kept : ∀ (evs evs' : List Ev) (ia ia' : Bool) (n n' : Num),
    ann evs ia n = some (evs', ia', n') → AllKept evs evs'
  | [], evs', ia, ia', n, n', h => by
    simp only [ann] at h
    injection h with h; injection h with h1 h
    subst h1; exact .nil
  | ev :: evs, evs', ia, ia', n, n', h => by
    simp only [ann] at h
    cases h1 : annEv ev ia n with
    | none => rw [h1] at h; cases h
    | some r =>
      obtain ⟨ev1, ia1, n1⟩ := r
      rw [h1] at h
      simp only [] at h
      cases h2 : ann evs ia1 n1 with
      | none => rw [h2] at h; cases h
      | some r =>
        obtain ⟨evs2, ia2, n2⟩ := r
        rw [h2] at h
        simp only [] at h
        injection h with h; injection h with h3 h
        subst h3
        exact .cons _ _ _ _ (annEv_kept _ _ _ _ _ _ h1) (ann_kept _ _ _ _ _ _ h2)

end L2J
