import Verif.Lemmas.Tree
namespace L2J
open Spec

theorem ListsL_append {Q : List Item → Prop} : ∀ (l m : List Item), ListsL Q (l ++ m) ↔ ListsL Q l ∧ ListsL Q m
  | [], m => by simp [ListsL]
  | x :: l, m => by simp [ListsL, ListsL_append l m, and_assoc]

/-- The content list at a path. -/
def listAt : Path → List Item → Option (List Item)
  | [], l => some l
  | i :: p, l =>
    match l[i]? with
    | some (.tok _ _ c) => listAt p c
    | _ => none

theorem listAt_appendAt_same : ∀ (p : Path) (l m : List Item) (x : Item), listAt p l = some m →
    listAt p (appendAt p x l) = some (m ++ [x])
  | [], l, m, x, h => by
    simp only [listAt, Option.some.injEq] at h
    subst h; simp [listAt, appendAt]
  | i :: p, l, m, x, h => by
    simp only [listAt] at h
    cases he : l[i]? with
    | none => rw [he] at h; cases h
    | some y =>
      rw [he] at h
      cases y with
      | raw s => cases h
      | lst s => cases h
      | tok a t c =>
        simp only [appendAt, listAt, List.getElem?_modify, he, if_true]
        exact listAt_appendAt_same p c m x h

theorem listAt_new : ∀ (p : Path) (l m : List Item) (a : Attrs) (t c : List Item), listAt p l = some m →
    listAt (p ++ [lenAt p l]) (appendAt p (.tok a t c) l) = some c
  | [], l, m, a, t, c, h => by
    simp [lenAt, appendAt, listAt]
  | i :: p, l, m, a, t, c, h => by
    simp only [listAt] at h
    cases he : l[i]? with
    | none => rw [he] at h; cases h
    | some y =>
      rw [he] at h
      cases y with
      | raw s => cases h
      | lst s => cases h
      | tok b u d =>
        simp only [List.cons_append, lenAt, he, appendAt, listAt, List.getElem?_modify, if_true]
        exact listAt_new p d m a t c h

/-- A path that leads to a list still leads to a list after an append anywhere. -/
theorem listAt_isSome : ∀ (q p : Path) (l : List Item) (x : Item), (listAt q l).isSome →
    (listAt q (appendAt p x l)).isSome
  | [], _, _, _, _ => by simp [listAt]
  | j :: q, [], l, x, h => by
    simp only [listAt] at h
    cases he : l[j]? with
    | none => rw [he] at h; cases h
    | some y =>
      rw [he] at h
      have hj := (List.getElem?_eq_some_iff.1 he).1
      simp only [appendAt, listAt]
      rw [List.getElem?_append_left hj, he]
      exact h
  | j :: q, i :: p, l, x, h => by
    simp only [listAt] at h
    cases he : l[j]? with
    | none => rw [he] at h; cases h
    | some y =>
      rw [he] at h
      simp only [appendAt, listAt, List.getElem?_modify, he]
      by_cases hij : i = j
      · cases y with
        | raw s => cases h
        | lst s => cases h
        | tok a t c =>
          simp only [hij, if_true]
          exact listAt_isSome q p c x h
      · simp only [hij, if_false]
        exact h

theorem headingsLast_middle {pre post : List Item} {a : Attrs} {t c c' : List Item}
    (h : HeadingsLast (pre ++ .tok a t c :: post)) : HeadingsLast (pre ++ .tok a t c' :: post) := by
  obtain ⟨u, v, h1, h2, h3⟩ := h
  -- map the changed element
  rcases List.append_eq_append_iff.1 h1 with ⟨w, hw1, hw2⟩ | ⟨w, hw1, hw2⟩
  · -- u = pre ++ w, tok :: post = w ++ v
    cases w with
    | nil =>
      simp only [List.nil_append] at hw2
      simp only [List.append_nil] at hw1
      rw [← hw2] at h3; rw [hw1] at h2
      refine ⟨pre, .tok a t c' :: post, rfl, h2, ?_⟩
      intro x hx
      rcases List.mem_cons.1 hx with rfl | hx
      · have := h3 (.tok a t c) (by simp); simpa [IsHeading] using this
      · exact h3 x (by simp [hx])
    | cons y w =>
      simp only [List.cons_append, List.cons.injEq] at hw2
      obtain ⟨rfl, rfl⟩ := hw2
      subst hw1
      refine ⟨pre ++ .tok a t c' :: w, v, by simp, ?_, h3⟩
      intro x hx
      rcases List.mem_append.1 hx with hx | hx
      · exact h2 x (by simp [hx])
      · rcases List.mem_cons.1 hx with rfl | hx
        · have := h2 (.tok a t c) (by simp); simpa [IsHeading] using this
        · exact h2 x (by simp [hx])
  · subst hw1; subst hw2
    refine ⟨u, w ++ .tok a t c' :: post, by simp, h2, ?_⟩
    intro x hx
    rcases List.mem_append.1 hx with hx | hx
    · exact h3 x (by simp [hx])
    · rcases List.mem_cons.1 hx with rfl | hx
      · have := h3 (.tok a t c) (by simp); simpa [IsHeading] using this
      · exact h3 x (by simp [hx])

theorem headingsLast_snoc_heading {l : List Item} {x : Item} (h : HeadingsLast l) (hx : IsHeading x) :
    HeadingsLast (l ++ [x]) := by
  obtain ⟨u, v, rfl, h2, h3⟩ := h
  refine ⟨u, v ++ [x], by simp, h2, ?_⟩
  intro y hy
  rcases List.mem_append.1 hy with hy | hy
  · exact h3 y hy
  · simp at hy; subst hy; exact hx

def NoHeads (l : List Item) : Prop := ∀ x ∈ l, ¬ IsHeading x

theorem headingsLast_noHeads {l : List Item} (h : NoHeads l) : HeadingsLast l := ⟨l, [], by simp, h, by simp⟩

theorem headingsLast_nil : HeadingsLast [] := headingsLast_noHeads (by simp [NoHeads])

/-- Appending a heading anywhere, or something else to a list without headings, keeps all lists in order. -/
theorem allLists_appendAt : ∀ (p : Path) (l m : List Item) (x : Item), AllLists HeadingsLast l → listAt p l = some m →
    ListsI HeadingsLast x → (IsHeading x ∨ NoHeads m) → AllLists HeadingsLast (appendAt p x l)
  | [], l, m, x, h, hm, hx, hor => by
    simp only [listAt, Option.some.injEq] at hm
    subst hm
    simp only [appendAt]
    refine ⟨?_, by rw [ListsL_append]; exact ⟨h.2, hx, by simp [ListsL]⟩⟩
    rcases hor with hh | hh
    · exact headingsLast_snoc_heading h.1 hh
    · by_cases hxh : IsHeading x
      · exact headingsLast_snoc_heading h.1 hxh
      · refine headingsLast_noHeads ?_
        intro y hy
        rcases List.mem_append.1 hy with hy | hy
        · exact hh y hy
        · simp at hy; subst hy; exact hxh
  | i :: p, l, m, x, h, hm, hx, hor => by
    simp only [listAt] at hm
    cases he : l[i]? with
    | none => rw [he] at hm; cases hm
    | some y =>
      rw [he] at hm
      cases y with
      | raw s => cases hm
      | lst s => cases hm
      | tok a t c =>
        obtain ⟨pre, post, rfl, rfl⟩ := getElem?_split he
        simp only [appendAt, modify_middle]
        obtain ⟨h1, h2⟩ := h
        rw [ListsL_append] at h2
        simp only [ListsL, ListsI] at h2
        have ih := allLists_appendAt p c m x h2.2.1 hm hx hor
        refine ⟨headingsLast_middle h1, ?_⟩
        rw [ListsL_append]
        simp only [ListsL, ListsI]
        exact ⟨h2.1, ih, h2.2.2⟩

structure HInv (st : Org) : Prop where
  lists : AllLists HeadingsLast st.out
  secs : ∀ r ∈ st.secs, (listAt r.path st.out).isSome
  pars : ∀ r ∈ st.pars, (listAt r.path st.out).isSome
  root : (listAt st.root st.out).isSome
  here : ∃ m, listAt st.target st.out = some m ∧ NoHeads m

def RecHeads (rec : Bool → Nat → Num → Option (List Item × Num)) : Prop :=
  ∀ ia d n c n', rec ia d n = some (c, n') → AllLists HeadingsLast c

theorem HInv.put {st : Org} (inv : HInv st) (x : Item) (hx : ListsI HeadingsLast x) (hnh : ¬ IsHeading x) (n : Num) :
    HInv { st with out := appendAt st.target x st.out, num := n } := by
  obtain ⟨m, h1, h2⟩ := inv.here
  refine ⟨allLists_appendAt _ _ _ _ inv.lists h1 hx (Or.inr h2), fun r hr => listAt_isSome _ _ _ _ (inv.secs r hr),
    fun r hr => listAt_isSome _ _ _ _ (inv.pars r hr), listAt_isSome _ _ _ _ inv.root, m ++ [x], ?_, ?_⟩
  · exact listAt_appendAt_same _ _ _ _ h1
  · intro y hy
    rcases List.mem_append.1 hy with hy | hy
    · exact h2 y hy
    · simp at hy; subst hy; exact hnh

theorem step_heads {it : Item} {d : Nat} {rec : Bool → Nat → Num → Option (List Item × Num)} (hrec : RecHeads rec)
    (hnb : NoBib it) (happ : ∀ a t c, it = .tok a t c → a.type = .appendix → ∀ ia d n c' n', rec ia d n = some (c', n') → c' = [])
    {st st' : Org} (inv : HInv st) (h : stepOrg it d rec st = some st') : HInv st' := by
  cases it with
  | raw s =>
    simp only [stepOrg] at h
    injection h with h; subst h
    exact inv.put (.raw s) (by simp [ListsI]) (by simp [IsHeading]) st.num
  | lst s =>
    simp only [stepOrg] at h
    injection h with h; subst h
    exact inv.put (.lst s) (by simp [ListsI]) (by simp [IsHeading]) st.num
  | tok a t c0 =>
    unfold NoBib at hnb
    simp only [stepOrg] at h
    by_cases hap : a.type = .appendix
    · rw [if_pos hap] at h
      split at h
      · cases h
      · rename_i c n hr
        injection h with h
        subst h
        have hc := happ a t c0 rfl hap _ _ _ _ _ hr
        subst hc
        have := allLists_appendAt [] st.out st.out (.tok { a with text := none, hasList := true } t []) inv.lists rfl
          ⟨headingsLast_nil, trivial⟩ (Or.inl (by simp [IsHeading, hap]))
        have hroot : listAt [st.out.length] (st.out ++ [Item.tok { a with text := none, hasList := true } t []]) = some [] := by
          simp [listAt]
        refine ⟨this, by simp, by simp, by simp [hroot], [], ?_, by simp [NoHeads]⟩
        simp only [Org.target]
        exact hroot
    · rw [if_neg hap] at h
      have hct := check_type st.num a
      generalize checkUpdateNumbering st.num a = r at h hct
      obtain ⟨n1, a1⟩ := r
      simp only [] at h hct
      generalize hb : (if a1.type = .list then { a1 with depth := some (d + 1) } else a1) = b at h
      have hbt : b.type = a.type := by rw [← hb, ← hct]; split <;> rfl
      cases hr : rec st.inApp (if b.type = .list then d + 1 else d) n1 with
      | none => rw [hr] at h; cases h
      | some v =>
        obtain ⟨c, n2⟩ := v
        rw [hr] at h
        simp only [] at h
        have hc := hrec _ _ _ _ _ hr
        have hbib : b.type ≠ .bibliography := by rw [hbt]; exact hnb.1
        rw [if_neg hbib] at h
        by_cases hsec : b.type = .section
        · rw [if_pos hsec] at h
          split at h
          · cases h
          · rename_i n3 a3 hu
            have h3t : a3.type = .section := (core_type (updateSection_core hu).1).trans hsec
            unfold manageStack at h
            cases hp : popStack a3.level st.secs with
            | none => rw [hp] at h; cases h
            | some stk =>
              rw [hp] at h
              simp only [] at h
              injection h with h
              subst h
              have hsub := popStack_suffix _ _ _ hp
              have hpl : (listAt (stackTarget st.root stk []) st.out).isSome := by
                unfold stackTarget
                cases hk : stk with
                | nil => exact inv.root
                | cons r rs => exact inv.secs r (hsub.subset (by simp [hk]))
              obtain ⟨m, hm⟩ := Option.isSome_iff_exists.1 hpl
              have hnew := listAt_new _ _ _ { a3 with text := none, hasList := true } t [] hm
              refine ⟨allLists_appendAt _ _ _ _ inv.lists hm ⟨headingsLast_nil, trivial⟩ (Or.inl (by simp [IsHeading, h3t])), ?_, by simp,
                listAt_isSome _ _ _ _ inv.root, [], ?_, by simp [NoHeads]⟩
              · intro r hr
                rcases List.mem_cons.1 hr with rfl | hr
                · simp only [hnew]; rfl
                · exact listAt_isSome _ _ _ _ (inv.secs r (hsub.subset hr))
              · simp only [Org.target]
                exact hnew
        · rw [if_neg hsec] at h
          by_cases hpar : b.type = .paragraph
          · rw [if_pos hpar] at h
            unfold manageStack at h
            cases hp : popStack b.level st.pars with
            | none => rw [hp] at h; cases h
            | some stk =>
              rw [hp] at h
              simp only [] at h
              injection h with h
              subst h
              have hsub := popStack_suffix _ _ _ hp
              have hpl : (listAt (stackTarget st.root stk st.secs) st.out).isSome := by
                unfold stackTarget
                cases hq : st.secs with
                | cons r rs => exact inv.secs r (by simp [hq])
                | nil =>
                  cases hk : stk with
                  | nil => exact inv.root
                  | cons r rs => exact inv.pars r (hsub.subset (by simp [hk]))
              obtain ⟨m, hm⟩ := Option.isSome_iff_exists.1 hpl
              have hnew := listAt_new _ _ _ { b with text := none, hasList := true } t [] hm
              refine ⟨allLists_appendAt _ _ _ _ inv.lists hm ⟨headingsLast_nil, trivial⟩ (Or.inl (by simp [IsHeading, hpar])),
                fun r hr => listAt_isSome _ _ _ _ (inv.secs r hr), ?_,
                listAt_isSome _ _ _ _ inv.root, [], ?_, by simp [NoHeads]⟩
              · intro r hr
                rcases List.mem_cons.1 hr with rfl | hr
                · simp only [hnew]; rfl
                · exact listAt_isSome _ _ _ _ (inv.pars r (hsub.subset hr))
              · simp only [Org.target]
                exact hnew
          · rw [if_neg hpar] at h
            injection h with h; subst h
            refine inv.put (.tok b t c) hc ?_ n2
            simp only [IsHeading, hbt, hap, or_false]
            rw [hbt] at hsec hpar
            simp [hsec, hpar]

theorem HInv.init (ia : Bool) (n : Num) : HInv { inApp := ia, num := n } :=
  ⟨⟨headingsLast_noHeads (by simp [NoHeads]), by simp [ListsL]⟩, by simp, by simp, by simp [listAt],
    [], by simp [Org.target, listAt], by simp [NoHeads]⟩

mutual
theorem rec_heads : ∀ x : Item, NoBib x → RecHeads (fun ia d n => orgItem x ia d n)
  | .raw s, _ => by
    intro ia d n c n' h
    simp only [orgItem, Option.some.injEq, Prod.mk.injEq] at h
    rw [← h.1]; exact (HInv.init ia n).lists
  | .lst s, _ => by
    intro ia d n c n' h
    simp only [orgItem, Option.some.injEq, Prod.mk.injEq] at h
    rw [← h.1]; exact (HInv.init ia n).lists
  | .tok a t c0, hnb => by
    intro ia d n c n' h
    simp only [orgItem] at h
    rw [Option.map_eq_some_iff] at h
    obtain ⟨st', h1, h2⟩ := h
    injection h2 with h2 h3
    subst h2
    unfold NoBib at hnb
    exact (loop_heads c0 hnb.2.2 d _ _ (HInv.init ia n) h1).lists
theorem loop_heads : ∀ (l : List Item), NoBibL l → ∀ (d : Nat) (st st' : Org), HInv st →
    orgLoop l d st = some st' → HInv st'
  | [], _, _, st, st', inv, h => by simp only [orgLoop, Option.some.injEq] at h; exact h ▸ inv
  | x :: xs, hnb, d, st, st', inv, h => by
    unfold NoBibL at hnb
    simp only [orgLoop] at h
    cases hs : stepOrg x d (fun inApp d n => orgItem x inApp d n) st with
    | none => rw [hs] at h; cases h
    | some st1 =>
      rw [hs] at h
      refine loop_heads xs hnb.2 d st1 st' (step_heads (rec_heads x hnb.1) hnb.1 ?_ inv hs) h
      rintro a t c hxe ha ia d n c' n' hr
      rw [hxe] at hr
      have hx1 := hnb.1
      rw [hxe] at hx1
      unfold NoBib at hx1
      rw [hx1.2.1 ha] at hr
      simp only [orgItem, orgLoop, Option.map_some, Option.some.injEq, Prod.mk.injEq] at hr
      exact hr.1.symm
end

theorem organize_heads (doc : List Item) (hnb : NoBibL doc) (n : Num) (out : List Item) (n' : Num)
    (h : organize doc n = some (out, n')) : AllLists HeadingsLast out := by
  unfold organize at h
  rw [Option.map_eq_some_iff] at h
  obtain ⟨st', h1, h2⟩ := h
  injection h2 with h2 h3
  subst h2
  exact (loop_heads doc hnb 0 _ _ (HInv.init false n) h1).lists

/-! Text merging keeps the shape. -/
theorem NoBibL_iff (l : List Item) : NoBibL l ↔ ∀ x ∈ l, NoBib x := by
  induction l with
  | nil => simp [NoBibL]
  | cons x l ih => simp [NoBibL, ih]

theorem concat_noBib (l : List Item) (h : NoBibL l) : NoBibL (concatText none l) := by
  rw [NoBibL_iff] at h ⊢
  exact concatText_forall NoBib (by intro a t c s h; unfold NoBib at h ⊢; exact h) l none h (by simp)

theorem procRows_noBib : ∀ (l : List Item), NoBibL l → NoBibL (procRows l)
  | [], _ => by simp [procRows, NoBibL]
  | x :: xs, h => by
    unfold NoBibL at h
    simp only [procRows, NoBibL]
    refine ⟨?_, procRows_noBib xs h.2⟩
    cases x with
    | lst r => simp [procRow, NoBib]
    | raw s => simp [procRow, NoBib]
    | tok a t c => simpa [procRow] using h.1

mutual
theorem procItem_noBib : ∀ x, NoBib x → NoBib (procItem x)
  | .raw s, _ => by simp [procItem, NoBib]
  | .lst l, _ => by simp [procItem, NoBib]
  | .tok a t c, h => by
    unfold NoBib at h
    simp only [procItem, NoBib]
    refine ⟨h.1, ?_, ?_⟩
    · intro ha
      rw [h.2.1 ha, if_neg (by rw [ha]; decide)]
      simp [procItems, concatText]
    · by_cases ht : a.type = .tabular
      · rw [if_pos ht]; exact procRows_noBib c h.2.2
      · rw [if_neg ht]; exact concat_noBib _ (procItems_noBib c h.2.2)
theorem procItems_noBib : ∀ l, NoBibL l → NoBibL (procItems l)
  | [], _ => by simp [procItems, NoBibL]
  | x :: xs, h => by
    unfold NoBibL at h
    simp only [procItems, NoBibL]
    exact ⟨procItem_noBib x h.1, procItems_noBib xs h.2⟩
end

end L2J
