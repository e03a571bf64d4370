import Verif.Lemmas.Doc
import Verif.Spec.Tree
namespace L2J
open Spec

variable {P : List Attrs → Attrs → Prop}

theorem TreeL_append (anc : List Attrs) : ∀ (l m : List Item), TreeL P anc (l ++ m) ↔ TreeL P anc l ∧ TreeL P anc m
  | [], m => by simp [TreeL]
  | x :: l, m => by simp [TreeL, TreeL_append anc l m, and_assoc]

/-- The attributes met on the way to the content list at a path, innermost first, on top of `anc`. -/
def ancAt : Path → List Attrs → List Item → Option (List Attrs)
  | [], anc, _ => some anc
  | i :: p, anc, l =>
    match l[i]? with
    | some (.tok a _ c) => ancAt p (a :: anc) c
    | _ => none

theorem getElem?_split {α} {l : List α} {i : Nat} {x : α} (h : l[i]? = some x) :
    ∃ pre post, l = pre ++ x :: post ∧ pre.length = i := by
  obtain ⟨hi, he⟩ := List.getElem?_eq_some_iff.1 h
  refine ⟨l.take i, l.drop (i + 1), ?_, by simp; omega⟩
  rw [← he, List.getElem_cons_drop, List.take_append_drop]

theorem TreeL_appendAt : ∀ (p : Path) (anc anc' : List Attrs) (l : List Item) (x : Item),
    TreeL P anc l → ancAt p anc l = some anc' → TreeI P anc' x → TreeL P anc (appendAt p x l)
  | [], anc, anc', l, x, h, ha, hx => by
    simp only [ancAt, Option.some.injEq] at ha
    subst ha
    simp only [appendAt, TreeL_append, TreeL, and_true]
    exact ⟨h, hx⟩
  | i :: p, anc, anc', l, x, h, ha, hx => by
    simp only [ancAt] at ha
    cases he : l[i]? with
    | none => rw [he] at ha; cases ha
    | some y =>
      rw [he] at ha
      cases y with
      | raw s => cases ha
      | lst s => cases ha
      | tok a t c =>
        obtain ⟨pre, post, rfl, rfl⟩ := getElem?_split he
        simp only [appendAt, modify_middle]
        rw [TreeL_append] at h ⊢
        simp only [TreeL, TreeI] at h ⊢
        exact ⟨h.1, ⟨h.2.1.1, TreeL_appendAt p _ _ c x h.2.1.2 ha hx⟩, h.2.2⟩

theorem ancAt_appendAt : ∀ (q p : Path) (anc anc' : List Attrs) (l : List Item) (x : Item),
    ancAt q anc l = some anc' → ancAt q anc (appendAt p x l) = some anc'
  | [], _, _, _, _, _, h => by simpa [ancAt] using h
  | j :: q, [], anc, anc', l, x, h => by
    simp only [ancAt] at h
    cases he : l[j]? with
    | none => rw [he] at h; cases h
    | some y =>
      rw [he] at h
      have hj := (List.getElem?_eq_some_iff.1 he).1
      simp only [appendAt, ancAt]
      rw [List.getElem?_append_left hj, he]
      exact h
  | j :: q, i :: p, anc, anc', l, x, h => by
    simp only [ancAt] at h
    cases he : l[j]? with
    | none => rw [he] at h; cases h
    | some y =>
      rw [he] at h
      simp only [appendAt, ancAt, List.getElem?_modify, he]
      by_cases hij : i = j
      · cases y with
        | raw s => cases h
        | lst s => cases h
        | tok a t c =>
          simp only [hij, if_true]
          exact ancAt_appendAt q p _ _ c x h
      · simp only [hij, if_false]
        exact h

theorem ancAt_new : ∀ (p : Path) (anc anc' : List Attrs) (l : List Item) (a : Attrs) (t c : List Item),
    ancAt p anc l = some anc' → ancAt (p ++ [lenAt p l]) anc (appendAt p (.tok a t c) l) = some (a :: anc')
  | [], anc, anc', l, a, t, c, h => by
    simp only [ancAt, Option.some.injEq] at h
    subst h
    simp [lenAt, appendAt, ancAt]
  | i :: p, anc, anc', l, a, t, c, h => by
    simp only [ancAt] at h
    cases he : l[i]? with
    | none => rw [he] at h; cases h
    | some y =>
      rw [he] at h
      cases y with
      | raw s => cases h
      | lst s => cases h
      | tok b u d =>
        simp only [List.cons_append, lenAt, he, appendAt, ancAt, List.getElem?_modify, if_true]
        exact ancAt_new p _ _ d a t c h

/-- Nodes between the root of a recursive call and a place where content is added. -/
def Mid (mid : List Attrs) : Prop := ∀ b ∈ mid, Container b

/-- What is known about an entry of a stack. -/
def RefOK (ty : TType) (anc0 : List Attrs) (out : List Item) (r : Ref) : Prop :=
  ∃ a mid, ancAt r.path anc0 out = some (a :: (mid ++ anc0)) ∧ a.type = ty ∧ a.level = r.level ∧ Mid mid

theorem RefOK.append {ty : TType} {anc0 : List Attrs} {out : List Item} {r : Ref} (h : RefOK ty anc0 out r)
    (p : Path) (x : Item) : RefOK ty anc0 (appendAt p x out) r := by
  obtain ⟨a, mid, h1, h2⟩ := h
  exact ⟨a, mid, ancAt_appendAt _ _ _ _ _ _ h1, h2⟩

structure TInv (P : List Attrs → Attrs → Prop) (anc0 : List Attrs) (st : Org) : Prop where
  tree : TreeL P anc0 st.out
  secs : ∀ r ∈ st.secs, RefOK .section anc0 st.out r
  pars : ∀ r ∈ st.pars, RefOK .paragraph anc0 st.out r
  root : ∃ mid, ancAt st.root anc0 st.out = some (mid ++ anc0) ∧ ∀ b ∈ mid, b.type = .appendix

theorem popStack_lt (lvl : Option Nat) : ∀ (s s' : List Ref), popStack lvl s = some s' →
    ∀ r, s'.head? = some r → ∃ m n, r.level = some m ∧ lvl = some n ∧ m < n
  | [], s', h, r, hr => by
    simp only [popStack, Option.some.injEq] at h
    subst h; simp at hr
  | x :: s, s', h, r, hr => by
    simp only [popStack] at h
    split at h
    · rename_i m n hm
      split at h
      · exact popStack_lt _ s s' h r hr
      · injection h with h
        subst h
        simp at hr
        subst hr
        exact ⟨m, _, hm, rfl, by omega⟩
    · cases h

/-- The two properties proved together. -/
def Nest (anc : List Attrs) (a : Attrs) : Prop := DepthRight anc a ∧ HeadingsNested anc a

theorem listsAround_mid {mid anc : List Attrs} (h : Mid mid) : listsAround (mid ++ anc) = listsAround anc := by
  unfold listsAround
  rw [List.filter_append]
  have : mid.filter (fun b => decide (b.type = .list)) = [] := by
    rw [List.filter_eq_nil_iff]
    intro b hb
    simpa using (h b hb).not_list
  simp [this]

/-- Where content goes. -/
theorem TInv.target {anc0 : List Attrs} {st : Org} (inv : TInv P anc0 st) :
    ∃ mid, ancAt st.target anc0 st.out = some (mid ++ anc0) ∧ Mid mid := by
  have sec : ∀ r ty, (Container { type := ty } ) → RefOK ty anc0 st.out r → ∃ mid, ancAt r.path anc0 st.out = some (mid ++ anc0) ∧ Mid mid := by
    rintro r ty hty ⟨a, mid, h1, h2, _, h4⟩
    refine ⟨a :: mid, h1, ?_⟩
    intro b hb
    rcases List.mem_cons.1 hb with rfl | hb
    · unfold Container at hty ⊢; simpa [h2] using hty
    · exact h4 b hb
  unfold Org.target
  cases hp : st.pars with
  | cons r rs => exact sec r .paragraph (by simp [Container]) (inv.pars r (by simp [hp]))
  | nil =>
    cases hq : st.secs with
    | cons r rs => exact sec r .section (by simp [Container]) (inv.secs r (by simp [hq]))
    | nil =>
      obtain ⟨mid, h1, h2⟩ := inv.root
      exact ⟨mid, h1, fun b hb => Or.inr (Or.inr (h2 b hb))⟩

/-- Adding an ordinary item at the current place. -/
theorem TInv.push {anc0 : List Attrs} {st : Org} (inv : TInv P anc0 st) (p : Path) (anc' : List Attrs) (x : Item)
    (hp : ancAt p anc0 st.out = some anc') (hx : TreeI P anc' x) (ia : Bool) (n : Num) :
    TInv P anc0 { st with out := appendAt p x st.out, inApp := ia, num := n } where
  tree := TreeL_appendAt _ _ _ _ _ inv.tree hp hx
  secs := fun r hr => (inv.secs r hr).append _ _
  pars := fun r hr => (inv.pars r hr).append _ _
  root := by
    obtain ⟨mid, h1, h2⟩ := inv.root
    exact ⟨mid, ancAt_appendAt _ _ _ _ _ _ h1, h2⟩

/-- The recursive call on a token's content, for use under a token `a'` that stays in the tree. -/
def RecTree (P : List Attrs → Attrs → Prop) (rec : Bool → Nat → Num → Option (List Item × Num)) : Prop :=
  ∀ (ia : Bool) (n : Num) (anc : List Attrs) (c : List Item) (n' : Num),
    (∀ b, anc.head? = some b → b.type ≠ .section ∧ b.type ≠ .paragraph) →
    rec ia (listsAround anc) n = some (c, n') → TreeL P anc c

theorem step_nest {it : Item} {rec : Bool → Nat → Num → Option (List Item × Num)} (hrec : RecTree Nest rec)
    {anc0 : List Attrs} (h0 : ∀ b, anc0.head? = some b → b.type ≠ .section ∧ b.type ≠ .paragraph)
    {st st' : Org} (inv : TInv Nest anc0 st)
    (h : stepOrg it (listsAround anc0) rec st = some st') : TInv Nest anc0 st' := by
  obtain ⟨tm, ht1, ht2⟩ := inv.target
  cases it with
  | raw s =>
    simp only [stepOrg] at h
    injection h with h; subst h
    exact inv.push _ _ _ ht1 (by simp [TreeI]) _ _
  | lst s =>
    simp only [stepOrg] at h
    injection h with h; subst h
    exact inv.push _ _ _ ht1 (by simp [TreeI]) _ _
  | tok a t c0 =>
    simp only [stepOrg] at h
    by_cases hap : a.type = .appendix
    · rw [if_pos hap] at h
      split at h
      · cases h
      · rename_i c n hr
        injection h with h
        subst h
        have hnl : listsAround ({ a with text := none, hasList := true } :: anc0) = listsAround anc0 := by
          simp [listsAround, hap]
        have hc := hrec _ _ ({ a with text := none, hasList := true } :: anc0) c n (by
          intro b hb; simp at hb; subst hb; simp [hap]) (by rw [hnl]; exact hr)
        constructor
        · simp only [TreeL_append, TreeL, TreeI, and_true]
          refine ⟨inv.tree, ⟨?_, ?_⟩, hc⟩
          · intro hl; simp [hap] at hl
          · intro b hb; simp [hap]
        · simp
        · simp
        · exact ⟨[{ a with text := none, hasList := true }], by simp [ancAt], by simp [hap]⟩
    · rw [if_neg hap] at h
      have hct := check_type st.num a
      generalize checkUpdateNumbering st.num a = r at h hct
      obtain ⟨n1, a1⟩ := r
      simp only [] at h hct
      generalize hb : (if a1.type = .list then { a1 with depth := some (listsAround anc0 + 1) } else a1) = b at h
      have hbt : b.type = a1.type := by rw [← hb]; split <;> rfl
      have hbd : DepthRight anc0 b := by
        intro hl
        rw [← hb]
        rw [if_pos (by rw [← hbt]; exact hl)]
      cases hr : rec st.inApp (if b.type = .list then listsAround anc0 + 1 else listsAround anc0) n1 with
      | none => rw [hr] at h; cases h
      | some v =>
        obtain ⟨c, n2⟩ := v
        rw [hr] at h
        simp only [] at h
        have hcount : ∀ mid, Mid mid → listsAround (b :: (mid ++ anc0)) =
            (if b.type = .list then listsAround anc0 + 1 else listsAround anc0) := by
          intro mid hm
          rw [← listsAround_mid (anc := anc0) hm]
          unfold listsAround
          by_cases hl : b.type = .list <;> simp [hl]
        by_cases hbib : b.type = .bibliography
        · rw [if_pos hbib] at h
          injection h with h; subst h
          have hc := hrec _ _ (b :: anc0) c n2 (by intro x hx; simp at hx; subst hx; simp [hbib])
            (by have := hcount [] (by simp [Mid]); simp only [List.nil_append] at this; rw [this]; exact hr)
          have : TreeI Nest anc0 (.tok b t c) := ⟨⟨hbd, fun x hx => by simp [hbib]⟩, hc⟩
          constructor
          · simp only [TreeL_append, TreeL, and_true]; exact ⟨inv.tree, this⟩
          · simp
          · simp
          · obtain ⟨mid, h1, h2⟩ := inv.root
            exact ⟨mid, ancAt_appendAt _ [] _ _ _ (.tok b t c) h1, h2⟩
        · rw [if_neg hbib] at h
          by_cases hsec : b.type = .section
          · rw [if_pos hsec] at h
            split at h
            · cases h
            · rename_i n3 a3 hu
              have hcore := updateSection_core hu
              have h3t : a3.type = .section := (core_type hcore.1).trans hsec
              unfold manageStack at h
              cases hp : popStack a3.level st.secs with
              | none => rw [hp] at h; cases h
              | some stk =>
                rw [hp] at h
                simp only [] at h
                injection h with h
                subst h
                have hsub := popStack_suffix _ _ _ hp
                -- the place
                have hplace : ∃ mid, ancAt (stackTarget st.root stk []) anc0 st.out = some (mid ++ anc0) ∧ Mid mid ∧
                    ∀ x, (mid ++ anc0).head? = some x → x.type ≠ .paragraph ∧ (x.type = .section → LevelLt x a3) := by
                  unfold stackTarget
                  cases hk : stk with
                  | nil =>
                    obtain ⟨mid, h1, h2⟩ := inv.root
                    refine ⟨mid, h1, fun b hb => Or.inr (Or.inr (h2 b hb)), ?_⟩
                    intro x hx
                    cases mid with
                    | nil =>
                      have := h0 x hx
                      exact ⟨this.2, fun e => absurd e this.1⟩
                    | cons y mid =>
                      simp at hx; subst hx
                      have := h2 y (by simp)
                      simp [this]
                  | cons r rs =>
                    have hrin : r ∈ st.secs := hsub.subset (by simp [hk])
                    obtain ⟨y, mid, h1, h2, h3, h4⟩ := inv.secs r hrin
                    refine ⟨y :: mid, h1, ?_, ?_⟩
                    · intro z hz
                      rcases List.mem_cons.1 hz with rfl | hz
                      · exact Or.inl h2
                      · exact h4 z hz
                    · intro x hx
                      simp at hx; subst hx
                      refine ⟨by rw [h2]; decide, fun _ => ?_⟩
                      obtain ⟨m, n, e1, e2, e3⟩ := popStack_lt _ _ _ hp r (by simp [hk])
                      exact ⟨m, n, by rw [h3, e1], e2, e3⟩
                obtain ⟨mid, p1, p2, p3⟩ := hplace
                have hti : TreeI Nest (mid ++ anc0) (.tok { a3 with text := none, hasList := true } t []) := by
                  refine ⟨⟨?_, ?_⟩, by simp [TreeL]⟩
                  · intro hl
                    have : a3.type = .list := hl
                    rw [h3t] at this; cases this
                  · intro x hx
                    refine ⟨fun _ => p3 x hx, ?_⟩
                    intro hpar
                    have : a3.type = .paragraph := hpar
                    rw [h3t] at this; cases this
                have base := inv.push _ _ _ p1 hti st.inApp n3
                constructor
                · exact base.tree
                · intro r hr
                  rcases List.mem_cons.1 hr with rfl | hr
                  · exact ⟨_, mid, ancAt_new _ _ _ _ _ _ _ p1, h3t, rfl, p2⟩
                  · exact base.secs r (hsub.subset hr)
                · simp
                · exact base.root
          · rw [if_neg hsec] at h
            by_cases hpar : b.type = .paragraph
            · rw [if_pos hpar] at h
              unfold manageStack at h
              cases hp : popStack b.level st.pars with
              | none => rw [hp] at h; cases h
              | some stk =>
                rw [hp] at h
                simp only [] at h
                injection h with h
                subst h
                have hsub := popStack_suffix _ _ _ hp
                have hplace : ∃ mid, ancAt (stackTarget st.root stk st.secs) anc0 st.out = some (mid ++ anc0) ∧ Mid mid ∧
                    ∀ x, (mid ++ anc0).head? = some x → x.type = .paragraph → LevelLt x b := by
                  unfold stackTarget
                  cases hq : st.secs with
                  | cons r rs =>
                    obtain ⟨y, mid, h1, h2, h3, h4⟩ := inv.secs r (by simp [hq])
                    refine ⟨y :: mid, h1, ?_, ?_⟩
                    · intro z hz
                      rcases List.mem_cons.1 hz with rfl | hz
                      · exact Or.inl h2
                      · exact h4 z hz
                    · intro x hx hxp
                      simp at hx; subst hx
                      rw [h2] at hxp; cases hxp
                  | nil =>
                    cases hk : stk with
                    | nil =>
                      obtain ⟨mid, h1, h2⟩ := inv.root
                      refine ⟨mid, h1, fun b hb => Or.inr (Or.inr (h2 b hb)), ?_⟩
                      intro x hx hxp
                      cases mid with
                      | nil => exact absurd hxp (h0 x hx).2
                      | cons y mid =>
                        simp at hx; subst hx
                        rw [h2 y (by simp)] at hxp; cases hxp
                    | cons r rs =>
                      obtain ⟨y, mid, h1, h2, h3, h4⟩ := inv.pars r (hsub.subset (by simp [hk]))
                      refine ⟨y :: mid, h1, ?_, ?_⟩
                      · intro z hz
                        rcases List.mem_cons.1 hz with rfl | hz
                        · exact Or.inr (Or.inl h2)
                        · exact h4 z hz
                      · intro x hx _
                        simp at hx; subst hx
                        obtain ⟨m, n, e1, e2, e3⟩ := popStack_lt _ _ _ hp r (by simp [hk])
                        exact ⟨m, n, by rw [h3, e1], e2, e3⟩
                obtain ⟨mid, p1, p2, p3⟩ := hplace
                have hti : TreeI Nest (mid ++ anc0) (.tok { b with text := none, hasList := true } t []) := by
                  refine ⟨⟨?_, ?_⟩, by simp [TreeL]⟩
                  · intro hl
                    have : b.type = .list := hl
                    rw [hpar] at this; cases this
                  · intro x hx
                    refine ⟨?_, fun _ hxp => p3 x hx hxp⟩
                    intro hs
                    have : b.type = .section := hs
                    rw [hpar] at this; cases this
                have base := inv.push _ _ _ p1 hti st.inApp n2
                constructor
                · exact base.tree
                · exact base.secs
                · intro r hr
                  rcases List.mem_cons.1 hr with rfl | hr
                  · exact ⟨_, mid, ancAt_new _ _ _ _ _ _ _ p1, hpar, rfl, p2⟩
                  · exact base.pars r (hsub.subset hr)
                · exact base.root
            · rw [if_neg hpar] at h
              injection h with h; subst h
              have hc := hrec _ _ (b :: (tm ++ anc0)) c n2 (by intro x hx; simp at hx; subst hx; exact ⟨hsec, hpar⟩)
                (by rw [hcount tm ht2]; exact hr)
              have hti : TreeI Nest (tm ++ anc0) (.tok b t c) := by
                refine ⟨⟨?_, ?_⟩, hc⟩
                · intro hl
                  rw [listsAround_mid ht2]; exact hbd hl
                · intro x hx
                  exact ⟨fun e => absurd e hsec, fun e => absurd e hpar⟩
              exact inv.push _ _ _ ht1 hti _ _

theorem loop_nest_of (hrec : ∀ (x : Item), x ∈ l → RecTree Nest (fun ia d n => orgItem x ia d n))
    {anc0 : List Attrs} (h0 : ∀ b, anc0.head? = some b → b.type ≠ .section ∧ b.type ≠ .paragraph) :
    ∀ {st st' : Org}, TInv Nest anc0 st → orgLoop l (listsAround anc0) st = some st' → TInv Nest anc0 st' := by
  induction l with
  | nil => intro st st' inv h; simp only [orgLoop, Option.some.injEq] at h; exact h ▸ inv
  | cons x xs ih =>
    intro st st' inv h
    simp only [orgLoop] at h
    cases hs : stepOrg x (listsAround anc0) (fun inApp d n => orgItem x inApp d n) st with
    | none => rw [hs] at h; cases h
    | some st1 =>
      rw [hs] at h
      exact ih (fun y hy => hrec y (by simp [hy])) (step_nest (hrec x (by simp)) h0 inv hs) h

theorem TInv.init (anc0 : List Attrs) (ia : Bool) (n : Num) : TInv P anc0 { inApp := ia, num := n } :=
  ⟨by simp [TreeL], by simp, by simp, [], by simp [ancAt], by simp⟩

mutual
theorem rec_nest : ∀ x : Item, RecTree Nest (fun ia d n => orgItem x ia d n)
  | .raw s => by
    intro ia n anc c n' _ h
    simp only [orgItem, Option.some.injEq, Prod.mk.injEq] at h
    rw [← h.1]; simp [TreeL]
  | .lst s => by
    intro ia n anc c n' _ h
    simp only [orgItem, Option.some.injEq, Prod.mk.injEq] at h
    rw [← h.1]; simp [TreeL]
  | .tok a t c0 => by
    intro ia n anc c n' h0 h
    simp only [orgItem] at h
    rw [Option.map_eq_some_iff] at h
    obtain ⟨st', h1, h2⟩ := h
    injection h2 with h2 h3
    subst h2
    exact (loop_nest_of (recs_nest c0) h0 (TInv.init anc ia n) h1).tree
theorem recs_nest : ∀ (l : List Item) (x : Item), x ∈ l → RecTree Nest (fun ia d n => orgItem x ia d n)
  | [], x, hx => by simp at hx
  | y :: ys, x, hx => by
    rcases List.mem_cons.1 hx with h | h
    · rw [h]; exact rec_nest y
    · exact recs_nest ys x h
end

/-- Every organised document is properly nested. -/
theorem organize_nest (doc : List Item) (n : Num) (out : List Item) (n' : Num)
    (h : organize doc n = some (out, n')) : TreeL Nest [] out := by
  unfold organize at h
  rw [Option.map_eq_some_iff] at h
  obtain ⟨st', h1, h2⟩ := h
  injection h2 with h2 h3
  subst h2
  exact (loop_nest_of (fun x _ => rec_nest x) (anc0 := []) (by simp) (TInv.init [] false n) h1).tree

end L2J
