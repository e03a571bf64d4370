import Verif.Model.Builder
import Verif.Spec.Builder
namespace L2J
open Spec

variable {skip : Attrs → Bool}

/-- Numbering a single node of the reading. -/
def annEv (ev : Ev) (inApp : Bool) (n : Num) : Option (Ev × Bool × Num) :=
  match ev.node with
  | .raw _ => some (ev, inApp, n)
  | .lst _ => some (ev, inApp, n)
  | .tok a t =>
    if a.type = .appendix then
      some (⟨.tok { a with text := none, hasList := true } t, ev.lists⟩, true, { n with s1 := 0, s2 := 0, s3 := 0 })
    else
      let r := checkUpdateNumbering n a
      let b := if r.2.type = .list then { r.2 with depth := some (ev.lists + 1) } else r.2
      if b.type = .section then
        match updateSection r.1 b inApp with
        | none => none
        | some (n, b) =>
          some (⟨.tok { b with text := none, hasList := true } t, ev.lists⟩, inApp,
            if b.level = some 1 then { n with math := 0 } else n)
      else if b.type = .paragraph then
        some (⟨.tok { b with text := none, hasList := true } t, ev.lists⟩, inApp, r.1)
      else some (⟨.tok b t, ev.lists⟩, inApp, r.1)

/-- Numbering a reading. -/
def ann : List Ev → Bool → Num → Option (List Ev × Bool × Num)
  | [], ia, n => some ([], ia, n)
  | ev :: evs, ia, n =>
    match annEv ev ia n with
    | none => none
    | some (ev', ia, n) =>
      match ann evs ia n with
      | none => none
      | some (evs', ia, n) => some (ev' :: evs', ia, n)

theorem ann_append (xs : List Ev) : ∀ (ys : List Ev) (ia : Bool) (n : Num),
    ann (xs ++ ys) ia n =
      match ann xs ia n with
      | none => none
      | some (xs', ia, n) =>
        match ann ys ia n with
        | none => none
        | some (ys', ia, n) => some (xs' ++ ys', ia, n) := by
  induction xs with
  | nil => intro ys ia n; simp only [List.nil_append, ann]; cases ann ys ia n <;> rfl
  | cons ev xs ih =>
    intro ys ia n
    simp only [List.cons_append, ann]
    cases annEv ev ia n with
    | none => rfl
    | some r =>
      obtain ⟨ev', ia1, n1⟩ := r
      simp only [ih]
      cases ann xs ia1 n1 with
      | none => rfl
      | some r =>
        obtain ⟨xs', ia2, n2⟩ := r
        simp only []
        cases ann ys ia2 n2 with
        | none => rfl
        | some r => rfl

theorem flatList_append (l : List Item) : ∀ (m : List Item) (e : Nat),
    flatList skip (l ++ m) e = flatList skip l e ++ flatList skip m e := by
  induction l with
  | nil => intro m e; simp [flatList]
  | cons x l ih => intro m e; simp [flatList, ih]

theorem flatList_singleton (x : Item) (e : Nat) : flatList skip [x] e = flatItem skip x e := by
  simp [flatList]

theorem Spec.Container.not_list {a : Attrs} (h : Container a) : a.type ≠ .list := by
  rcases h with h | h | h <;> rw [h] <;> decide

/-- `p` leads to the last place of the reading of `l` (up to skipped tokens), through containers. -/
def Right (skip : Attrs → Bool) : Path → List Item → Prop
  | [], _ => True
  | i :: p, l => ∃ pre a t c post, l = pre ++ .tok a t c :: post ∧ pre.length = i ∧
      (∀ x ∈ post, ∃ b u d, x = .tok b u d ∧ skip b = true) ∧ skip a = false ∧ Container a ∧ Right skip p c

theorem Right.prefix : ∀ {p q : Path} {l : List Item}, Right skip q l → p <+: q → Right skip p l
  | [], _, _, _, _ => trivial
  | i :: p, [], _, _, h => by simp at h
  | i :: p, j :: q, l, hr, h => by
    rw [List.cons_prefix_cons] at h
    obtain ⟨rfl, h⟩ := h
    obtain ⟨pre, a, t, c, post, h1, h2, h3, h4, h5, h6⟩ := hr
    exact ⟨pre, a, t, c, post, h1, h2, h3, h4, h5, h6.prefix h⟩

theorem flat_skipped (post : List Item) (h : ∀ x ∈ post, ∃ b u d, x = .tok b u d ∧ skip b = true) (e : Nat) :
    flatList skip post e = [] := by
  induction post with
  | nil => simp [flatList]
  | cons x post ih =>
    obtain ⟨b, u, d, rfl, hb⟩ := h x (by simp)
    simp [flatList, flatItem, hb, ih (fun y hy => h y (by simp [hy]))]

theorem modify_middle {α} (pre : List α) (x : α) (post : List α) (f : α → α) :
    (pre ++ x :: post).modify pre.length f = pre ++ f x :: post := by
  induction pre with
  | nil => simp
  | cons y pre ih => simpa using ih

/-- Appending at a rightmost path appends to the reading. -/
theorem flat_appendAt : ∀ (p : Path) (l : List Item) (x : Item) (e : Nat), Right skip p l →
    flatList skip (appendAt p x l) e = flatList skip l e ++ flatItem skip x e
  | [], l, x, e, _ => by simp [appendAt, flatList_append, flatList_singleton]
  | i :: p, l, x, e, h => by
    obtain ⟨pre, a, t, c, post, rfl, rfl, h3, h4, h5, h6⟩ := h
    have hl := h5.not_list
    simp only [appendAt, modify_middle]
    simp only [flatList_append, flatList, flatItem, h4, Bool.false_eq_true, if_false, hl]
    rw [flat_appendAt p c x e h6, flat_skipped post h3]
    simp

theorem Right.append : ∀ {p : Path} {l : List Item} (x : Item), Right skip p l → Right skip p (appendAt p x l)
  | [], _, _, _ => trivial
  | i :: p, l, x, h => by
    obtain ⟨pre, a, t, c, post, rfl, rfl, h3, h4, h5, h6⟩ := h
    simp only [appendAt, modify_middle]
    exact ⟨pre, a, t, _, post, rfl, rfl, h3, h4, h5, h6.append x⟩

theorem Right.append_child : ∀ {p : Path} {l : List Item} (a : Attrs) (t c : List Item), Right skip p l →
    skip a = false → Container a → Right skip (p ++ [lenAt p l]) (appendAt p (.tok a t c) l)
  | [], l, a, t, c, _, hs, hc => ⟨l, a, t, c, [], by simp [appendAt], rfl, by simp, hs, hc, trivial⟩
  | i :: p, l, a, t, c, h, hs, hc => by
    obtain ⟨pre, a', t', c', post, rfl, rfl, h3, h4, h5, h6⟩ := h
    simp only [appendAt, modify_middle, List.cons_append]
    refine ⟨pre, a', t', _, post, rfl, rfl, h3, h4, h5, ?_⟩
    have : lenAt (pre.length :: p) (pre ++ .tok a' t' c' :: post) = lenAt p c' := by
      simp [lenAt]
    rw [this]
    exact h6.append_child a t c hs hc

/-- Invariant of the loop of `_recursive_organize`. -/
structure OrgInv (skip : Attrs → Bool) (st : Org) : Prop where
  right : Right skip st.target st.out
  root : st.root <+: st.target
  rootSecs : ∀ r ∈ st.secs, st.root <+: r.path
  secs : ∀ r ∈ st.secs, r.path <+: st.target
  chain : st.secs.Pairwise fun a b => b.path <+: a.path
  pars : st.secs = [] → ∀ r ∈ st.pars, r.path <+: st.target ∧ st.root <+: r.path
  parChain : st.secs = [] → st.pars.Pairwise fun a b => b.path <+: a.path

theorem OrgInv.init (ia : Bool) (n : Num) : OrgInv skip { inApp := ia, num := n } :=
  ⟨trivial, List.prefix_refl _, by simp, by simp, by simp, by simp, by simp⟩

theorem popStack_suffix (lvl : Option Nat) : ∀ (s s' : List Ref), popStack lvl s = some s' → s' <:+ s
  | [], s', h => by simp [popStack] at h; subst h; exact List.suffix_refl _
  | r :: rs, s', h => by
    unfold popStack at h
    split at h
    · split at h
      · exact (popStack_suffix _ rs s' h).trans (List.suffix_cons _ _)
      · injection h with h; subst h; exact List.suffix_refl _
    · cases h

theorem prefix_append_of {p q r : Path} (h : p <+: q) : p <+: q ++ r := h.trans (List.prefix_append _ _)

structure GoodSkip (skip : Attrs → Bool) : Prop where
  bib : ∀ a, skip a = true → a.type = .bibliography
  type : ∀ a b : Attrs, a.type = b.type → skip a = skip b

theorem goodSkip_none : GoodSkip noSkip := ⟨by simp [noSkip], by simp [noSkip]⟩
theorem goodSkip_bib : GoodSkip skipBib :=
  ⟨by simp [skipBib], by intro a b h; simp [skipBib, h]⟩

theorem check_type (n : Num) (a : Attrs) : (checkUpdateNumbering n a).2.type = a.type := by
  unfold checkUpdateNumbering
  split
  · split
    · rfl
    · split
      · rfl
      · split
        · rfl
        · split
          · rfl
          · split <;> rfl
  · rfl

theorem updateSection_type {n : Num} {a : Attrs} {ia : Bool} {n' : Num} {a' : Attrs}
    (h : updateSection n a ia = some (n', a')) : a'.type = a.type ∧ a'.level = a.level := by
  unfold updateSection at h
  split at h
  · injection h with h; injection h with _ h; subst h; exact ⟨rfl, rfl⟩
  · simp only [] at h
    split at h
    · cases h
    · injection h with h; injection h with _ h; subst h; exact ⟨rfl, rfl⟩

theorem Right.snoc_skip {p : Path} {l : List Item} (b : Attrs) (u d : List Item) (hb : skip b = true)
    (h : Right skip p l) : Right skip p (l ++ [.tok b u d]) := by
  cases p with
  | nil => trivial
  | cons i p =>
    obtain ⟨pre, a, t, c, post, rfl, rfl, h3, h4, h5, h6⟩ := h
    refine ⟨pre, a, t, c, post ++ [.tok b u d], by simp, rfl, ?_, h4, h5, h6⟩
    intro x hx
    simp at hx
    rcases hx with hx | hx
    · exact h3 x hx
    · exact ⟨b, u, d, hx, hb⟩

/-- Where a heading goes after popping. -/
theorem stackTarget_spec {root tgt : Path} {s s' : List Ref} (hs : s' <:+ s) (hr : root <+: tgt)
    (h1 : ∀ r ∈ s, root <+: r.path) (h2 : ∀ r ∈ s, r.path <+: tgt)
    (hc : s.Pairwise fun a b => b.path <+: a.path) :
    stackTarget root s' [] <+: tgt ∧ root <+: stackTarget root s' [] ∧
      (∀ r ∈ s', r.path <+: stackTarget root s' []) ∧ s'.Pairwise (fun a b => b.path <+: a.path) := by
  have hc' := hc.sublist hs.sublist
  cases s' with
  | nil => exact ⟨hr, List.prefix_refl _, by simp, by simp⟩
  | cons r rs =>
    have hm : r ∈ s := hs.subset (by simp)
    refine ⟨h2 r hm, h1 r hm, ?_, hc'⟩
    intro x hx
    simp only [List.mem_cons] at hx
    rcases hx with rfl | hx
    · exact List.prefix_refl _
    · exact (List.pairwise_cons.1 hc').1 x hx

/-- The content list of an item. -/
def Item.content : Item → List Item
  | .tok _ _ c => c
  | _ => []

/-- The reading of inert content does not touch the counters. -/
theorem ann_inert : ∀ (evs : List Ev) (ia : Bool) (n : Num),
    (∀ ev ∈ evs, match ev.node with
      | .tok a _ => a.numbered ≠ some true ∧ a.type ≠ .section ∧ a.type ≠ .appendix
      | _ => True) →
    ∀ evs' ia' n', ann evs ia n = some (evs', ia', n') → ia' = ia ∧ n' = n
  | [], ia, n, _, evs', ia', n', h => by
    simp only [ann] at h; injection h with h; injection h with _ h; injection h with h1 h2; exact ⟨h1.symm, h2.symm⟩
  | ev :: evs, ia, n, hi, evs', ia', n', h => by
    have h0 := hi ev (by simp)
    have e : ∃ ev', annEv ev ia n = some (ev', ia, n) := by
      unfold annEv
      cases hn : ev.node with
      | raw s => exact ⟨_, rfl⟩
      | lst l => exact ⟨_, rfl⟩
      | tok a t =>
        rw [hn] at h0
        simp only [] at h0 ⊢
        rw [if_neg h0.2.2]
        have hc : checkUpdateNumbering n a = (n, a) := by unfold checkUpdateNumbering; rw [if_neg h0.1]
        rw [hc]
        simp only []
        by_cases hl : a.type = .list
        · simp only [hl, if_true]
          rw [if_neg (by decide), if_neg (by decide)]
          exact ⟨_, rfl⟩
        · simp only [hl, if_false]
          rw [if_neg h0.2.1]
          split <;> exact ⟨_, rfl⟩
    obtain ⟨ev', e⟩ := e
    simp only [ann, e] at h
    cases h2 : ann evs ia n with
    | none => rw [h2] at h; cases h
    | some r =>
      obtain ⟨evs2, ia2, n2⟩ := r
      rw [h2] at h
      injection h with h; injection h with _ h; injection h with h3 h4
      have := ann_inert evs ia n (fun ev hev => hi ev (by simp [hev])) _ _ _ h2
      exact ⟨h3 ▸ this.1, h4 ▸ this.2⟩

mutual
theorem inert_flatItem (x : Item) (h : Inert x) (e : Nat) : ∀ ev ∈ flatItem skip x e, match ev.node with
      | .tok a _ => a.numbered ≠ some true ∧ a.type ≠ .section ∧ a.type ≠ .appendix
      | _ => True := by
  match x, h with
  | .raw s, _ => intro ev hev; simp [flatItem] at hev; subst hev; trivial
  | .lst l, _ => intro ev hev; simp [flatItem] at hev; subst hev; trivial
  | .tok a t c, h =>
    unfold Inert at h
    intro ev hev
    unfold flatItem at hev
    split at hev
    · simp at hev
    · rw [List.mem_cons] at hev
      rcases hev with rfl | hev
      · exact ⟨h.1, h.2.1, h.2.2.1⟩
      · exact inert_flatList c h.2.2.2 _ ev hev
theorem inert_flatList (l : List Item) (h : InertL l) (e : Nat) : ∀ ev ∈ flatList skip l e, match ev.node with
      | .tok a _ => a.numbered ≠ some true ∧ a.type ≠ .section ∧ a.type ≠ .appendix
      | _ => True := by
  match l, h with
  | [], _ => intro ev hev; simp [flatList] at hev
  | x :: xs, h =>
    unfold InertL at h
    intro ev hev
    unfold flatList at hev
    rw [List.mem_append] at hev
    rcases hev with hev | hev
    · exact inert_flatItem x h.1 e ev hev
    · exact inert_flatList xs h.2 e ev hev
end

/-- What is assumed of the recursive call. -/
def RecOK (skip : Attrs → Bool) (c : List Item) (rec : Bool → Nat → Num → Option (List Item × Num)) : Prop :=
  ∀ ia d n c' n', rec ia d n = some (c', n') → ann (flatList skip c d) ia n = some (flatList skip c' d, ia, n')

theorem stepOrg_plain (gs : GoodSkip skip) {it : Item} {d : Nat} {rec : Bool → Nat → Num → Option (List Item × Num)}
    {st st' : Org} (inv : OrgInv skip st) (hp : Plain skip it) (hrec : RecOK skip it.content rec)
    (hbib : (∀ a, a.type = .bibliography → skip a = true) ∨ st.root = [] ∨
      ∀ a t c, it = .tok a t c → a.type ≠ .bibliography)
    (h : stepOrg it d rec st = some st') :
    OrgInv skip st' ∧ st'.root = st.root ∧ st'.inApp = st.inApp ∧ ∃ evs,
      ann (flatItem skip it d) st.inApp st.num = some (evs, st'.inApp, st'.num) ∧
      flatList skip st'.out d = flatList skip st.out d ++ evs := by
  have plainAppend : ∀ x : Item, OrgInv skip { st with out := appendAt st.target x st.out } := by
    intro x
    exact ⟨inv.right.append x, inv.root, inv.rootSecs, inv.secs, inv.chain, inv.pars, inv.parChain⟩
  cases it with
  | raw s =>
    simp only [stepOrg] at h
    injection h with h
    subst h
    exact ⟨plainAppend _, rfl, rfl, _, rfl, by rw [flat_appendAt _ _ _ _ inv.right]; simp [flatItem]⟩
  | lst l =>
    simp only [stepOrg] at h
    injection h with h
    subst h
    exact ⟨plainAppend _, rfl, rfl, _, rfl, by rw [flat_appendAt _ _ _ _ inv.right]; simp [flatItem]⟩
  | tok a t c =>
    unfold Plain at hp
    obtain ⟨hna, hsp, hsk, _⟩ := hp
    simp only [stepOrg] at h
    rw [if_neg hna] at h
    -- names for the numbered attributes
    generalize hr : checkUpdateNumbering st.num a = r at h
    obtain ⟨n1, a1⟩ := r
    have ht1 : a1.type = a.type := by have := check_type st.num a; rw [hr] at this; exact this
    simp only [] at h
    generalize hb : (if a1.type = .list then { a1 with depth := some (d + 1) } else a1) = b at h
    have htb : b.type = a.type := by rw [← hb, ← ht1]; split <;> rfl
    cases hrc : rec st.inApp (if b.type = .list then d + 1 else d) n1 with
    | none => rw [hrc] at h; cases h
    | some r =>
      obtain ⟨c', n2⟩ := r
      rw [hrc] at h
      simp only [] at h
      have hann := hrec _ _ _ _ _ hrc
      simp only [Item.content] at hann
      rw [htb] at h hann
      by_cases hbibt : a.type = .bibliography
      · rw [if_pos hbibt] at h
        injection h with h
        subst h
        have hnl : ¬ a.type = .list := by rw [hbibt]; decide
        rw [if_neg hnl] at hann
        have hbe : b = a1 := by rw [← hb, if_neg (by rw [ht1]; exact hnl)]
        have hev : annEv ⟨.tok a t, d⟩ st.inApp st.num = some (⟨.tok b t, d⟩, st.inApp, n1) := by
          unfold annEv
          simp only [hr]
          rw [if_neg hna]
          rw [hb]
          rw [if_neg (by rw [htb, hbibt]; decide), if_neg (by rw [htb, hbibt]; decide)]
        have tgt : (Org.target { st with out := st.out ++ [.tok b t c'], secs := [], pars := [], num := n2 }) = st.root := rfl
        by_cases hs : skip a = true
        · have hsb : skip b = true := by rw [gs.type b a htb]; exact hs
          have hi := ann_inert _ _ _ (inert_flatList c (hsk hs) d) _ _ _ hann
          have hn1 : n1 = st.num := by
            have : (checkUpdateNumbering st.num a).1 = st.num := by
              unfold checkUpdateNumbering
              simp [hbibt]
            rw [hr] at this; exact this
          refine ⟨⟨?_, ?_, by simp, by simp, by simp, by simp, by simp⟩, rfl, rfl, [], ?_, ?_⟩
          · rw [tgt]; exact (inv.right.prefix inv.root).snoc_skip b t c' hsb
          · rw [tgt]; exact List.prefix_refl _
          · simp [flatItem, hs, ann, hi.2, hn1]
          · simp [flatList_append, flatList, flatItem, hsb]
        · have hs' : skip a = false := by simpa using hs
          have hsb : skip b = false := by rw [gs.type b a htb]; exact hs'
          have hroot : st.root = [] := by
            rcases hbib with h | h | h
            · exact absurd (h a hbibt) hs
            · exact h
            · exact absurd hbibt (h a t c rfl)
          refine ⟨⟨?_, ?_, by simp, by simp, by simp, by simp, by simp⟩, rfl, rfl, ⟨.tok b t, d⟩ :: flatList skip c' d, ?_, ?_⟩
          · rw [tgt, hroot]; trivial
          · rw [tgt]; exact List.prefix_refl _
          · simp only [flatItem, hs', Bool.false_eq_true, if_false, ann, hev, hnl, hann]
          · simp [flatList_append, flatList, flatItem, hsb, htb, hnl]
      · rw [if_neg hbibt] at h
        have hs : skip a = false := by
          cases hh : skip a with
          | false => rfl
          | true => exact absurd (gs.bib a hh) hbibt
        have hskt : ∀ x : Attrs, x.type = a.type → skip x = false := fun x hx => by rw [gs.type x a hx]; exact hs
        by_cases hsec : a.type = .section
        · rw [if_pos hsec] at h
          have hc0 := hsp (Or.inl hsec)
          subst hc0
          have hnl : ¬ a.type = .list := by rw [hsec]; decide
          rw [if_neg hnl] at hann
          simp only [flatList, ann] at hann
          injection hann with hann; injection hann with hc' hann; injection hann with _ hn
          subst hn
          cases hu : updateSection n1 b st.inApp with
          | none => rw [hu] at h; cases h
          | some r =>
            obtain ⟨n3, a3⟩ := r
            rw [hu] at h
            simp only [] at h
            obtain ⟨ht3, _⟩ := updateSection_type hu
            have ht3a : a3.type = a.type := ht3.trans htb
            unfold manageStack at h
            cases hpop : popStack a3.level st.secs with
            | none => rw [hpop] at h; cases h
            | some secs' =>
              rw [hpop] at h
              simp only [] at h
              injection h with h
              subst h
              have hsuf := popStack_suffix _ _ _ hpop
              obtain ⟨k1, k2, k3, k4⟩ := stackTarget_spec hsuf inv.root inv.rootSecs inv.secs inv.chain
              have hcont : Container { a3 with text := none, hasList := true } := Or.inl (ht3a.trans hsec)
              have hsk3 : skip { a3 with text := none, hasList := true } = false := hskt _ ht3a
              have hR := inv.right.prefix k1
              refine ⟨⟨?_, ?_, ?_, ?_, ?_, by simp, by simp⟩, rfl, rfl,
                [⟨.tok { a3 with text := none, hasList := true } t, d⟩], ?_, ?_⟩
              · exact hR.append_child _ t [] hsk3 hcont
              · exact prefix_append_of k2
              · intro r hr
                simp only [List.mem_cons] at hr
                rcases hr with rfl | hr
                · exact prefix_append_of k2
                · exact inv.rootSecs r (hsuf.subset hr)
              · intro r hr
                simp only [List.mem_cons] at hr
                rcases hr with rfl | hr
                · exact List.prefix_refl _
                · exact prefix_append_of (k3 r hr)
              · rw [List.pairwise_cons]
                exact ⟨fun r hr => prefix_append_of (k3 r hr), k4⟩
              · simp only [flatItem, hs, Bool.false_eq_true, if_false, flatList, ann]
                unfold annEv
                simp only [hr]
                rw [if_neg hna, hb, if_pos (htb.trans hsec), hu]
              · rw [flat_appendAt _ _ _ _ hR]
                simp [flatItem, hsk3, flatList]
        · rw [if_neg hsec] at h
          by_cases hpar : a.type = .paragraph
          · rw [if_pos hpar] at h
            have hc0 := hsp (Or.inr hpar)
            subst hc0
            have hnl : ¬ a.type = .list := by rw [hpar]; decide
            rw [if_neg hnl] at hann
            simp only [flatList, ann] at hann
            injection hann with hann; injection hann with hc' hann; injection hann with _ hn
            subst hn
            unfold manageStack at h
            cases hpop : popStack b.level st.pars with
            | none => rw [hpop] at h; cases h
            | some pars' =>
              rw [hpop] at h
              simp only [] at h
              injection h with h
              subst h
              have hsuf := popStack_suffix _ _ _ hpop
              have hcont : Container { b with text := none, hasList := true } := Or.inr (Or.inl (htb.trans hpar))
              have hsk3 : skip { b with text := none, hasList := true } = false := hskt _ htb
              have hevs : ann (flatItem skip (.tok a t []) d) st.inApp st.num =
                  some ([⟨.tok { b with text := none, hasList := true } t, d⟩], st.inApp, n1) := by
                simp only [flatItem, hs, Bool.false_eq_true, if_false, flatList, ann]
                unfold annEv
                simp only [hr]
                rw [if_neg hna, hb, if_neg (by rw [htb]; exact hsec), if_pos (htb.trans hpar)]
              have fin : ∀ p, Right skip p st.out → flatList skip (appendAt p (.tok { b with text := none, hasList := true } t []) st.out) d =
                  flatList skip st.out d ++ [⟨.tok { b with text := none, hasList := true } t, d⟩] := by
                intro p hR
                rw [flat_appendAt _ _ _ _ hR]
                simp [flatItem, hsk3, flatList]
              cases hsecs : st.secs with
              | cons s0 ss =>
                have hR := inv.right.prefix (inv.secs s0 (by simp [hsecs]))
                have hch : ∀ r ∈ st.secs, r.path <+: s0.path := by
                  have := inv.chain
                  rw [hsecs, List.pairwise_cons] at this
                  intro r hr
                  rw [hsecs] at hr
                  simp only [List.mem_cons] at hr
                  rcases hr with rfl | hr
                  · exact List.prefix_refl _
                  · exact this.1 r hr
                refine ⟨⟨?_, ?_, ?_, ?_, ?_, ?_, ?_⟩, rfl, rfl, _, hevs, ?_⟩
                · exact hR.append_child _ t [] hsk3 hcont
                · exact prefix_append_of (inv.rootSecs s0 (by simp [hsecs]))
                · intro r hr; exact inv.rootSecs r (by rw [hsecs]; exact hr)
                · intro r hr; exact prefix_append_of (hch r (by rw [hsecs]; exact hr))
                · rw [← hsecs]; exact inv.chain
                · simp
                · simp
                · exact fin _ hR
              | nil =>
                have ip := inv.pars hsecs
                obtain ⟨k1, k2, k3, k4⟩ := stackTarget_spec hsuf inv.root (fun r hr => (ip r hr).2)
                  (fun r hr => (ip r hr).1) (inv.parChain hsecs)
                have hR := inv.right.prefix k1
                refine ⟨⟨?_, ?_, ?_, ?_, ?_, ?_, ?_⟩, rfl, rfl, _, hevs, ?_⟩
                · exact hR.append_child _ t [] hsk3 hcont
                · exact prefix_append_of k2
                · simp
                · simp
                · simp
                · intro _ r hr
                  simp only [List.mem_cons] at hr
                  rcases hr with rfl | hr
                  · exact ⟨List.prefix_refl _, prefix_append_of k2⟩
                  · exact ⟨prefix_append_of (k3 r hr), (ip r (hsuf.subset hr)).2⟩
                · intro _
                  simp only [List.pairwise_cons]
                  exact ⟨fun r hr => prefix_append_of (k3 r hr), k4⟩
                · exact fin _ hR
          · rw [if_neg hpar] at h
            injection h with h
            subst h
            have hsb : skip b = false := hskt b htb
            refine ⟨⟨inv.right.append _, inv.root, inv.rootSecs, inv.secs, inv.chain, inv.pars, inv.parChain⟩, rfl, rfl,
              ⟨.tok b t, d⟩ :: flatList skip c' (if a.type = .list then d + 1 else d), ?_, ?_⟩
            · have hev : annEv ⟨.tok a t, d⟩ st.inApp st.num = some (⟨.tok b t, d⟩, st.inApp, n1) := by
                unfold annEv
                simp only [hr]
                rw [if_neg hna, hb, if_neg (by rw [htb]; exact hsec), if_neg (by rw [htb]; exact hpar)]
              simp only [flatItem, hs, Bool.false_eq_true, if_false, ann, hev, hann]
            · rw [flat_appendAt _ _ _ _ inv.right]
              simp only [flatItem, hsb, Bool.false_eq_true, if_false, htb]


mutual
theorem orgItem_spec (gs : GoodSkip skip) (x : Item) (hp : Plain skip x) :
    RecOK skip x.content (fun ia d n => orgItem x ia d n) := by
  match x, hp with
  | .raw s, _ =>
    intro ia d n c' n' h
    simp only [orgItem] at h
    injection h with h; injection h with h1 h2; subst h1; subst h2
    simp [Item.content, flatList, ann]
  | .lst l, _ =>
    intro ia d n c' n' h
    simp only [orgItem] at h
    injection h with h; injection h with h1 h2; subst h1; subst h2
    simp [Item.content, flatList, ann]
  | .tok a t c, hp =>
    intro ia d n c' n' h
    unfold Plain at hp
    simp only [orgItem] at h
    rw [Option.map_eq_some_iff] at h
    obtain ⟨st', h1, h2⟩ := h
    injection h2 with h2 h3
    subst h2; subst h3
    obtain ⟨_, _, h5, evs, h6, h7⟩ := orgLoop_plain gs c hp.2.2.2 d _ _ (OrgInv.init ia n) rfl h1
    simp only [Item.content]
    simp only [flatList, List.nil_append] at h7
    rw [h6, h7, h5]
theorem orgLoop_plain (gs : GoodSkip skip) (l : List Item) (hp : PlainL skip l) (d : Nat) (st st' : Org)
    (inv : OrgInv skip st) (hroot : st.root = []) (h : orgLoop l d st = some st') :
    OrgInv skip st' ∧ st'.root = [] ∧ st'.inApp = st.inApp ∧ ∃ evs,
      ann (flatList skip l d) st.inApp st.num = some (evs, st'.inApp, st'.num) ∧
      flatList skip st'.out d = flatList skip st.out d ++ evs := by
  match l, hp with
  | [], _ =>
    simp only [orgLoop] at h
    injection h with h; subst h
    exact ⟨inv, hroot, rfl, [], by simp [flatList, ann], by simp⟩
  | x :: xs, hp =>
    unfold PlainL at hp
    simp only [orgLoop] at h
    cases hs : stepOrg x d (fun inApp d n => orgItem x inApp d n) st with
    | none => rw [hs] at h; cases h
    | some st1 =>
      rw [hs] at h
      simp only [] at h
      obtain ⟨i1, i2, i3, e1, i4, i5⟩ := stepOrg_plain gs inv hp.1 (orgItem_spec gs x hp.1) (Or.inr (Or.inl hroot)) hs
      obtain ⟨j1, j2, j3, e2, j4, j5⟩ := orgLoop_plain gs xs hp.2 d st1 st' i1 (i2.trans hroot) h
      refine ⟨j1, j2, j3.trans i3, e1 ++ e2, ?_, ?_⟩
      · simp only [flatList]
        rw [ann_append, i4]
        simp only [j4]
      · rw [j5, i5, List.append_assoc]
end

theorem stepOrg_appendix (gs : GoodSkip skip) {a : Attrs} {t c : List Item} {d : Nat}
    {rec : Bool → Nat → Num → Option (List Item × Num)}
    {st st' : Org} (ha : a.type = .appendix) (hrec : RecOK skip c rec)
    (h : stepOrg (.tok a t c) d rec st = some st') :
    OrgInv skip st' ∧ ∃ evs,
      ann (flatItem skip (.tok a t c) d) st.inApp st.num = some (evs, st'.inApp, st'.num) ∧
      flatList skip st'.out d = flatList skip st.out d ++ evs := by
  simp only [stepOrg] at h
  rw [if_pos ha] at h
  cases hr : rec true d { st.num with s1 := 0, s2 := 0, s3 := 0 } with
  | none => rw [hr] at h; cases h
  | some r =>
    obtain ⟨c', n⟩ := r
    rw [hr] at h
    simp only [] at h
    injection h with h
    subst h
    have hsk : ∀ x : Attrs, x.type = .appendix → skip x = false := by
      intro x hx
      cases hh : skip x with
      | false => rfl
      | true => have := gs.bib x hh; rw [hx] at this; cases this
    have hnl : ¬ a.type = .list := by rw [ha]; decide
    have hs' : skip { a with text := none, hasList := true } = false := hsk _ ha
    refine ⟨⟨?_, List.prefix_refl _, by simp, by simp, by simp, by simp, by simp⟩,
      ⟨.tok { a with text := none, hasList := true } t, d⟩ :: flatList skip c' d, ?_, ?_⟩
    · exact ⟨st.out, _, t, c', [], rfl, rfl, by simp, hs', Or.inr (Or.inr ha), trivial⟩
    · have := hrec _ _ _ _ _ hr
      simp only [flatItem, hsk a ha, Bool.false_eq_true, if_false, hnl, ann]
      unfold annEv
      simp only []
      rw [if_pos ha]
      simp only [this]
    · simp [flatList_append, flatList, flatItem, hs', hnl]

theorem orgLoop_top (gs : GoodSkip skip) : ∀ (l : List Item), (∀ x ∈ l, TopPlain skip x) →
    ((∀ a : Attrs, a.type = .bibliography → skip a = true) ∨
      l.Pairwise fun x y => x.hasType .appendix → ¬ y.hasType .bibliography) →
    ∀ (d : Nat) (st st' : Org), OrgInv skip st →
    ((∀ a : Attrs, a.type = .bibliography → skip a = true) ∨ st.root = [] ∨ ∀ x ∈ l, ¬ x.hasType .bibliography) →
    orgLoop l d st = some st' →
    OrgInv skip st' ∧ ∃ evs,
      ann (flatList skip l d) st.inApp st.num = some (evs, st'.inApp, st'.num) ∧
      flatList skip st'.out d = flatList skip st.out d ++ evs
  | [], _, _, d, st, st', inv, _, h => by
    simp only [orgLoop] at h
    injection h with h; subst h
    exact ⟨inv, [], by simp [flatList, ann], by simp⟩
  | x :: xs, hp, hpw, d, st, st', inv, hbib, h => by
    simp only [orgLoop] at h
    cases hs : stepOrg x d (fun inApp d n => orgItem x inApp d n) st with
    | none => rw [hs] at h; cases h
    | some st1 =>
      rw [hs] at h
      simp only [] at h
      have ih := orgLoop_top gs xs (fun y hy => hp y (by simp [hy]))
        (hpw.imp_right fun h => (List.pairwise_cons.1 h).2) d st1 st'
      have step : OrgInv skip st1 ∧
          ((∀ a : Attrs, a.type = .bibliography → skip a = true) ∨ st1.root = [] ∨ ∀ x ∈ xs, ¬ x.hasType .bibliography) ∧
          ∃ evs, ann (flatItem skip x d) st.inApp st.num = some (evs, st1.inApp, st1.num) ∧
            flatList skip st1.out d = flatList skip st.out d ++ evs := by
        rcases hp x (by simp) with hpl | ⟨a, t, c, rfl, ha, hc⟩
        · obtain ⟨i1, i2, i3, rest⟩ := stepOrg_plain gs inv hpl (orgItem_spec gs x hpl) (by
            rcases hbib with h | h | h
            · exact Or.inl h
            · exact Or.inr (Or.inl h)
            · refine Or.inr (Or.inr ?_)
              rintro a t c rfl ha
              exact h (.tok a t c) (by simp) ha) hs
          refine ⟨i1, ?_, rest⟩
          rcases hbib with h | h | h
          · exact Or.inl h
          · exact Or.inr (Or.inl (i2.trans h))
          · exact Or.inr (Or.inr fun y hy => h y (by simp [hy]))
        · have hrec : RecOK skip c (fun ia d n => orgItem (.tok a t c) ia d n) := by
            intro ia d n c' n' h
            simp only [orgItem] at h
            rw [Option.map_eq_some_iff] at h
            obtain ⟨st', h1, h2⟩ := h
            injection h2 with h2 h3
            subst h2; subst h3
            obtain ⟨_, _, h5, evs, h6, h7⟩ := orgLoop_plain gs c hc d _ _ (OrgInv.init ia n) rfl h1
            simp only [flatList, List.nil_append] at h7
            rw [h6, h7, h5]
          obtain ⟨i1, rest⟩ := stepOrg_appendix gs ha hrec hs
          refine ⟨i1, ?_, rest⟩
          rcases hpw with h | h
          · exact Or.inl h
          · exact Or.inr (Or.inr fun y hy => (List.pairwise_cons.1 h).1 y hy ha)
      obtain ⟨i1, i2, e1, i4, i5⟩ := step
      obtain ⟨j1, e2, j4, j5⟩ := ih i1 i2 h
      refine ⟨j1, e1 ++ e2, ?_, ?_⟩
      · simp only [flatList]
        rw [ann_append, i4]
        simp only [j4]
      · rw [j5, i5, List.append_assoc]

/-- The reading of the organised document is the numbered reading of the input. -/
theorem organize_flat (gs : GoodSkip skip) (l : List Item) (hp : ∀ x ∈ l, TopPlain skip x)
    (hb : (∀ a : Attrs, a.type = .bibliography → skip a = true) ∨
      l.Pairwise fun x y => x.hasType .appendix → ¬ y.hasType .bibliography)
    (n n' : Num) (out : List Item) (h : organize l n = some (out, n')) :
    ∃ ia, ann (flatList skip l 0) false n = some (flatList skip out 0, ia, n') := by
  unfold organize at h
  rw [Option.map_eq_some_iff] at h
  obtain ⟨st', h1, h2⟩ := h
  injection h2 with h2 h3
  subst h2; subst h3
  obtain ⟨_, evs, h4, h5⟩ := orgLoop_top gs l hp hb 0 _ _ (OrgInv.init false n) (Or.inr (Or.inl rfl)) h1
  simp only [flatList, List.nil_append] at h5
  exact ⟨_, by rw [h4, h5]⟩

end L2J
