import Verif.Lemmas.SecNum
namespace L2J
open Spec

/-- Nested content without sections leaves the section counters alone. -/
def RecKey (rec : Bool → Nat → Num → Option (List Item × Num)) : Prop :=
  ∀ ia d n c n', rec ia d n = some (c, n') → (n'.s1 = n.s1 ∧ n'.s2 = n.s2 ∧ n'.s3 = n.s3) ∧
    ∀ anc, TreeL NumberExtends anc c

theorem treeI_nosec {anc : List Attrs} {b : Attrs} {t c : List Item} (hb : b.type ≠ .section)
    (hc : TreeL NumberExtends (b :: anc) c) : TreeI NumberExtends anc (.tok b t c) :=
  ⟨fun h => absurd h hb, hc⟩

theorem appendAt_treeNo (anc : List Attrs) : ∀ (p : Path) (l : List Item) (x : Item),
    (∀ anc, TreeL NumberExtends anc l) → (∀ anc, TreeI NumberExtends anc x) → ∀ anc, TreeL NumberExtends anc (appendAt p x l)
  | [], l, x, h1, h2, anc => by simp only [appendAt, TreeL_append, TreeL, and_true]; exact ⟨h1 anc, h2 anc⟩
  | i :: p, l, x, h1, h2, anc => by
    simp only [appendAt]
    cases he : l[i]? with
    | none =>
      have : l.length ≤ i := List.getElem?_eq_none_iff.1 he
      rw [List.modify_eq_self (by exact this)]
      exact h1 anc
    | some y =>
      obtain ⟨pre, post, rfl, rfl⟩ := getElem?_split he
      rw [modify_middle]
      cases y with
      | raw s => exact h1 anc
      | lst s => exact h1 anc
      | tok a t c =>
        have h1' : ∀ anc, TreeL NumberExtends anc pre ∧ (NumberExtends anc a ∧ TreeL NumberExtends (a :: anc) c) ∧ TreeL NumberExtends anc post := by
          intro anc
          have := h1 anc
          rw [TreeL_append] at this
          simp only [TreeL, TreeI] at this
          exact this
        rw [TreeL_append]
        simp only [TreeL, TreeI]
        refine ⟨(h1' anc).1, ⟨(h1' anc).2.1.1, ?_⟩, (h1' anc).2.2⟩
        exact TreeL_appendAt_any p anc (a :: anc) c x (h1' anc).2.1.2 h2
where
  TreeL_appendAt_any : ∀ (p : Path) (_ : List Attrs) (anc : List Attrs) (l : List Item) (x : Item),
      TreeL NumberExtends anc l → (∀ anc, TreeI NumberExtends anc x) → TreeL NumberExtends anc (appendAt p x l)
    | [], _, anc, l, x, h1, h2 => by simp only [appendAt, TreeL_append, TreeL, and_true]; exact ⟨h1, h2 anc⟩
    | i :: p, q, anc, l, x, h1, h2 => by
      simp only [appendAt]
      cases he : l[i]? with
      | none =>
        have : l.length ≤ i := List.getElem?_eq_none_iff.1 he
        rw [List.modify_eq_self (by exact this)]
        exact h1
      | some y =>
        obtain ⟨pre, post, rfl, rfl⟩ := getElem?_split he
        rw [modify_middle]
        cases y with
        | raw s => exact h1
        | lst s => exact h1
        | tok a t c =>
          rw [TreeL_append] at h1 ⊢
          simp only [TreeL, TreeI] at h1 ⊢
          exact ⟨h1.1, ⟨h1.2.1.1, TreeL_appendAt_any p q _ c x h1.2.1.2 h2⟩, h1.2.2⟩

/-- Loop invariant for content without sections. -/
structure KInv (n0 : Num) (st : Org) : Prop where
  key : st.num.s1 = n0.s1 ∧ st.num.s2 = n0.s2 ∧ st.num.s3 = n0.s3
  tree : ∀ anc, TreeL NumberExtends anc st.out

theorem step_nosec {it : Item} {d : Nat} {rec : Bool → Nat → Num → Option (List Item × Num)}
    (hns : NoSec it) (hrec : RecKey rec) {n0 : Num} {st st' : Org} (inv : KInv n0 st)
    (h : stepOrg it d rec st = some st') : KInv n0 st' := by
  cases it with
  | raw s =>
    simp only [stepOrg] at h
    injection h with h; subst h
    exact ⟨inv.key, appendAt_treeNo [] _ _ _ inv.tree (by simp [TreeI])⟩
  | lst s =>
    simp only [stepOrg] at h
    injection h with h; subst h
    exact ⟨inv.key, appendAt_treeNo [] _ _ _ inv.tree (by simp [TreeI])⟩
  | tok a t c0 =>
    unfold NoSec at hns
    simp only [stepOrg] at h
    rw [if_neg hns.2.1] at h
    have hct := check_type st.num a
    have hk := check_key st.num a
    generalize checkUpdateNumbering st.num a = r at h hct hk
    obtain ⟨n1, a1⟩ := r
    simp only [] at h hct hk
    generalize hb : (if a1.type = .list then { a1 with depth := some (d + 1) } else a1) = b at h
    have hbt : b.type = a.type := by rw [← hb, ← hct]; split <;> rfl
    have hbs : b.type ≠ .section := by rw [hbt]; exact hns.1
    cases hr : rec st.inApp (if b.type = .list then d + 1 else d) n1 with
    | none => rw [hr] at h; cases h
    | some v =>
      obtain ⟨c, n2⟩ := v
      rw [hr] at h
      simp only [] at h
      obtain ⟨r1, r2⟩ := hrec _ _ _ _ _ hr
      have hkey : n2.s1 = n0.s1 ∧ n2.s2 = n0.s2 ∧ n2.s3 = n0.s3 := by
        obtain ⟨i1, i2, i3⟩ := inv.key
        exact ⟨r1.1.trans (hk.1.trans i1), r1.2.1.trans (hk.2.1.trans i2), r1.2.2.trans (hk.2.2.trans i3)⟩
      by_cases hbib : b.type = .bibliography
      · rw [if_pos hbib] at h
        injection h with h; subst h
        exact ⟨hkey, fun anc => by
          simp only [TreeL_append, TreeL, and_true]
          exact ⟨inv.tree anc, treeI_nosec hbs (r2 _)⟩⟩
      · rw [if_neg hbib, if_neg hbs] at h
        by_cases hpar : b.type = .paragraph
        · rw [if_pos hpar] at h
          unfold manageStack at h
          cases hp : popStack b.level st.pars with
          | none => rw [hp] at h; cases h
          | some stk =>
            rw [hp] at h
            simp only [] at h
            injection h with h
            subst h
            exact ⟨hkey, appendAt_treeNo [] _ _ _ inv.tree (fun anc => treeI_nosec (b := { b with text := none, hasList := true }) hbs (by simp [TreeL]))⟩
        · rw [if_neg hpar] at h
          injection h with h; subst h
          exact ⟨hkey, appendAt_treeNo [] _ _ _ inv.tree (fun anc => treeI_nosec hbs (r2 _))⟩

mutual
theorem rec_nosec : ∀ x : Item, (∀ a t c, x = .tok a t c → NoSecL c) → RecKey (fun ia d n => orgItem x ia d n)
  | .raw s, _ => by
    intro ia d n c n' h
    simp only [orgItem, Option.some.injEq, Prod.mk.injEq] at h
    obtain ⟨rfl, rfl⟩ := h
    exact ⟨⟨rfl, rfl, rfl⟩, by simp [TreeL]⟩
  | .lst s, _ => by
    intro ia d n c n' h
    simp only [orgItem, Option.some.injEq, Prod.mk.injEq] at h
    obtain ⟨rfl, rfl⟩ := h
    exact ⟨⟨rfl, rfl, rfl⟩, by simp [TreeL]⟩
  | .tok a t c0, hns => by
    intro ia d n c n' h
    simp only [orgItem] at h
    rw [Option.map_eq_some_iff] at h
    obtain ⟨st', h1, h2⟩ := h
    injection h2 with h2 h3
    subst h2; subst h3
    have := loop_nosec c0 (hns a t c0 rfl) n d { inApp := ia, num := n } st' ⟨⟨rfl, rfl, rfl⟩, by simp [TreeL]⟩ h1
    exact ⟨this.key, this.tree⟩
theorem loop_nosec : ∀ (l : List Item), NoSecL l → ∀ (n0 : Num) (d : Nat) (st st' : Org), KInv n0 st →
    orgLoop l d st = some st' → KInv n0 st'
  | [], _, _, _, st, st', inv, h => by simp only [orgLoop, Option.some.injEq] at h; exact h ▸ inv
  | x :: xs, hns, n0, d, st, st', inv, h => by
    unfold NoSecL at hns
    simp only [orgLoop] at h
    cases hs : stepOrg x d (fun inApp d n => orgItem x inApp d n) st with
    | none => rw [hs] at h; cases h
    | some st1 =>
      rw [hs] at h
      refine loop_nosec xs hns.2 n0 d st1 st' (step_nosec hns.1 (rec_nosec x ?_) inv hs) h
      rintro a t c hxe
      have hx1 := hns.1
      rw [hxe] at hx1
      unfold NoSec at hx1
      exact hx1.2.2
end

/-! Now the level where sections live. -/

/-- A numbered section still carries the prefix of the current counters that belongs to its level. -/
def Fresh (n : Num) (ia : Bool) (b : Attrs) (l : Nat) : Prop :=
  b.numbered ≠ some false → 1 ≤ l ∧ l ≤ 3 ∧ b.numbering = some (sectionNumberStr n l ia)

def RefFresh (anc0 : List Attrs) (st : Org) (r : Ref) : Prop :=
  ∃ a mid, ancAt r.path anc0 st.out = some (a :: (mid ++ anc0)) ∧ a.type = .section ∧ a.level = r.level ∧
    Fresh st.num st.inApp a (r.level.getD 1) ∧
    ∀ b ∈ mid, b.type = .section → ∃ lb m, b.level = some lb ∧ r.level = some m ∧ lb < m ∧ Fresh st.num st.inApp b lb

structure EInv (anc0 : List Attrs) (st : Org) : Prop where
  tree : TreeL NumberExtends anc0 st.out
  secs : ∀ r ∈ st.secs, RefFresh anc0 st r
  sorted : st.secs.Pairwise fun r r' => ∃ m m', r.level = some m ∧ r'.level = some m' ∧ m' < m
  pars : ∀ r ∈ st.pars, ∃ anc, ancAt r.path anc0 st.out = some anc
  root : ∃ mid, ancAt st.root anc0 st.out = some (mid ++ anc0) ∧ ∀ b ∈ mid, b.type = .appendix

theorem sectionNumberStr_congr {n n' : Num} (ia : Bool) (l : Nat) (h1 : n'.s1 = n.s1) (h2 : 2 ≤ l → n'.s2 = n.s2)
    (h3 : 3 ≤ l → n'.s3 = n.s3) : sectionNumberStr n' l ia = sectionNumberStr n l ia := by
  unfold sectionNumberStr
  by_cases hl2 : 2 ≤ l
  · by_cases hl3 : 3 ≤ l
    · simp only [h1, h2 hl2, h3 hl3]
    · simp only [h1, h2 hl2, hl3, if_false]
  · have hl3 : ¬ 3 ≤ l := by omega
    simp only [h1, hl2, hl3, if_false]

theorem RefFresh.mono {anc0 : List Attrs} {st st' : Org} {r : Ref} (h : RefFresh anc0 st r)
    (hout : ∃ p x, st'.out = appendAt p x st.out) (hia : st'.inApp = st.inApp)
    (hnum : ∀ l, 1 ≤ l → l ≤ 3 → l ≤ r.level.getD 1 → sectionNumberStr st'.num l st.inApp = sectionNumberStr st.num l st.inApp) :
    RefFresh anc0 st' r := by
  obtain ⟨a, mid, h1, h2, h3, h4, h5⟩ := h
  obtain ⟨p, x, hx⟩ := hout
  refine ⟨a, mid, by rw [hx]; exact ancAt_appendAt _ _ _ _ _ _ h1, h2, h3, ?_, ?_⟩
  · intro hn
    obtain ⟨e1, e2, e3⟩ := h4 hn
    exact ⟨e1, e2, by rw [hia, hnum _ e1 e2 (Nat.le_refl _)]; exact e3⟩
  · intro b hb hbs
    obtain ⟨lb, m, e1, e2, e3, e4⟩ := h5 b hb hbs
    refine ⟨lb, m, e1, e2, e3, ?_⟩
    intro hn
    obtain ⟨f1, f2, f3⟩ := e4 hn
    exact ⟨f1, f2, by rw [hia, hnum _ f1 f2 (by rw [e2]; simp; omega)]; exact f3⟩

theorem EInv.target {anc0 : List Attrs} {st : Org} (inv : EInv anc0 st) :
    ∃ anc, ancAt st.target anc0 st.out = some anc := by
  unfold Org.target
  cases hp : st.pars with
  | cons r rs => exact inv.pars r (by simp [hp])
  | nil =>
    cases hq : st.secs with
    | cons r rs => obtain ⟨a, mid, h1, _⟩ := inv.secs r (by simp [hq]); exact ⟨_, h1⟩
    | nil => obtain ⟨mid, h1, _⟩ := inv.root; exact ⟨_, h1⟩

/-- Adding something that is not a section, without touching the section counters. -/
theorem EInv.push {anc0 : List Attrs} {st : Org} (inv : EInv anc0 st) (p : Path) (anc' : List Attrs) (x : Item)
    (hp : ancAt p anc0 st.out = some anc') (hx : TreeI NumberExtends anc' x) (n : Num)
    (hk : n.s1 = st.num.s1 ∧ n.s2 = st.num.s2 ∧ n.s3 = st.num.s3) :
    EInv anc0 { st with out := appendAt p x st.out, num := n } where
  tree := TreeL_appendAt _ _ _ _ _ inv.tree hp hx
  secs := fun r hr => (inv.secs r hr).mono ⟨p, x, rfl⟩ rfl
    (fun l _ _ _ => sectionNumberStr_congr _ _ hk.1 (fun _ => hk.2.1) (fun _ => hk.2.2))
  sorted := inv.sorted
  pars := fun r hr => by
    obtain ⟨anc, h⟩ := inv.pars r hr
    exact ⟨anc, ancAt_appendAt _ _ _ _ _ _ h⟩
  root := by
    obtain ⟨mid, h1, h2⟩ := inv.root
    exact ⟨mid, ancAt_appendAt _ _ _ _ _ _ h1, h2⟩

def RecExt (rec : Bool → Nat → Num → Option (List Item × Num)) : Prop :=
  ∀ ia d n c n', rec ia d n = some (c, n') → ∀ anc, (∀ b ∈ anc, b.type = .appendix) → TreeL NumberExtends anc c

theorem sectionNumberStr_extends (n : Num) (ia : Bool) {l m : Nat} (h1 : 1 ≤ l) (h2 : l < m) (h3 : m ≤ 3) :
    ∃ r, sectionNumberStr n m ia = sectionNumberStr n l ia ++ '.' :: r := by
  have : (l = 1 ∧ m = 2) ∨ (l = 1 ∧ m = 3) ∨ (l = 2 ∧ m = 3) := by omega
  rcases this with ⟨rfl, rfl⟩ | ⟨rfl, rfl⟩ | ⟨rfl, rfl⟩
  · exact ⟨natStr n.s2, by simp [sectionNumberStr]⟩
  · exact ⟨natStr n.s2 ++ '.' :: natStr n.s3, by simp [sectionNumberStr]⟩
  · exact ⟨natStr n.s3, by simp [sectionNumberStr]⟩

/-- A numbered section of level `m` leaves the counters of lower levels alone. -/
theorem updateSection_lower {n n' : Num} {a a' : Attrs} {ia : Bool} {m : Nat} (hl : a.level = some m)
    (h : updateSection n a ia = some (n', a')) (l : Nat) (h1 : 1 ≤ l) (h2 : l < m) :
    sectionNumberStr n' l ia = sectionNumberStr n l ia := by
  unfold updateSection at h
  by_cases hn : a.numbered = some false
  · rw [if_pos hn] at h
    injection h with h; injection h with e1 e2
    subst e1; rfl
  · rw [if_neg hn, hl] at h
    simp only [Option.getD_some] at h
    rw [if_neg (by omega)] at h
    by_cases hm2 : m = 2
    · subst hm2
      have : l = 1 := by omega
      subst this
      simp only [if_true] at h
      injection h with h; injection h with e1 e2
      subst e1
      exact sectionNumberStr_congr _ _ rfl (by omega) (by omega)
    · by_cases hm3 : m = 3
      · subst hm3
        simp only [hm2, if_false, if_true] at h
        injection h with h; injection h with e1 e2
        subst e1
        refine sectionNumberStr_congr _ _ rfl (fun _ => rfl) (by omega)
      · simp [hm2, hm3] at h

theorem step_ext {it : Item} {d : Nat} {rec : Bool → Nat → Num → Option (List Item × Num)}
    (hst : SecTop it) (hrec : RecExt rec) (hkey : ∀ a t c, it = .tok a t c → a.type ≠ .appendix → RecKey rec)
    {anc0 : List Attrs} (h0 : ∀ b ∈ anc0, b.type = .appendix) {st st' : Org} (inv : EInv anc0 st)
    (h : stepOrg it d rec st = some st') : EInv anc0 st' := by
  obtain ⟨tanc, ht1⟩ := inv.target
  cases it with
  | raw s =>
    simp only [stepOrg] at h
    injection h with h; subst h
    exact inv.push _ _ _ ht1 (by simp [TreeI]) _ ⟨rfl, rfl, rfl⟩
  | lst s =>
    simp only [stepOrg] at h
    injection h with h; subst h
    exact inv.push _ _ _ ht1 (by simp [TreeI]) _ ⟨rfl, rfl, rfl⟩
  | tok a t c0 =>
    simp only [stepOrg] at h
    by_cases hap : a.type = .appendix
    · rw [if_pos hap] at h
      split at h
      · cases h
      · rename_i c n hr
        injection h with h
        subst h
        have hc := hrec _ _ _ _ _ hr ({ a with text := none, hasList := true } :: anc0) (by
          intro b hb
          rcases List.mem_cons.1 hb with rfl | hb
          · exact hap
          · exact h0 b hb)
        constructor
        · simp only [TreeL_append, TreeL, TreeI, and_true]
          refine ⟨inv.tree, ?_, hc⟩
          intro hs
          have : a.type = .section := hs
          rw [hap] at this; cases this
        · simp
        · simp
        · simp
        · exact ⟨[{ a with text := none, hasList := true }], by simp [ancAt], by simp [hap]⟩
    · rw [if_neg hap] at h
      have hct := check_type st.num a
      have hk := check_key st.num a
      generalize checkUpdateNumbering st.num a = r at h hct hk
      obtain ⟨n1, a1⟩ := r
      simp only [] at h hct hk
      generalize hb : (if a1.type = .list then { a1 with depth := some (d + 1) } else a1) = b at h
      have hbt : b.type = a.type := by rw [← hb, ← hct]; split <;> rfl
      cases hr : rec st.inApp (if b.type = .list then d + 1 else d) n1 with
      | none => rw [hr] at h; cases h
      | some v =>
        obtain ⟨c, n2⟩ := v
        rw [hr] at h
        simp only [] at h
        obtain ⟨r1, r2⟩ := hkey a t c0 rfl hap _ _ _ _ _ hr
        have hk2 : n2.s1 = st.num.s1 ∧ n2.s2 = st.num.s2 ∧ n2.s3 = st.num.s3 :=
          ⟨r1.1.trans hk.1, r1.2.1.trans hk.2.1, r1.2.2.trans hk.2.2⟩
        by_cases hbib : b.type = .bibliography
        · rw [if_pos hbib] at h
          injection h with h; subst h
          have base := inv.push [] anc0 (.tok b t c) rfl (treeI_nosec (by rw [hbib]; decide) (r2 _)) n2 hk2
          exact ⟨base.tree, by simp, by simp, by simp, base.root⟩
        · rw [if_neg hbib] at h
          by_cases hsec : b.type = .section
          · rw [if_pos hsec] at h
            split at h
            · cases h
            · rename_i n3 a3 hu
              have hcore := updateSection_core hu
              have h3t : a3.type = .section := (core_type hcore.1).trans hsec
              have h3l : a3.level = b.level := congrArg (·.2.1) hcore.1
              have h3n : a3.numbered = b.numbered := congrArg (·.2.2.1) hcore.1
              unfold manageStack at h
              cases hp : popStack a3.level st.secs with
              | none => rw [hp] at h; cases h
              | some stk =>
                rw [hp] at h
                simp only [] at h
                injection h with h
                subst h
                have hsub := popStack_suffix _ _ _ hp
                generalize hn4 : (if a3.level = some 1 then { n3 with math := 0 } else n3) = n4
                have hn4s : ∀ l, sectionNumberStr n4 l st.inApp = sectionNumberStr n3 l st.inApp := by
                  intro l
                  refine sectionNumberStr_congr _ _ ?_ (fun _ => ?_) (fun _ => ?_) <;> rw [← hn4] <;> split <;> rfl
                have hn2s : ∀ l, sectionNumberStr n2 l st.inApp = sectionNumberStr st.num l st.inApp := fun l =>
                  sectionNumberStr_congr _ _ hk2.1 (fun _ => hk2.2.1) (fun _ => hk2.2.2)
                -- levels in what is left of the stack
                have hlow : ∀ r ∈ stk, ∃ m k, r.level = some m ∧ a3.level = some k ∧ m < k := by
                  have hsorted : stk.Pairwise fun r r' => ∃ m m', r.level = some m ∧ r'.level = some m' ∧ m' < m :=
                    inv.sorted.sublist hsub.sublist
                  cases hk' : stk with
                  | nil => simp
                  | cons r0 rs =>
                    rw [hk'] at hsorted
                    obtain ⟨m0, k, e1, e2, e3⟩ := popStack_lt _ _ _ hp r0 (by simp [hk'])
                    intro r hr
                    rcases List.mem_cons.1 hr with rfl | hr
                    · exact ⟨m0, k, e1, e2, e3⟩
                    · obtain ⟨m, m', f1, f2, f3⟩ := (List.pairwise_cons.1 hsorted).1 r hr
                      rw [e1] at f1
                      injection f1 with f1
                      exact ⟨m', k, f2, e2, by omega⟩
                have hkeep : ∀ r ∈ stk, ∀ l, 1 ≤ l → l ≤ 3 → l ≤ r.level.getD 1 →
                    sectionNumberStr n4 l st.inApp = sectionNumberStr st.num l st.inApp := by
                  intro r hr l l1 l3 l2
                  obtain ⟨m, k, e1, e2, e3⟩ := hlow r hr
                  rw [e1] at l2
                  simp only [Option.getD_some] at l2
                  rw [hn4s, updateSection_lower (h3l ▸ e2) hu l l1 (by omega), hn2s]
                have hplace : ∃ mid, ancAt (stackTarget st.root stk []) anc0 st.out = some (mid ++ anc0) ∧
                    ∀ x ∈ mid, x.type = .section → ∃ lb k, x.level = some lb ∧ a3.level = some k ∧ lb < k ∧
                      Fresh n4 st.inApp x lb := by
                  unfold stackTarget
                  cases hk' : stk with
                  | nil =>
                    obtain ⟨mid, h1, h2⟩ := inv.root
                    refine ⟨mid, h1, ?_⟩
                    intro x hx hxs
                    rw [h2 x hx] at hxs; cases hxs
                  | cons r rs =>
                    have hrs : r ∈ stk := by simp [hk']
                    obtain ⟨y, mid, h1, h2, h3, h4, h5⟩ := inv.secs r (hsub.subset hrs)
                    obtain ⟨m, k, e1, e2, e3⟩ := hlow r hrs
                    refine ⟨y :: mid, h1, ?_⟩
                    intro x hx hxs
                    rcases List.mem_cons.1 hx with rfl | hx
                    · refine ⟨m, k, h3.trans e1, e2, e3, ?_⟩
                      intro hn
                      obtain ⟨f1, f2, f3⟩ := h4 hn
                      rw [e1] at f1 f2 f3
                      simp only [Option.getD_some] at f1 f2 f3
                      exact ⟨f1, f2, by rw [hkeep r hrs m f1 f2 (by rw [e1]; simp)]; exact f3⟩
                    · obtain ⟨lb, m', g1, g2, g3, g4⟩ := h5 x hx hxs
                      rw [e1] at g2
                      injection g2 with g2
                      refine ⟨lb, k, g1, e2, by omega, ?_⟩
                      intro hn
                      obtain ⟨f1, f2, f3⟩ := g4 hn
                      exact ⟨f1, f2, by rw [hkeep r hrs lb f1 f2 (by rw [e1]; simp; omega)]; exact f3⟩
                obtain ⟨mid, p1, p2⟩ := hplace
                have hfresh : Fresh n4 st.inApp a3 (a3.level.getD 1) := by
                  intro hn
                  obtain ⟨_, _, _, u4, u5⟩ := updateSection_numbered (h3n ▸ hn) hu
                  rw [h3l]
                  exact ⟨u5.1, u5.2, by rw [hn4s]; exact u4⟩
                have hti : TreeI NumberExtends (mid ++ anc0) (.tok { a3 with text := none, hasList := true } t []) := by
                  refine ⟨?_, by simp [TreeL]⟩
                  intro _ hn x hx hxs hxn
                  rcases List.mem_append.1 hx with hx | hx
                  · obtain ⟨lb, k, g1, g2, g3, g4⟩ := p2 x hx hxs
                    obtain ⟨f1, f2, f3⟩ := g4 hxn
                    obtain ⟨v1, v2, v3⟩ := hfresh hn
                    rw [g2] at v1 v2 v3
                    simp only [Option.getD_some] at v1 v2 v3
                    obtain ⟨rr, hrr⟩ := sectionNumberStr_extends n4 st.inApp f1 g3 v2
                    exact ⟨_, rr, f3, by rw [← hrr]; exact v3⟩
                  · rw [h0 x hx] at hxs; cases hxs
                constructor
                · exact TreeL_appendAt _ _ _ _ _ inv.tree p1 hti
                · intro r hr
                  rcases List.mem_cons.1 hr with rfl | hr
                  · exact ⟨{ a3 with text := none, hasList := true }, mid, ancAt_new _ _ _ _ _ _ _ p1, h3t, rfl, hfresh, p2⟩
                  · exact (inv.secs r (hsub.subset hr)).mono ⟨_, _, rfl⟩ rfl (hkeep r hr)
                · refine List.pairwise_cons.2 ⟨?_, inv.sorted.sublist hsub.sublist⟩
                  intro r hr
                  obtain ⟨m, k, e1, e2, e3⟩ := hlow r hr
                  exact ⟨k, m, e2, e1, e3⟩
                · simp
                · obtain ⟨mid', q1, q2⟩ := inv.root
                  exact ⟨mid', ancAt_appendAt _ _ _ _ _ _ q1, q2⟩
          · rw [if_neg hsec] at h
            by_cases hpar : b.type = .paragraph
            · rw [if_pos hpar] at h
              unfold manageStack at h
              cases hp : popStack b.level st.pars with
              | none => rw [hp] at h; cases h
              | some stk =>
                rw [hp] at h
                simp only [] at h
                injection h with h
                subst h
                have hsub := popStack_suffix _ _ _ hp
                have hplace : ∃ anc, ancAt (stackTarget st.root stk st.secs) anc0 st.out = some anc := by
                  unfold stackTarget
                  cases hq : st.secs with
                  | cons r rs => obtain ⟨a, mid, h1, _⟩ := inv.secs r (by simp [hq]); exact ⟨_, h1⟩
                  | nil =>
                    cases hk : stk with
                    | nil => obtain ⟨mid, h1, _⟩ := inv.root; exact ⟨_, h1⟩
                    | cons r rs => exact inv.pars r (hsub.subset (by simp [hk]))
                obtain ⟨anc, p1⟩ := hplace
                have base := inv.push _ _ (.tok { b with text := none, hasList := true } t []) p1
                  (treeI_nosec (b := { b with text := none, hasList := true }) hsec (by simp [TreeL])) n2 hk2
                refine ⟨base.tree, base.secs, base.sorted, ?_, base.root⟩
                intro r hr
                rcases List.mem_cons.1 hr with rfl | hr
                · exact ⟨_, ancAt_new _ _ _ _ _ _ _ p1⟩
                · exact base.pars r (hsub.subset hr)
            · rw [if_neg hpar] at h
              injection h with h; subst h
              exact inv.push _ _ _ ht1 (treeI_nosec hsec (r2 _)) n2 hk2

theorem EInv.init (anc0 : List Attrs) (ia : Bool) (n : Num) : EInv anc0 { inApp := ia, num := n } :=
  ⟨by simp [TreeL], by simp, by simp, by simp, [], by simp [ancAt], by simp⟩

mutual
theorem rec_ext : ∀ x : Item, (∀ a t c, x = .tok a t c → SecTopL c ∨ NoSecL c) → RecExt (fun ia d n => orgItem x ia d n)
  | .raw s, _ => by
    intro ia d n c n' h anc _
    simp only [orgItem, Option.some.injEq, Prod.mk.injEq] at h
    rw [← h.1]; simp [TreeL]
  | .lst s, _ => by
    intro ia d n c n' h anc _
    simp only [orgItem, Option.some.injEq, Prod.mk.injEq] at h
    rw [← h.1]; simp [TreeL]
  | .tok a t c0, hns => by
    intro ia d n c n' h anc h0
    rcases hns a t c0 rfl with hsec | hno
    · simp only [orgItem] at h
      rw [Option.map_eq_some_iff] at h
      obtain ⟨st', h1, h2⟩ := h
      injection h2 with h2 h3
      subst h2; subst h3
      exact (loop_ext c0 hsec anc h0 d { inApp := ia, num := n } st' (EInv.init anc ia n) h1).tree
    · exact (rec_nosec (.tok a t c0) (by intro _ _ _ e; injection e with _ _ e; exact e ▸ hno) _ _ _ _ _ h).2 anc
theorem loop_ext : ∀ (l : List Item), SecTopL l → ∀ (anc0 : List Attrs), (∀ b ∈ anc0, b.type = .appendix) →
    ∀ (d : Nat) (st st' : Org), EInv anc0 st → orgLoop l d st = some st' → EInv anc0 st'
  | [], _, _, _, _, st, st', inv, h => by simp only [orgLoop, Option.some.injEq] at h; exact h ▸ inv
  | x :: xs, hns, anc0, h0, d, st, st', inv, h => by
    unfold SecTopL at hns
    simp only [orgLoop] at h
    cases hs : stepOrg x d (fun inApp d n => orgItem x inApp d n) st with
    | none => rw [hs] at h; cases h
    | some st1 =>
      rw [hs] at h
      refine loop_ext xs hns.2 anc0 h0 d st1 st' (step_ext hns.1 (rec_ext x ?_) ?_ h0 inv hs) h
      · rintro a t c hxe
        have hx1 := hns.1
        rw [hxe] at hx1
        unfold SecTop at hx1
        by_cases ha : a.type = .appendix
        · exact Or.inl (hx1.1 ha)
        · exact Or.inr (hx1.2 ha)
      · rintro a t c hxe ha
        refine rec_nosec x ?_
        intro a' t' c' he
        rw [hxe] at he
        injection he with _ _ he
        have hx1 := hns.1
        rw [hxe] at hx1
        unfold SecTop at hx1
        exact he ▸ hx1.2 ha
end

theorem organize_ext (doc : List Item) (hd : SecTopL doc) (n : Num) (out : List Item) (n' : Num)
    (h : organize doc n = some (out, n')) : TreeL NumberExtends [] out := by
  unfold organize at h
  rw [Option.map_eq_some_iff] at h
  obtain ⟨st', h1, h2⟩ := h
  injection h2 with h2 h3
  subst h2
  exact (loop_ext doc hd [] (by simp) 0 _ _ (EInv.init [] false n) h1).tree

/-! Text merging keeps the shape. -/
theorem NoSecL_iff (l : List Item) : NoSecL l ↔ ∀ x ∈ l, NoSec x := by
  induction l with
  | nil => simp [NoSecL]
  | cons x l ih => simp [NoSecL, ih]

theorem SecTopL_iff (l : List Item) : SecTopL l ↔ ∀ x ∈ l, SecTop x := by
  induction l with
  | nil => simp [SecTopL]
  | cons x l ih => simp [SecTopL, ih]

theorem concat_noSec (l : List Item) (h : NoSecL l) : NoSecL (concatText none l) := by
  rw [NoSecL_iff] at h ⊢
  exact concatText_forall NoSec (by intro a t c s h; unfold NoSec at h ⊢; exact h) l none h (by simp)

theorem concat_secTop (l : List Item) (h : SecTopL l) : SecTopL (concatText none l) := by
  rw [SecTopL_iff] at h ⊢
  exact concatText_forall SecTop (by intro a t c s h; unfold SecTop at h ⊢; exact h) l none h (by simp)

theorem procRows_noSec : ∀ (l : List Item), NoSecL l → NoSecL (procRows l)
  | [], _ => by simp [procRows, NoSecL]
  | x :: xs, h => by
    unfold NoSecL at h
    simp only [procRows, NoSecL]
    refine ⟨?_, procRows_noSec xs h.2⟩
    cases x with
    | lst r => simp [procRow, NoSec]
    | raw s => simp [procRow, NoSec]
    | tok a t c => simpa [procRow] using h.1

mutual
theorem procItem_noSec : ∀ x, NoSec x → NoSec (procItem x)
  | .raw s, _ => by simp [procItem, NoSec]
  | .lst l, _ => by simp [procItem, NoSec]
  | .tok a t c, h => by
    unfold NoSec at h
    simp only [procItem, NoSec]
    refine ⟨h.1, h.2.1, ?_⟩
    by_cases ht : a.type = .tabular
    · rw [if_pos ht]; exact procRows_noSec c h.2.2
    · rw [if_neg ht]; exact concat_noSec _ (procItems_noSec c h.2.2)
theorem procItems_noSec : ∀ l, NoSecL l → NoSecL (procItems l)
  | [], _ => by simp [procItems, NoSecL]
  | x :: xs, h => by
    unfold NoSecL at h
    simp only [procItems, NoSecL]
    exact ⟨procItem_noSec x h.1, procItems_noSec xs h.2⟩
end

mutual
theorem procItem_secTop : ∀ x, SecTop x → SecTop (procItem x)
  | .raw s, _ => by simp [procItem, SecTop]
  | .lst l, _ => by simp [procItem, SecTop]
  | .tok a t c, h => by
    unfold SecTop at h
    simp only [procItem, SecTop]
    constructor
    · intro ha
      rw [if_neg (by rw [ha]; decide)]
      exact concat_secTop _ (procItems_secTop c (h.1 ha))
    · intro ha
      by_cases ht : a.type = .tabular
      · rw [if_pos ht]; exact procRows_noSec c (h.2 ha)
      · rw [if_neg ht]; exact concat_noSec _ (procItems_noSec c (h.2 ha))
theorem procItems_secTop : ∀ l, SecTopL l → SecTopL (procItems l)
  | [], _ => by simp [procItems, SecTopL]
  | x :: xs, h => by
    unfold SecTopL at h
    simp only [procItems, SecTopL]
    exact ⟨procItem_secTop x h.1, procItems_secTop xs h.2⟩
end

end L2J
