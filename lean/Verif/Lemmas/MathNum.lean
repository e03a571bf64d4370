import Verif.Lemmas.SecNum
/-! Numbers of theorem-like environments (C16). -/
namespace L2J
open Spec

/-- The two counters, section first. -/
abbrev MKey := Nat × Nat

def MKey.lt (x y : MKey) : Prop := x.1 < y.1 ∨ x.1 = y.1 ∧ x.2 < y.2
def MKey.le (x y : MKey) : Prop := x.1 < y.1 ∨ x.1 = y.1 ∧ x.2 ≤ y.2

def mrender (k : MKey) : Str := natStr k.1 ++ '.' :: natStr k.2

theorem mrender_inj {x y : MKey} (h : mrender x = mrender y) : x = y := by
  unfold mrender at h
  have hd : ∀ n, '.' ∉ natStr n := by
    intro n hn
    have := natStr_digits n _ hn
    revert this; decide
  obtain ⟨h1, h2⟩ := split_dot (hd x.1) (hd y.1) (Or.inr ⟨_, rfl⟩) (Or.inr ⟨_, rfl⟩) h
  injection h2 with _ h2
  obtain ⟨a, b⟩ := x
  obtain ⟨c, d⟩ := y
  simp only at h1 h2
  rw [natStr_injective h1, natStr_injective h2]

def mkey (n : Num) : MKey := (n.s1, n.math)

theorem check_math (n : Num) (a : Attrs) :
    (checkUpdateNumbering n a).1.s1 = n.s1 ∧
    ((isNumbered .math_env a = true ∧ (checkUpdateNumbering n a).1.math = n.math + 1 ∧
        (checkUpdateNumbering n a).2.numbering = some (mrender (mkey (checkUpdateNumbering n a).1))) ∨
      (isNumbered .math_env a = false ∧ (checkUpdateNumbering n a).1.math = n.math)) := by
  unfold checkUpdateNumbering isNumbered
  repeat' split
  all_goals first
    | (refine ⟨rfl, Or.inr ⟨?_, rfl⟩⟩; simp_all; done)
    | (refine ⟨rfl, Or.inl ⟨?_, rfl, rfl⟩⟩; simp_all)

theorem updateSection_math {n n' : Num} {a a' : Attrs} {ia : Bool}
    (h : updateSection n a ia = some (n', a')) : n'.math = n.math ∧
      (n'.s1 = n.s1 ∨ n'.s1 = n.s1 + 1) ∧ (a.numbered ≠ some false → a.level = some 1 → n'.s1 = n.s1 + 1) := by
  unfold updateSection at h
  by_cases hn : a.numbered = some false
  · rw [if_pos hn] at h
    injection h with h; injection h with h1 h2
    subst h1
    exact ⟨rfl, Or.inl rfl, fun h => absurd hn h⟩
  · rw [if_neg hn] at h
    simp only [resetLower] at h
    generalize hl : a.level.getD 1 = l at h
    have hlev : a.level = some 1 → l = 1 := by intro e; rw [e] at hl; simpa using hl.symm
    split at h
    · cases h
    · rename_i m hm
      injection h with h; injection h with h1 h2
      subst h1
      split at hm
      · rename_i h1
        subst h1
        injection hm with hm; subst hm
        simp
      · split at hm
        · rename_i h1 h2
          subst h2
          injection hm with hm; subst hm
          simp; intro _ e; simpa using hlev e
        · split at hm
          · rename_i h1 h2 h3
            subst h3
            injection hm with hm; subst hm
            simp; intro _ e; simpa using hlev e
          · cases hm

theorem annEv_math (ev ev' : Ev) (ia ia' : Bool) (n n' : Num) (h : annEv ev ia n = some (ev', ia', n'))
    (hr : attrsOf restartsTheorems [ev] = []) :
    (attrsOf (isNumbered .math_env) [ev'] = [] ∧ (mkey n).le (mkey n')) ∨
    ((attrsOf (isNumbered .math_env) [ev']).map (·.numbering) = [some (mrender (mkey n'))] ∧ (mkey n).lt (mkey n')) := by
  obtain ⟨node, e⟩ := ev
  cases node with
  | raw s =>
    simp only [annEv] at h
    injection h with h; injection h with h1 h; injection h with h2 h3
    subst h1; subst h2; subst h3
    left; simp [attrsOf, MKey.le]
  | lst s =>
    simp only [annEv] at h
    injection h with h; injection h with h1 h; injection h with h2 h3
    subst h1; subst h2; subst h3
    left; simp [attrsOf, MKey.le]
  | tok a t =>
    simp only [annEv] at h
    have hr' : restartsTheorems a = false := by
      simp only [attrsOf, List.filterMap_cons, List.filterMap_nil] at hr
      by_cases hx : restartsTheorems a = true
      · simp [hx] at hr
      · simpa using hx
    simp only [restartsTheorems, decide_eq_false_iff_not, not_or, not_and] at hr'
    obtain ⟨hap, hsec⟩ := hr'
    rw [if_neg hap] at h
    have hk := check_math n a
    have hc := (check_core n a).1
    generalize checkUpdateNumbering n a = r at h hk hc
    obtain ⟨n1, a1⟩ := r
    simp only [] at h hk hc
    generalize hb : (if a1.type = .list then { a1 with depth := some (e + 1) } else a1) = b at h
    have ht1 : a1.type = a.type := congrArg (·.1) hc
    have hbt : b.type = a.type := by rw [← hb, ← ht1]; split <;> rfl
    have hbn : b.numbered = a.numbered := by
      have : a1.numbered = a.numbered := congrArg (·.2.2.1) hc
      rw [← hb, ← this]; split <;> rfl
    have hbl : b.level = a.level := by
      have : a1.level = a.level := congrArg (·.2.1) hc
      rw [← hb, ← this]; split <;> rfl
    have hbg : b.numbering = a1.numbering := by rw [← hb]; split <;> rfl
    split at h
    · rename_i hs
      cases hu : updateSection n1 b ia with
      | none => rw [hu] at h; cases h
      | some v =>
        obtain ⟨n3, a3⟩ := v
        rw [hu] at h
        simp only [] at h
        injection h with h; injection h with h1 h; injection h with h2 h3
        subst h1; subst h2
        have hcore := (updateSection_core hu).1
        have ht3 : a3.type = b.type := congrArg (·.1) hcore
        have hl3 : a3.level = b.level := congrArg (·.2.1) hcore
        obtain ⟨u1, u2, u3⟩ := updateSection_math hu
        have hne : isNumbered .math_env a = false := by simp [isNumbered, ← hbt, hs]
        left
        refine ⟨by simp [attrsOf, isNumbered, ht3, hs], ?_⟩
        have hm : n1.math = n.math := by
          rcases hk.2 with h | h
          · rw [hne] at h; simp at h
          · exact h.2
        rw [← h3]
        unfold MKey.le mkey
        split
        · rename_i hlev
          have := u3 (by rw [hbn]; exact hsec (hbt ▸ hs) (by rw [← hbl, ← hl3]; exact hlev)) (by rw [← hl3]; exact hlev)
          left; simp only; omega
        · simp only; omega
    · rename_i hs
      have fin : ∀ b' : Attrs, b'.type = a.type → b'.numbered = a.numbered → b'.numbering = a1.numbering →
          (attrsOf (isNumbered .math_env) [⟨.tok b' t, e⟩] = [] ∧ (mkey n).le (mkey n1)) ∨
          ((attrsOf (isNumbered .math_env) [⟨.tok b' t, e⟩]).map (·.numbering) = [some (mrender (mkey n1))] ∧ (mkey n).lt (mkey n1)) := by
        intro b' e1 e2 e3
        have hp : isNumbered .math_env b' = isNumbered .math_env a := by simp [isNumbered, e1, e2]
        rcases hk.2 with ⟨p1, p2, p3⟩ | ⟨p1, p2⟩
        · right
          rw [← hp] at p1
          refine ⟨by simp [attrsOf, p1, e3, p3], ?_⟩
          unfold MKey.lt mkey
          simp only
          omega
        · left
          rw [← hp] at p1
          refine ⟨by simp [attrsOf, p1], ?_⟩
          unfold MKey.le mkey
          simp only
          omega
      split at h
      · injection h with h; injection h with h1 h; injection h with h2 h3
        subst h1; subst h2; subst h3
        exact fin _ hbt hbn hbg
      · injection h with h; injection h with h1 h; injection h with h2 h3
        subst h1; subst h2; subst h3
        exact fin _ hbt hbn hbg

theorem ann_math : ∀ (evs evs' : List Ev) (ia ia' : Bool) (n n' : Num), ann evs ia n = some (evs', ia', n') →
    attrsOf restartsTheorems evs = [] →
    ∃ ks : List MKey, (attrsOf (isNumbered .math_env) evs').map (·.numbering) = ks.map (fun k => some (mrender k)) ∧
      ks.Pairwise MKey.lt ∧ ∀ k ∈ ks, (mkey n).lt k
  | [], evs', ia, ia', n, n', h, _ => by
    simp only [ann] at h
    injection h with h; injection h with h1 h
    subst h1
    exact ⟨[], by simp [attrsOf], by simp, by simp⟩
  | ev :: evs, evs'', ia, ia', n, n', h, hc => by
    simp only [ann] at h
    cases h1 : annEv ev ia n with
    | none => rw [h1] at h; cases h
    | some v =>
      obtain ⟨ev', ia1, n1⟩ := v
      rw [h1] at h
      simp only [] at h
      cases h2 : ann evs ia1 n1 with
      | none => rw [h2] at h; cases h
      | some w =>
        obtain ⟨evs', ia2, n2⟩ := w
        rw [h2] at h
        simp only [] at h
        injection h with h; injection h with e1 h; injection h with e2 e3
        subst e1; subst e2; subst e3
        rw [attrsOf_cons, List.append_eq_nil_iff] at hc
        simp only [attrsOf_cons _ ev' evs', List.map_append]
        obtain ⟨ks, k1, k2, k3⟩ := ann_math evs evs' ia1 ia2 n1 n2 h2 hc.2
        rcases annEv_math _ _ _ _ _ _ h1 hc.1 with ⟨a1, a2⟩ | ⟨a1, a2⟩
        · refine ⟨ks, by rw [a1]; simpa using k1, k2, ?_⟩
          intro k hk
          have := k3 k hk
          unfold MKey.lt MKey.le at *
          omega
        · refine ⟨mkey n1 :: ks, by rw [a1, k1]; rfl, List.pairwise_cons.2 ⟨k3, k2⟩, ?_⟩
          intro k hk
          rcases List.mem_cons.1 hk with rfl | hk
          · exact a2
          · have := k3 k hk
            unfold MKey.lt at *
            omega

end L2J
