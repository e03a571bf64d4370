import Verif.Lemmas.Tree
/-! Section numbers: uniqueness and prefix structure. -/
namespace L2J
open Spec

/-- A counter state as a key: appendix flag and the three counters. -/
abbrev SKey := Bool × Nat × Nat × Nat

def keyOf (ia : Bool) (n : Num) : SKey := (ia, n.s1, n.s2, n.s3)

/-- Lexicographic order. -/
def SKey.lt (x y : SKey) : Prop :=
  (x.1 = false ∧ y.1 = true) ∨ x.1 = y.1 ∧
  (x.2.1 < y.2.1 ∨ x.2.1 = y.2.1 ∧ (x.2.2.1 < y.2.2.1 ∨ x.2.2.1 = y.2.2.1 ∧ x.2.2.2 < y.2.2.2))

theorem SKey.lt_trans {x y z : SKey} (h1 : x.lt y) (h2 : y.lt z) : x.lt z := by
  obtain ⟨a, b, c, d⟩ := x
  obtain ⟨a', b', c', d'⟩ := y
  obtain ⟨a'', b'', c'', d''⟩ := z
  unfold SKey.lt at *
  simp only at *
  rcases h1 with h1 | h1 <;> rcases h2 with h2 | h2
  · rw [h1.2] at h2; simp at h2
  · left; exact ⟨h1.1, h2.1 ▸ h1.2⟩
  · left; exact ⟨h1.1.trans h2.1, h2.2⟩
  · right; exact ⟨h1.1.trans h2.1, by omega⟩

theorem SKey.lt_irrefl {x : SKey} (h : x.lt x) : False := by
  obtain ⟨a, b, c, d⟩ := x
  unfold SKey.lt at h
  simp only at h
  rcases h with h | h
  · rw [h.1] at h; simp at h
  · omega

def firstStr (ia : Bool) (s : Nat) : Str := if ia then [Char.ofNat (64 + s)] else natStr s

/-- The number as a function of the key alone. -/
def render (k : SKey) : Str :=
  firstStr k.1 k.2.1 ++ (if k.2.2.1 = 0 ∧ k.2.2.2 = 0 then [] else '.' :: natStr k.2.2.1) ++
    (if k.2.2.2 = 0 then [] else '.' :: natStr k.2.2.2)

/-- Splitting at the first dot. -/
theorem split_dot {a a' b b' : Str} (ha : '.' ∉ a) (ha' : '.' ∉ a')
    (hb : b = [] ∨ ∃ r, b = '.' :: r) (hb' : b' = [] ∨ ∃ r, b' = '.' :: r) (h : a ++ b = a' ++ b') :
    a = a' ∧ b = b' := by
  rcases List.append_eq_append_iff.1 h with ⟨w, hw1, hw2⟩ | ⟨w, hw1, hw2⟩
  · cases w with
    | nil => simp at hw1 hw2; exact ⟨hw1.symm, hw2⟩
    | cons x w =>
      rcases hb with rfl | ⟨r, rfl⟩
      · simp at hw2
      · simp only [List.cons_append, List.cons.injEq] at hw2
        exfalso; apply ha'; rw [hw1]; simp [← hw2.1]
  · cases w with
    | nil => simp at hw1 hw2; exact ⟨hw1, hw2.symm⟩
    | cons x w =>
      rcases hb' with rfl | ⟨r, rfl⟩
      · simp at hw2
      · simp only [List.cons_append, List.cons.injEq] at hw2
        exfalso; apply ha; rw [hw1]; simp [← hw2.1]

theorem charOf_toNat (n : Nat) (h : n < 55296) : (Char.ofNat n).toNat = n := by
  have hv : n.isValidChar := Or.inl h
  unfold Char.ofNat
  rw [dif_pos hv]
  rfl

theorem firstStr_dot (ia : Bool) (s : Nat) (hs : 64 + s < 55296) : '.' ∉ firstStr ia s := by
  unfold firstStr
  split
  · intro h
    simp only [List.mem_singleton] at h
    have := congrArg Char.toNat h
    rw [charOf_toNat _ hs] at this
    have h0 : ('.' : Char).toNat = 46 := rfl
    omega
  · exact dot_not_digit s

theorem firstStr_inj {ia ia' : Bool} {s s' : Nat} (hs : 64 + s < 55296) (hs' : 64 + s' < 55296)
    (h : firstStr ia s = firstStr ia' s') : ia = ia' ∧ s = s' := by
  unfold firstStr at h
  cases ia <;> cases ia' <;> simp only [Bool.false_eq_true, if_false, if_true] at h
  · exact ⟨rfl, natStr_injective h⟩
  · have := natStr_digits s (Char.ofNat (64 + s')) (by rw [h]; simp)
    rw [charOf_toNat _ hs'] at this; omega
  · have := natStr_digits s' (Char.ofNat (64 + s)) (by rw [← h]; simp)
    rw [charOf_toNat _ hs] at this; omega
  · have := congrArg Char.toNat (List.cons.inj h).1
    rw [charOf_toNat _ hs, charOf_toNat _ hs'] at this
    exact ⟨rfl, by omega⟩

theorem render_inj {x y : SKey} (hx : 64 + x.2.1 < 55296) (hy : 64 + y.2.1 < 55296) (h : render x = render y) : x = y := by
  obtain ⟨a, b, c, d⟩ := x
  obtain ⟨a', b', c', d'⟩ := y
  simp only [render, List.append_assoc] at h hx hy
  have dotted : ∀ (c d : Nat), ((if c = 0 ∧ d = 0 then [] else '.' :: natStr c) ++ (if d = 0 then ([] : Str) else '.' :: natStr d) = [] ∧ c = 0 ∧ d = 0) ∨
      ∃ r, ((if c = 0 ∧ d = 0 then [] else '.' :: natStr c) ++ (if d = 0 then ([] : Str) else '.' :: natStr d)) = '.' :: r ∧
        r = natStr c ++ (if d = 0 then ([] : Str) else '.' :: natStr d) ∧ ¬ (c = 0 ∧ d = 0) := by
    intro c d
    by_cases h : c = 0 ∧ d = 0
    · left; simp [h.1, h.2]
    · right; rw [if_neg h]; exact ⟨_, rfl, rfl, h⟩
  have e := split_dot (firstStr_dot a b hx) (firstStr_dot a' b' hy) (by
      rcases dotted c d with h | ⟨r, h, _⟩
      · exact Or.inl h.1
      · exact Or.inr ⟨r, h⟩) (by
      rcases dotted c' d' with h | ⟨r, h, _⟩
      · exact Or.inl h.1
      · exact Or.inr ⟨r, h⟩) h
  obtain ⟨e1, e2⟩ := e
  obtain ⟨rfl, rfl⟩ := firstStr_inj hx hy e1
  have tail : ∀ d : Nat, (if d = 0 then ([] : Str) else '.' :: natStr d) = [] ∨ ∃ r, (if d = 0 then ([] : Str) else '.' :: natStr d) = '.' :: r := by
    intro d; by_cases h : d = 0
    · left; simp [h]
    · right; simp [h]
  rcases dotted c d with h | ⟨r, h, hr, hn⟩ <;> rcases dotted c' d' with h' | ⟨r', h', hr', hn'⟩
  · obtain ⟨_, rfl, rfl⟩ := h; obtain ⟨_, rfl, rfl⟩ := h'; rfl
  · rw [h.1, h'] at e2; cases e2
  · rw [h, h'.1] at e2; cases e2
  · rw [h, h'] at e2
    have e3 : r = r' := (List.cons.inj e2).2
    rw [hr, hr'] at e3
    obtain ⟨e4, e5⟩ := split_dot (dot_not_digit c) (dot_not_digit c') (tail d) (tail d') e3
    have := natStr_injective e4
    subst this
    by_cases hd : d = 0 <;> by_cases hd' : d' = 0
    · rw [hd, hd']
    · rw [if_pos hd, if_neg hd'] at e5; cases e5
    · rw [if_neg hd, if_pos hd'] at e5; cases e5
    · rw [if_neg hd, if_neg hd'] at e5
      rw [natStr_injective (List.cons.inj e5).2]

/-- What a numbered section does. -/
theorem updateSection_numbered {n n' : Num} {a a' : Attrs} {ia : Bool} (hn : a.numbered ≠ some false)
    (h : updateSection n a ia = some (n', a')) :
    (keyOf ia n).lt (keyOf ia n') ∧ a'.numbering = some (render (keyOf ia n')) ∧ n'.s1 ≤ n.s1 + 1 ∧
      a'.numbering = some (sectionNumberStr n' (a.level.getD 1) ia) ∧
      (1 ≤ a.level.getD 1 ∧ a.level.getD 1 ≤ 3) := by
  unfold updateSection at h
  rw [if_neg hn] at h
  generalize a.level.getD 1 = L at h
  simp only [] at h
  by_cases h1 : L = 1
  · subst h1
    simp only [if_true] at h
    injection h with h; injection h with h1 h2
    subst h1; subst h2
    simp [keyOf, SKey.lt, render, firstStr, sectionNumberStr, resetLower]
  · by_cases h2 : L = 2
    · subst h2
      simp only [h1, if_false, if_true] at h
      injection h with h; injection h with h1 h2
      subst h1; subst h2
      simp [keyOf, SKey.lt, render, firstStr, sectionNumberStr, resetLower]
    · by_cases h3 : L = 3
      · subst h3
        simp only [h1, h2, if_false, if_true] at h
        injection h with h; injection h with h1 h2
        subst h1; subst h2
        simp [keyOf, SKey.lt, render, firstStr, sectionNumberStr, resetLower]
      · simp [h1, h2, h3] at h

theorem check_key (n : Num) (a : Attrs) : (checkUpdateNumbering n a).1.s1 = n.s1 ∧
    (checkUpdateNumbering n a).1.s2 = n.s2 ∧ (checkUpdateNumbering n a).1.s3 = n.s3 := by
  unfold checkUpdateNumbering
  repeat' split
  all_goals exact ⟨rfl, rfl, rfl⟩

theorem updateSection_unnumbered {n n' : Num} {a a' : Attrs} {ia : Bool} (hn : a.numbered = some false)
    (h : updateSection n a ia = some (n', a')) : n' = n ∧ a' = a := by
  unfold updateSection at h
  rw [if_pos hn] at h
  injection h with h; injection h with h1 h2
  exact ⟨h1.symm, h2.symm⟩


/-- What one node does to the section counters. -/
theorem annEv_key (ev ev' : Ev) (ia ia' : Bool) (n n' : Num) (h : annEv ev ia n = some (ev', ia', n')) :
    (attrsOf isNumberedSection [ev] = [] ∧ attrsOf isNumberedSection [ev'] = [] ∧ attrsOf isAppendix [ev] = [] ∧
      keyOf ia' n' = keyOf ia n) ∨
    ((attrsOf isNumberedSection [ev]).length = 1 ∧ (attrsOf isNumberedSection [ev']).map (·.numbering) = [some (render (keyOf ia' n'))] ∧
      attrsOf isAppendix [ev] = [] ∧ (keyOf ia n).lt (keyOf ia' n') ∧ n'.s1 ≤ n.s1 + 1 ∧ ia' = ia) ∨
    (attrsOf isNumberedSection [ev] = [] ∧ attrsOf isNumberedSection [ev'] = [] ∧ (attrsOf isAppendix [ev]).length = 1 ∧
      keyOf ia' n' = (true, 0, 0, 0)) := by
  obtain ⟨node, e⟩ := ev
  cases node with
  | raw s =>
    simp only [annEv] at h
    injection h with h; injection h with h1 h; injection h with h2 h3
    subst h1; subst h2; subst h3
    left; simp [attrsOf]
  | lst s =>
    simp only [annEv] at h
    injection h with h; injection h with h1 h; injection h with h2 h3
    subst h1; subst h2; subst h3
    left; simp [attrsOf]
  | tok a t =>
    simp only [annEv] at h
    by_cases hap : a.type = .appendix
    · rw [if_pos hap] at h
      injection h with h; injection h with h1 h; injection h with h2 h3
      subst h1; subst h2; subst h3
      right; right
      simp [attrsOf, isNumberedSection, isAppendix, hap, keyOf]
    · rw [if_neg hap] at h
      have hk := check_key n a
      have hc := (check_core n a).1
      generalize checkUpdateNumbering n a = r at h hk hc
      obtain ⟨n1, a1⟩ := r
      simp only [] at h hk hc
      generalize hb : (if a1.type = .list then { a1 with depth := some (e + 1) } else a1) = b at h
      have hbt : b.type = a.type := by
        have : a1.type = a.type := congrArg (·.1) hc
        rw [← hb, ← this]; split <;> rfl
      have hbn : b.numbered = a.numbered := by
        have : a1.numbered = a.numbered := congrArg (·.2.2.1) hc
        rw [← hb, ← this]; split <;> rfl
      have hkey : keyOf ia n1 = keyOf ia n := by simp [keyOf, hk.1, hk.2.1, hk.2.2]
      split at h
      · rename_i hs
        cases hu : updateSection n1 b ia with
        | none => rw [hu] at h; cases h
        | some v =>
          obtain ⟨n3, a3⟩ := v
          rw [hu] at h
          simp only [] at h
          injection h with h; injection h with h1 h; injection h with h2 h3
          subst h1; subst h2
          have hcore := (updateSection_core hu).1
          have ht3 : a3.type = b.type := congrArg (·.1) hcore
          have hn3 : a3.numbered = b.numbered := congrArg (·.2.2.1) hcore
          have hkk : keyOf ia n' = keyOf ia n3 := by rw [← h3]; split <;> rfl
          have hs1 : n'.s1 = n3.s1 := congrArg (·.2.1) hkk
          by_cases hnum : b.numbered = some false
          · obtain ⟨rfl, rfl⟩ := updateSection_unnumbered hnum hu
            left
            refine ⟨?_, ?_, ?_, ?_⟩
            · simp [attrsOf, isNumberedSection, ← hbn, hnum]
            · simp [attrsOf, isNumberedSection, hnum]
            · simp [attrsOf, isAppendix, hap]
            · rw [hkk, hkey]
          · obtain ⟨u1, u2, u3, _, _⟩ := updateSection_numbered hnum hu
            right; left
            refine ⟨?_, ?_, ?_, ?_, ?_, rfl⟩
            · simp [attrsOf, isNumberedSection, ← hbn, hnum, ← hbt, hs]
            · simp [attrsOf, isNumberedSection, hn3, hnum, ht3, hs, u2, hkk]
            · simp [attrsOf, isAppendix, hap]
            · rw [← hkey, hkk]; exact u1
            · rw [hs1]; rw [hk.1] at u3; exact u3
      · rename_i hs
        left
        have hns : ¬ a.type = .section := by rw [← hbt]; exact hs
        have fin : ∀ b' : Attrs, b'.type = b.type → keyOf ia n1 = keyOf ia n →
            (attrsOf isNumberedSection [⟨.tok a t, e⟩] = [] ∧ attrsOf isNumberedSection [⟨.tok b' t, e⟩] = [] ∧
              attrsOf isAppendix [⟨.tok a t, e⟩] = []) := by
          intro b' hb' _
          have : ¬ b'.type = .section := by rw [hb']; exact hs
          simp [attrsOf, isNumberedSection, isAppendix, hap, hns, this]
        split at h
        · injection h with h; injection h with h1 h; injection h with h2 h3
          subst h1; subst h2; subst h3
          have := fin { b with text := none, hasList := true } rfl hkey
          exact ⟨this.1, this.2.1, this.2.2, hkey⟩
        · injection h with h; injection h with h1 h; injection h with h2 h3
          subst h1; subst h2; subst h3
          have := fin b rfl hkey
          exact ⟨this.1, this.2.1, this.2.2, hkey⟩

theorem attrsOf_cons (p : Attrs → Bool) (ev : Ev) (evs : List Ev) : attrsOf p (ev :: evs) = attrsOf p [ev] ++ attrsOf p evs := by
  rw [← attrsOf_append]; rfl

theorem ann_keys : ∀ (evs evs' : List Ev) (ia ia' : Bool) (n n' : Num), ann evs ia n = some (evs', ia', n') →
    (attrsOf isAppendix evs).length ≤ (if ia then 0 else 1) →
    ∃ ks : List SKey, (attrsOf isNumberedSection evs').map (·.numbering) = ks.map (fun k => some (render k)) ∧
      ks.Pairwise SKey.lt ∧ ∀ k ∈ ks, (keyOf ia n).lt k ∧ k.2.1 ≤ n.s1 + (attrsOf isNumberedSection evs).length
  | [], evs', ia, ia', n, n', h, _ => by
    simp only [ann] at h
    injection h with h; injection h with h1 h
    subst h1
    exact ⟨[], by simp [attrsOf], by simp, by simp⟩
  | ev :: evs, evs'', ia, ia', n, n', h, hc => by
    simp only [ann] at h
    cases h1 : annEv ev ia n with
    | none => rw [h1] at h; cases h
    | some v =>
      obtain ⟨ev', ia1, n1⟩ := v
      rw [h1] at h
      simp only [] at h
      cases h2 : ann evs ia1 n1 with
      | none => rw [h2] at h; cases h
      | some w =>
        obtain ⟨evs', ia2, n2⟩ := w
        rw [h2] at h
        simp only [] at h
        injection h with h; injection h with e1 h; injection h with e2 e3
        subst e1; subst e2; subst e3
        rw [attrsOf_cons, List.length_append] at hc
        simp only [attrsOf_cons _ ev evs, attrsOf_cons _ ev' evs', List.map_append, List.length_append]
        rcases annEv_key _ _ _ _ _ _ h1 with ⟨a1, a2, a3, a4⟩ | ⟨a1, a2, a3, a4, a5, rfl⟩ | ⟨a1, a2, a3, a4⟩
        · have hia : ia1 = ia := congrArg (·.1) a4
          have hs : n1.s1 = n.s1 := congrArg (·.2.1) a4
          obtain ⟨ks, k1, k2, k3⟩ := ann_keys evs evs' ia1 ia2 n1 n2 h2 (by rw [hia]; rw [a3] at hc; simpa using hc)
          refine ⟨ks, by rw [a2]; simpa using k1, k2, ?_⟩
          intro k hk
          rw [← a4]
          have := k3 k hk
          rw [hs] at this
          rw [a1]; simpa using this
        · obtain ⟨ks, k1, k2, k3⟩ := ann_keys evs evs' ia1 ia2 n1 n2 h2 (by rw [a3] at hc; simpa using hc)
          refine ⟨keyOf ia1 n1 :: ks, by rw [a2, k1]; rfl, List.pairwise_cons.2 ⟨fun k hk => (k3 k hk).1, k2⟩, ?_⟩
          intro k hk
          rcases List.mem_cons.1 hk with rfl | hk
          · refine ⟨a4, ?_⟩
            simp only [keyOf]; omega
          · have := k3 k hk
            exact ⟨SKey.lt_trans a4 this.1, by omega⟩
        · have hia : ia1 = true := congrArg (·.1) a4
          have hs : n1.s1 = 0 := congrArg (·.2.1) a4
          have hiaf : ia = false := by
            cases ia with
            | false => rfl
            | true => simp [a3] at hc
          obtain ⟨ks, k1, k2, k3⟩ := ann_keys evs evs' ia1 ia2 n1 n2 h2 (by
            rw [hia]; rw [a3, hiaf] at hc; simp only [Bool.false_eq_true, if_false, if_true] at hc ⊢; omega)
          refine ⟨ks, by rw [a2]; simpa using k1, k2, ?_⟩
          intro k hk
          have := k3 k hk
          rw [a4] at this
          refine ⟨?_, by rw [hs] at this; omega⟩
          left
          refine ⟨hiaf, ?_⟩
          have h3 := this.1
          unfold SKey.lt at h3
          simp at h3
          rw [← h3.1]

theorem keys_nodup {ks : List SKey} (h : ks.Pairwise SKey.lt) (hb : ∀ k ∈ ks, 64 + k.2.1 < 55296) :
    (ks.map (fun k => some (render k))).Nodup := by
  rw [List.nodup_iff_pairwise_ne, List.pairwise_map]
  refine List.Pairwise.imp_of_mem ?_ h
  intro x y hx hy hxy he
  have := render_inj (hb x hx) (hb y hy) (Option.some.inj he)
  subst this
  exact SKey.lt_irrefl hxy

end L2J
