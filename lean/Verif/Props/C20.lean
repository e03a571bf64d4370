import Verif.Lemmas.Doc
/-!
C20 Numbered headings of every level the parser emits can be built: building a document never fails because
of the level of a numbered section heading the parser can emit (part = 0 ... subsubsubsection = 4).
-/
namespace L2J
open Spec

mutual
/-- Every heading has a level, and every section that is not marked unnumbered has level 1, 2 or 3. -/
def Levels : Item → Prop
  | .tok a _ c =>
    (a.type = .section → ∃ l, a.level = some l ∧ (a.numbered = some false ∨ 1 ≤ l ∧ l ≤ 3)) ∧
    (a.type = .paragraph → ∃ l, a.level = some l) ∧ LevelsL c
  | _ => True
def LevelsL : List Item → Prop
  | [] => True
  | x :: xs => Levels x ∧ LevelsL xs
end

def Leveled (st : Org) : Prop := (∀ r ∈ st.secs, r.level.isSome) ∧ ∀ r ∈ st.pars, r.level.isSome

theorem popStack_isSome (l : Nat) : ∀ (s : List Ref), (∀ r ∈ s, r.level.isSome) →
    ∃ s', popStack (some l) s = some s' ∧ ∀ r ∈ s', r.level.isSome
  | [], _ => ⟨[], by simp [popStack], by simp⟩
  | r :: s, h => by
    obtain ⟨m, hm⟩ := Option.isSome_iff_exists.1 (h r (by simp))
    simp only [popStack, hm]
    by_cases hge : m ≥ l
    · rw [if_pos hge]; exact popStack_isSome l s (fun r hr => h r (by simp [hr]))
    · rw [if_neg hge]; exact ⟨_, rfl, h⟩

theorem check_attrs (n : Num) (a : Attrs) :
    (checkUpdateNumbering n a).2.level = a.level ∧ (checkUpdateNumbering n a).2.numbered = a.numbered := by
  have := (check_core n a).1
  exact ⟨congrArg (·.2.1) this, congrArg (·.2.2.1) this⟩

theorem updateSection_some (n : Num) (a : Attrs) (ia : Bool) (l : Nat) (hl : a.level = some l)
    (h : a.numbered = some false ∨ 1 ≤ l ∧ l ≤ 3) : (updateSection n a ia).isSome := by
  unfold updateSection
  by_cases hf : a.numbered = some false
  · rw [if_pos hf]; rfl
  · rw [if_neg hf]
    have h := h.resolve_left hf
    have : l = 1 ∨ l = 2 ∨ l = 3 := by omega
    simp only [hl, Option.getD_some]
    rcases this with rfl | rfl | rfl <;> rfl

theorem step_some {it : Item} (hl : Levels it) {d : Nat} {rec : Bool → Nat → Num → Option (List Item × Num)}
    (hrec : ∀ ia d n, (rec ia d n).isSome) {st : Org} (hst : Leveled st) :
    ∃ st', stepOrg it d rec st = some st' ∧ Leveled st' := by
  cases it with
  | raw s => exact ⟨{ st with out := appendAt st.target (.raw s) st.out }, by simp only [stepOrg], hst⟩
  | lst s => exact ⟨{ st with out := appendAt st.target (.lst s) st.out }, by simp only [stepOrg], hst⟩
  | tok a t c0 =>
    unfold Levels at hl
    simp only [stepOrg]
    by_cases hap : a.type = .appendix
    · rw [if_pos hap]
      obtain ⟨v, hv⟩ := Option.isSome_iff_exists.1 (hrec true d { st.num with s1 := 0, s2 := 0, s3 := 0 })
      obtain ⟨c, n⟩ := v
      rw [hv]
      exact ⟨_, rfl, by simp [Leveled]⟩
    · rw [if_neg hap]
      have hct := check_type st.num a
      obtain ⟨hc1, hc2⟩ := check_attrs st.num a
      generalize checkUpdateNumbering st.num a = r at hct hc1 hc2
      obtain ⟨n1, a1⟩ := r
      simp only [] at hct hc1 hc2 ⊢
      generalize hb : (if a1.type = .list then { a1 with depth := some (d + 1) } else a1) = b
      have hbt : b.type = a.type := by rw [← hb, ← hct]; split <;> rfl
      have hbl : b.level = a.level := by rw [← hb, ← hc1]; split <;> rfl
      have hbn : b.numbered = a.numbered := by rw [← hb, ← hc2]; split <;> rfl
      obtain ⟨v, hv⟩ := Option.isSome_iff_exists.1 (hrec st.inApp (if b.type = .list then d + 1 else d) n1)
      obtain ⟨c, n2⟩ := v
      rw [hv]
      simp only []
      by_cases hbib : b.type = .bibliography
      · rw [if_pos hbib]; exact ⟨_, rfl, by simp [Leveled]⟩
      · rw [if_neg hbib]
        by_cases hsec : b.type = .section
        · rw [if_pos hsec]
          obtain ⟨l, hl1, hl2⟩ := hl.1 (hbt ▸ hsec)
          obtain ⟨u, hu⟩ := Option.isSome_iff_exists.1 (updateSection_some n2 b st.inApp l (hbl.trans hl1) (by rw [hbn]; exact hl2))
          obtain ⟨n3, a3⟩ := u
          have h3 : a3.level = some l := by
            have := congrArg (·.2.1) (updateSection_core hu).1
            exact (show a3.level = b.level from this).trans (hbl.trans hl1)
          rw [hu]
          simp only [manageStack, h3]
          obtain ⟨s', hs1, hs2⟩ := popStack_isSome l st.secs hst.1
          rw [hs1]
          refine ⟨_, rfl, ?_, by simp⟩
          intro r hr
          rcases List.mem_cons.1 hr with rfl | hr
          · rfl
          · exact hs2 r hr
        · rw [if_neg hsec]
          by_cases hpar : b.type = .paragraph
          · rw [if_pos hpar]
            obtain ⟨l, hl1⟩ := hl.2.1 (hbt ▸ hpar)
            simp only [manageStack, hbl, hl1]
            obtain ⟨s', hs1, hs2⟩ := popStack_isSome l st.pars hst.2
            rw [hs1]
            refine ⟨_, rfl, hst.1, ?_⟩
            intro r hr
            rcases List.mem_cons.1 hr with rfl | hr
            · rfl
            · exact hs2 r hr
          · rw [if_neg hpar]
            exact ⟨_, rfl, hst⟩

mutual
theorem orgItem_some : ∀ (x : Item), Levels x → ∀ ia d n, (orgItem x ia d n).isSome
  | .raw s, _, _, _, _ => by simp [orgItem]
  | .lst s, _, _, _, _ => by simp [orgItem]
  | .tok a t c, h, ia, d, n => by
    unfold Levels at h
    obtain ⟨st', h1⟩ := orgLoop_some c h.2.2 d { inApp := ia, num := n } (by simp [Leveled])
    simp [orgItem, h1]
theorem orgLoop_some : ∀ (l : List Item), LevelsL l → ∀ d st, Leveled st → ∃ st', orgLoop l d st = some st'
  | [], _, _, st, _ => ⟨st, by simp [orgLoop]⟩
  | x :: xs, h, d, st, hst => by
    unfold LevelsL at h
    obtain ⟨st1, h1, h2⟩ := step_some h.1 (d := d) (rec := fun ia d n => orgItem x ia d n) (orgItem_some x h.1) hst
    obtain ⟨st', h3⟩ := orgLoop_some xs h.2 d st1 h2
    exact ⟨st', by simp only [orgLoop, h1, h3]⟩
end

theorem LevelsL_iff (l : List Item) : LevelsL l ↔ ∀ x ∈ l, Levels x := by
  induction l with
  | nil => simp [LevelsL]
  | cons x l ih => simp [LevelsL, ih]

theorem concat_levels (l : List Item) (h : LevelsL l) : LevelsL (concatText none l) := by
  rw [LevelsL_iff] at h ⊢
  exact concatText_forall Levels (by intro a t c s h; unfold Levels at h ⊢; exact h) l none h (by simp)

theorem procRows_levels : ∀ (l : List Item), LevelsL l → LevelsL (procRows l)
  | [], _ => by simp [procRows, LevelsL]
  | x :: xs, h => by
    unfold LevelsL at h
    simp only [procRows, LevelsL]
    refine ⟨?_, procRows_levels xs h.2⟩
    cases x with
    | lst r => simp [procRow, Levels]
    | raw s => simp [procRow, Levels]
    | tok a t c => simpa [procRow] using h.1

mutual
theorem procItem_levels : ∀ x, Levels x → Levels (procItem x)
  | .raw s, _ => by simp [procItem, Levels]
  | .lst l, _ => by simp [procItem, Levels]
  | .tok a t c, h => by
    unfold Levels at h
    simp only [procItem, Levels]
    refine ⟨h.1, h.2.1, ?_⟩
    by_cases ht : a.type = .tabular
    · rw [if_pos ht]; exact procRows_levels c h.2.2
    · rw [if_neg ht]; exact concat_levels _ (procItems_levels c h.2.2)
theorem procItems_levels : ∀ l, LevelsL l → LevelsL (procItems l)
  | [], _ => by simp [procItems, LevelsL]
  | x :: xs, h => by
    unfold LevelsL at h
    simp only [procItems, LevelsL]
    exact ⟨procItem_levels x h.1, procItems_levels xs h.2⟩
end

/-- Building succeeds for every document whose headings have levels and whose numbered sections have level
1, 2 or 3. Missing: levels 0 and 4 and above, for which the code fails (`C20_violated`). -/
theorem C20_build_succeeds_partial (st : Num) (doc : List Item) (h : LevelsL doc) : (organizeContent st doc).isSome := by
  obtain ⟨st', h1⟩ := orgLoop_some (processTokens doc) (concat_levels _ (procItems_levels doc h)) 0
    { inApp := false, num := st.clear } (by simp [Leveled])
  simp [organizeContent, organize, h1]

theorem orgLoop_append (l m : List Item) : ∀ (d : Nat) (st : Org),
    orgLoop (l ++ m) d st = (orgLoop l d st).bind (orgLoop m d) := by
  induction l with
  | nil => intro d st; simp [orgLoop]
  | cons x l ih =>
    intro d st
    simp only [List.cons_append, orgLoop]
    cases stepOrg x d (fun inApp d n => orgItem x inApp d n) st with
    | none => rfl
    | some st1 => exact ih d st1

theorem concat_nonText (x : Item) (hx : ¬ IsText x) : ∀ (l m : List Item) (cur : Option (Attrs × List Item × List Item)),
    ∃ l' m', concatText cur (l ++ x :: m) = l' ++ x :: m' := by
  intro l
  induction l with
  | nil =>
    intro m cur
    cases x with
    | raw s => cases cur with
      | none => exact ⟨[], _, by simp only [List.nil_append, concatText]; rfl⟩
      | some r => exact ⟨[.tok r.1 r.2.1 r.2.2], concatText none m, by simp [concatText]⟩
    | lst s => cases cur with
      | none => exact ⟨[], _, by simp only [List.nil_append, concatText]; rfl⟩
      | some r => exact ⟨[.tok r.1 r.2.1 r.2.2], concatText none m, by simp [concatText]⟩
    | tok a t c =>
      have ha : ¬ a.type = .text := hx
      cases cur with
      | none => exact ⟨[], concatText none m, by simp [concatText, ha]⟩
      | some r => exact ⟨[.tok r.1 r.2.1 r.2.2], concatText none m, by simp [concatText, ha]⟩
  | cons y l ih =>
    intro m cur
    cases y with
    | raw s =>
      obtain ⟨l', m', h⟩ := ih m none
      cases cur with
      | none => exact ⟨.raw s :: l', m', by simp [concatText, h]⟩
      | some r => exact ⟨.tok r.1 r.2.1 r.2.2 :: .raw s :: l', m', by simp [concatText, h]⟩
    | lst s =>
      obtain ⟨l', m', h⟩ := ih m none
      cases cur with
      | none => exact ⟨.lst s :: l', m', by simp [concatText, h]⟩
      | some r => exact ⟨.tok r.1 r.2.1 r.2.2 :: .lst s :: l', m', by simp [concatText, h]⟩
    | tok b t c =>
      by_cases hb : b.type = .text
      · cases cur with
        | none =>
          obtain ⟨l', m', h⟩ := ih m (some (b, t, c))
          exact ⟨l', m', by simp [concatText, hb, h]⟩
        | some r =>
          obtain ⟨a, t0, c0⟩ := r
          by_cases hst : a.styles = b.styles
          · simp only [List.cons_append, concatText, hb, if_true, hst]
            exact ih m _
          · obtain ⟨l', m', h⟩ := ih m (some (b, t, c))
            exact ⟨.tok a t0 c0 :: l', m', by simp [concatText, hb, hst, h]⟩
      · obtain ⟨l', m', h⟩ := ih m none
        cases cur with
        | none => exact ⟨.tok b t c :: l', m', by simp [concatText, hb, h]⟩
        | some r => exact ⟨.tok r.1 r.2.1 r.2.2 :: .tok b t c :: l', m', by simp [concatText, hb, h]⟩

/-- The property fails for the two levels the parser also emits: any document that contains, anywhere at
top level, a numbered section of level 0 (`\part`) or of level 4 and above (`\subsubsubsection`) cannot be
built at all — the builder raises `KeyError`. -/
theorem C20_violated (st : Num) (pre post : List Item) (a : Attrs) (title c : List Item) (l : Nat)
    (ht : a.type = .section) (hn : a.numbered ≠ some false) (hl : a.level = some l) (hbad : l = 0 ∨ 4 ≤ l) :
    organizeContent st (pre ++ .tok a title c :: post) = none := by
  unfold organizeContent organize processTokens
  rw [procItems_eq_map, List.map_append, List.map_cons]
  obtain ⟨l', m', he⟩ := concat_nonText (procItem (.tok a title c)) (by simp [procItem, IsText, ht])
    (pre.map procItem) (post.map procItem) none
  rw [he, orgLoop_append]
  cases h1 : orgLoop l' 0 { inApp := false, num := st.clear } with
  | none => rfl
  | some st1 =>
    simp only [Option.bind_some, orgLoop, procItem, stepOrg]
    rw [if_neg (by rw [ht]; decide)]
    have hct := check_type st1.num a
    obtain ⟨hc1, hc2⟩ := check_attrs st1.num a
    generalize checkUpdateNumbering st1.num a = r at hct hc1 hc2
    obtain ⟨n1, a1⟩ := r
    simp only [] at hct hc1 hc2 ⊢
    have hnl : ¬ a1.type = .list := by rw [hct, ht]; decide
    have hnb : ¬ a1.type = .bibliography := by rw [hct, ht]; decide
    have hse : a1.type = .section := by rw [hct, ht]
    rw [if_neg hnl]
    generalize orgItem _ _ _ _ = o
    cases o with
    | none => rfl
    | some v =>
      obtain ⟨c', n2⟩ := v
      simp only []
      rw [if_neg hnb, if_pos hse]
      have : updateSection n2 a1 st1.inApp = none := by
        unfold updateSection
        rw [if_neg (by rw [hc2]; exact hn)]
        simp only [hc1, hl, Option.getD_some]
        rw [if_neg (by omega), if_neg (by omega), if_neg (by omega)]
      rw [this]
      rfl

/-- Both hypotheses are met: a document with nested headings, and a `\part`. -/
example : LevelsL [.tok { type := .section, level := some 1, numbered := some true } [] [],
    .tok { type := .paragraph, level := some 1 } [] [], .tok { type := .section, level := some 4, numbered := some false } [] []] := by
  simp [LevelsL, Levels]
example : organizeContent {} [.tok { type := .section, level := some 0, numbered := some true } [] []] = none :=
  C20_violated {} [] [] _ _ _ 0 rfl (by decide) rfl (Or.inl rfl)

end L2J
