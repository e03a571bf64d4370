import Verif.Spec.AddToken
/-! C36: text coalescing in the parser. -/
namespace L2J.Parse
open Spec

variable {α : Type}

theorem plainText_iff (t : Tok α) : plainText t = true ↔ IsPlain t := by
  cases t with
  | text s st ls => cases st <;> simp [plainText, IsPlain]
  | other => simp [plainText, IsPlain]

/-- The space that is put between the last token and the new one. -/
def _root_.L2J.Spec.gapOf (t : TokIn α) (toks : List (Tok α)) (space : Bool) : List (Item α) :=
  match t, toks.getLast? with
  | .str (_ :: _), some (.text s0 none _) => if space ∧ s0.getLast? ≠ some ' ' then [.chr ' '] else []
  | .dict (.text _ none _), some (.text s0 none _) => if space ∧ s0.getLast? ≠ some ' ' then [.chr ' '] else []
  | _, _ => []

theorem reading_append (a b : List (Tok α)) : reading (a ++ b) = reading a ++ reading b := by simp [reading]

theorem endsWith_space (s : Str) : endsWith s [' '] = true ↔ s.getLast? = some ' ' := by
  unfold endsWith
  rw [List.isSuffixOf_iff_suffix]
  constructor
  · rintro ⟨t, rfl⟩; simp
  · intro h
    obtain ⟨t, ht⟩ := List.getLast?_eq_some_iff.1 h
    exact ⟨t, ht.symm⟩

theorem getLast_split {toks : List (Tok α)} {x : Tok α} (h : toks.getLast? = some x) : toks = toks.dropLast ++ [x] := by
  obtain ⟨t, ht⟩ := List.getLast?_eq_some_iff.1 h
  rw [ht]; simp

/-- Adding an unstyled text. -/
theorem addDict_plain (s : Str) (ls : List Str) (toks : List (Tok α)) (space : Bool) :
    (∃ s0 ls0, toks.getLast? = some (.text s0 none ls0) ∧
      addDict (.text s none ls) toks space = some (toks.dropLast ++ [.text ((if space ∧ s0.getLast? ≠ some ' ' then s0 ++ [' '] else s0) ++ s) none ls0])) ∨
    ((∀ x, toks.getLast? = some x → ¬ IsPlain x) ∧ addDict (.text s none ls) toks space = some (toks ++ [.text s none ls])) := by
  unfold addDict
  cases hl : toks.getLast? with
  | none => right; exact ⟨by simp, rfl⟩
  | some x =>
    simp only
    by_cases hp : plainText x = true
    · left
      rw [if_pos hp]
      cases x with
      | text s0 st ls0 =>
        cases st with
        | none =>
          refine ⟨s0, ls0, rfl, ?_⟩
          simp only [mergeText]
          have : (space && !endsWith s0 [' ']) = true ↔ (space = true ∧ s0.getLast? ≠ some ' ') := by
            rw [Bool.and_eq_true, Bool.not_eq_true', ← Bool.not_eq_true, endsWith_space]
          by_cases h : space = true ∧ s0.getLast? ≠ some ' '
          · rw [if_pos (this.2 h), if_pos h]
          · rw [if_neg (fun h' => h (this.1 h')), if_neg h]
        | some st => simp [plainText] at hp
      | other => simp [plainText] at hp
    · right
      rw [if_neg hp]
      refine ⟨?_, rfl⟩
      intro y hy
      injection hy with hy
      rw [← hy, ← plainText_iff]
      exact hp

/-- C36: no text is lost, added or reordered, apart from the requested separating space, and nothing else changes;
only empty groups, environments and lists are dropped. -/
theorem C36_reading (t : TokIn α) (toks out : List (Tok α)) (space : Bool) (h : addToken t toks space = some out) :
    reading out = reading toks ++ Spec.gapOf t toks space ++
      (match t with
       | .dict t => open Classical in if EmptyContainer t then [] else readTok t
       | t => reading (inTokens t)) := by
  have plain : ∀ (s : Str) (ls : List Str) (g : List (Item α)),
      g = (match toks.getLast? with
        | some (.text s0 none _) => if space ∧ s0.getLast? ≠ some ' ' then [.chr ' '] else []
        | _ => []) →
      addDict (.text s none ls) toks space = some out → reading out = reading toks ++ g ++ s.map .chr := by
    intro s ls g hg h
    rcases addDict_plain s ls toks space with ⟨s0, ls0, h1, h2⟩ | ⟨h1, h2⟩
    · rw [h2] at h
      injection h with h
      subst h
      rw [h1] at hg
      simp only at hg
      conv => rhs; rw [getLast_split h1]
      rw [reading_append, reading_append]
      subst hg
      by_cases hc : space = true ∧ s0.getLast? ≠ some ' '
      · simp only [if_pos hc]; simp [reading, readTok]
      · simp only [if_neg hc]; simp [reading, readTok]
    · rw [h2] at h
      injection h with h
      subst h
      have : g = [] := by
        rw [hg]
        split
        · rename_i s0 _ hl
          exact absurd trivial (h1 _ hl)
        · rfl
      rw [this, reading_append]
      simp [reading, readTok]
  cases t with
  | none =>
    simp only [addToken] at h
    injection h with h
    subst h
    simp [reading, inTokens, Spec.gapOf]
  | str s =>
    cases s with
    | nil =>
      simp only [addToken, List.isEmpty_nil, if_true] at h
      injection h with h
      subst h
      simp [reading, inTokens, readTok, Spec.gapOf]
    | cons c cs =>
      simp only [addToken, List.isEmpty_cons, Bool.false_eq_true, if_false] at h
      have := plain (c :: cs) [] (Spec.gapOf (.str (c :: cs)) toks space) (by
        unfold Spec.gapOf
        cases hl : toks.getLast? with
        | none => rfl
        | some x => cases x with
          | text s0 st ls0 => cases st <;> rfl
          | other => rfl) h
      rw [this]
      simp [reading, inTokens, readTok]
  | list l =>
    simp only [addToken] at h
    injection h with h
    subst h
    simp [reading, inTokens, Spec.gapOf]
  | dict t =>
    simp only [addToken] at h
    cases t with
    | text s st ls =>
      cases st with
      | none =>
        have := plain s ls (Spec.gapOf (.dict (.text s none ls)) toks space) (by
          unfold Spec.gapOf
          cases hl : toks.getLast? with
          | none => rfl
          | some x => cases x with
            | text s0 st ls0 => cases st <;> rfl
            | other => rfl) h
        rw [this]
        simp [EmptyContainer, readTok]
      | some st =>
        simp only [addDict] at h
        injection h with h
        subst h
        simp [reading, Spec.gapOf, EmptyContainer, readTok]
    | other ty c ls r =>
      have hg : Spec.gapOf (.dict (.other ty c ls r)) toks space = [] := by
        unfold Spec.gapOf; cases toks.getLast? <;> rfl
      rw [hg]
      simp only [addDict] at h
      have hec : emptyContainer ty = true ↔ (ty = "group".toList ∨ ty = "environment".toList ∨ ty = "list".toList) := by
        simp [emptyContainer, or_assoc]
      by_cases he : emptyContainer ty = true
      · rw [if_pos he] at h
        cases hc : c.len with
        | none => rw [hc] at h; cases h
        | some n =>
          rw [hc] at h
          simp only at h
          by_cases hn : n < 1
          · rw [if_pos hn] at h
            injection h with h
            subst h
            have : EmptyContainer (.other ty c ls r : Tok α) := ⟨hec.1 he, by rw [hc]; congr 1; omega⟩
            simp [this]
          · rw [if_neg hn] at h
            injection h with h
            subst h
            have : ¬ EmptyContainer (.other ty c ls r : Tok α) := by
              rintro ⟨_, h'⟩
              rw [hc] at h'
              injection h' with h'
              omega
            simp [this, reading]
      · rw [if_neg he] at h
        injection h with h
        subst h
        have : ¬ EmptyContainer (.other ty c ls r : Tok α) := by
          rintro ⟨h', _⟩
          exact he (hec.2 h')
        simp [this, reading]

/-- An operation that does not hand over a ready-made list. -/
def _root_.L2J.Spec.Single : Op α → Prop
  | .add (.list _) _ => False
  | _ => True

theorem noAdj_snoc {toks : List (Tok α)} {x : Tok α} (h : NoAdjacentText toks)
    (hx : ∀ y, toks.getLast? = some y → ¬ (IsPlain y ∧ IsPlain x)) : NoAdjacentText (toks ++ [x]) := by
  intro a u v b e
  rcases List.eq_nil_or_concat b with rfl | ⟨b', z, rfl⟩
  · have e' : toks ++ [x] = (a ++ [u]) ++ [v] := by simpa using e
    have := List.append_inj' e' rfl
    obtain ⟨h1, h2⟩ := this
    simp at h2
    subst h2
    exact hx u (by rw [h1]; simp)
  · have e' : toks ++ [x] = (a ++ u :: v :: b') ++ [z] := by simpa using e
    have := List.append_inj' e' rfl
    exact h a u v b' this.1

theorem noAdj_dropLast {toks : List (Tok α)} (h : NoAdjacentText toks) : NoAdjacentText toks.dropLast := by
  intro a u v b e
  rcases List.eq_nil_or_concat toks with rfl | ⟨ts, z, rfl⟩
  · simp at e
  · rw [List.concat_eq_append, List.dropLast_concat] at e
    exact h a u v (b ++ [z]) (by rw [e]; simp)

theorem noAdj_replace {toks : List (Tok α)} {x y : Tok α} (h : NoAdjacentText toks) (hl : toks.getLast? = some x)
    (hxy : IsPlain y → IsPlain x) : NoAdjacentText (toks.dropLast ++ [y]) := by
  refine noAdj_snoc (noAdj_dropLast h) ?_
  intro z hz hp
  have e := getLast_split hl
  have e2 := getLast_split hz
  rw [e2] at e
  exact h toks.dropLast.dropLast z x [] (by simpa using e) ⟨hp.1, hxy hp.2⟩

theorem isPlain_addLabel (t : Tok α) (l : Str) : IsPlain (t.addLabel l) ↔ IsPlain t := by
  cases t with
  | text s st ls => cases st <;> simp [Tok.addLabel, IsPlain]
  | other => simp [Tok.addLabel, IsPlain]

theorem addDict_noAdj (t : Tok α) (toks out : List (Tok α)) (space : Bool) (h : NoAdjacentText toks)
    (ho : addDict t toks space = some out) : NoAdjacentText out := by
  cases t with
  | text s st ls =>
    cases st with
    | none =>
      rcases addDict_plain s ls toks space with ⟨s0, ls0, h1, h2⟩ | ⟨h1, h2⟩
      · rw [h2] at ho; injection ho with ho; subst ho
        exact noAdj_replace h h1 (fun _ => trivial)
      · rw [h2] at ho; injection ho with ho; subst ho
        exact noAdj_snoc h (fun y hy hp => h1 y hy hp.1)
    | some st =>
      simp only [addDict] at ho; injection ho with ho; subst ho
      exact noAdj_snoc h (fun y hy hp => hp.2)
  | other ty c ls r =>
    have key : NoAdjacentText (toks ++ [.other ty c ls r]) := noAdj_snoc h (fun y hy hp => hp.2)
    simp only [addDict] at ho
    split at ho
    · split at ho
      · cases ho
      · split at ho
        · injection ho with ho; subst ho; exact h
        · injection ho with ho; subst ho; exact key
    · injection ho with ho; subst ho; exact key

theorem step_noAdj (op : Op α) (st st' : St α) (hop : Spec.Single op) (h : NoAdjacentText st.2) (hs : step op st = some st') :
    NoAdjacentText st'.2 := by
  obtain ⟨cur, toks⟩ := st
  cases op with
  | add t sp =>
    simp only [step, Option.map_eq_some_iff] at hs
    obtain ⟨out, ho, rfl⟩ := hs
    cases t with
    | none => simp only [addToken] at ho; injection ho with ho; subst ho; exact h
    | str s =>
      simp only [addToken] at ho
      split at ho
      · injection ho with ho; subst ho; exact h
      · exact addDict_noAdj _ _ _ _ h ho
    | dict t => exact addDict_noAdj _ _ _ _ h ho
    | list l => exact absurd hop (by simp [Spec.Single])
  | label l =>
    simp only [step, handleLabel] at hs
    cases cur with
    | some e => simp only at hs; injection hs with hs; subst hs; exact h
    | none =>
      simp only at hs
      cases hl : toks.getLast? with
      | none =>
        rw [hl] at hs
        simp only [Option.map_eq_some_iff] at hs
        obtain ⟨out, ho, rfl⟩ := hs
        simp only [addToken] at ho
        exact addDict_noAdj _ _ _ _ h ho
      | some last =>
        rw [hl] at hs
        simp only at hs
        injection hs with hs; subst hs
        exact noAdj_replace h hl (isPlain_addLabel last l).1

/-- C36: after any history of additions of single tokens and labels no two unstyled texts are neighbours. -/
theorem C36_no_adjacent_text_partial (ops : List (Op α)) (hops : ∀ op ∈ ops, Spec.Single op) (cur : Option (Tok α)) (st : St α)
    (h : run ops (cur, []) = some st) : NoAdjacentText st.2 := by
  have key : ∀ (ops : List (Op α)) (s0 st : St α), (∀ op ∈ ops, Spec.Single op) → NoAdjacentText s0.2 → run ops s0 = some st →
      NoAdjacentText st.2 := by
    intro ops
    induction ops with
    | nil => intro s0 st _ h0 h; simp only [run] at h; injection h with h; subst h; exact h0
    | cons op ops ih =>
      intro s0 st hops h0 h
      simp only [run, Option.bind_eq_some_iff] at h
      obtain ⟨s1, h1, h2⟩ := h
      exact ih s1 st (fun o ho => hops o (by simp [ho])) (step_noAdj op s0 s1 (hops op (by simp)) h0 h1) h2
  refine key ops _ st hops ?_ h
  intro a x y b e
  simp at e

theorem not_empty_addLabel (t : Tok α) (l : Str) : EmptyContainer (t.addLabel l) ↔ EmptyContainer t := by
  cases t <;> simp [Tok.addLabel, EmptyContainer]

theorem addDict_containers (t : Tok α) (toks out : List (Tok α)) (space : Bool) (h : ∀ x ∈ toks, ¬ EmptyContainer x)
    (ho : addDict t toks space = some out) : ∀ x ∈ out, ¬ EmptyContainer x := by
  have snoc : ∀ y : Tok α, ¬ EmptyContainer y → ∀ x ∈ toks ++ [y], ¬ EmptyContainer x := by
    intro y hy x hx
    rcases List.mem_append.1 hx with hx | hx
    · exact h x hx
    · simp at hx; subst hx; exact hy
  cases t with
  | text s st ls =>
    cases st with
    | none =>
      rcases addDict_plain s ls toks space with ⟨s0, ls0, h1, h2⟩ | ⟨h1, h2⟩
      · rw [h2] at ho; injection ho with ho; subst ho
        intro x hx
        rcases List.mem_append.1 hx with hx | hx
        · exact h x (List.dropLast_subset _ hx)
        · simp at hx; subst hx; simp [EmptyContainer]
      · rw [h2] at ho; injection ho with ho; subst ho
        exact snoc _ (by simp [EmptyContainer])
    | some st => simp only [addDict] at ho; injection ho with ho; subst ho; exact snoc _ (by simp [EmptyContainer])
  | other ty c ls r =>
    have hec : emptyContainer ty = true ↔ (ty = "group".toList ∨ ty = "environment".toList ∨ ty = "list".toList) := by
      simp [emptyContainer, or_assoc]
    simp only [addDict] at ho
    split at ho
    · split at ho
      · cases ho
      · rename_i n hn
        split at ho
        · injection ho with ho; subst ho; exact h
        · injection ho with ho; subst ho
          refine snoc _ ?_
          rintro ⟨_, h'⟩
          rw [hn] at h'
          injection h' with h'
          omega
    · rename_i he
      injection ho with ho; subst ho
      exact snoc _ (fun h' => he (hec.2 h'.1))

/-- C36: after any history, whatever lists are handed over as long as they contain no empty groups, environments or
lists themselves, none is recorded. -/
theorem C36_no_empty_containers (ops : List (Op α)) (cur : Option (Tok α)) (st : St α)
    (hops : ∀ l sp, .add (.list l) sp ∈ ops → ∀ x ∈ l, ¬ EmptyContainer x)
    (h : run ops (cur, []) = some st) : ∀ x ∈ st.2, ¬ EmptyContainer x := by
  have key : ∀ (ops : List (Op α)) (s0 st : St α), (∀ l sp, .add (.list l) sp ∈ ops → ∀ x ∈ l, ¬ EmptyContainer x) →
      (∀ x ∈ s0.2, ¬ EmptyContainer x) → run ops s0 = some st → ∀ x ∈ st.2, ¬ EmptyContainer x := by
    intro ops
    induction ops with
    | nil => intro s0 st _ h0 h; simp only [run] at h; injection h with h; subst h; exact h0
    | cons op ops ih =>
      intro s0 st hops h0 h
      simp only [run, Option.bind_eq_some_iff] at h
      obtain ⟨s1, h1, h2⟩ := h
      refine ih s1 st (fun l sp hm => hops l sp (by simp [hm])) ?_ h2
      obtain ⟨cur, toks⟩ := s0
      cases op with
      | add t sp =>
        simp only [step, Option.map_eq_some_iff] at h1
        obtain ⟨out, ho, rfl⟩ := h1
        cases t with
        | none => simp only [addToken] at ho; injection ho with ho; subst ho; exact h0
        | str s =>
          simp only [addToken] at ho
          split at ho
          · injection ho with ho; subst ho; exact h0
          · exact addDict_containers _ _ _ _ h0 ho
        | dict t => exact addDict_containers _ _ _ _ h0 ho
        | list l =>
          simp only [addToken] at ho; injection ho with ho; subst ho
          intro x hx
          rcases List.mem_append.1 hx with hx | hx
          · exact h0 x hx
          · exact hops l sp (by simp) x hx
      | label l =>
        simp only [step, handleLabel] at h1
        cases cur with
        | some e => simp only at h1; injection h1 with h1; subst h1; exact h0
        | none =>
          simp only at h1
          cases hl : toks.getLast? with
          | none =>
            rw [hl] at h1
            simp only [Option.map_eq_some_iff] at h1
            obtain ⟨out, ho, rfl⟩ := h1
            simp only [addToken] at ho
            exact addDict_containers _ _ _ _ h0 ho
          | some last =>
            rw [hl] at h1
            simp only at h1
            injection h1 with h1; subst h1
            intro x hx
            rcases List.mem_append.1 hx with hx | hx
            · exact h0 x (List.dropLast_subset _ hx)
            · simp at hx
              subst hx
              rw [not_empty_addLabel]
              exact h0 last (List.mem_of_getLast? hl)
  exact key ops _ st hops (by simp) h

/-- Adding never fails for a token that has a content. -/
theorem C36_total (t : Tok α) (toks : List (Tok α)) (space : Bool) (h : ∀ ty ls r, t ≠ .other ty .absent ls r) :
    (addToken (.dict t) toks space).isSome := by
  simp only [addToken]
  cases t with
  | text s st ls =>
    cases st with
    | none =>
      rcases addDict_plain s ls toks space with ⟨s0, ls0, h1, h2⟩ | ⟨h1, h2⟩
      · rw [h2]; rfl
      · rw [h2]; rfl
    | some st => rfl
  | other ty c ls r =>
    simp only [addDict]
    split
    · split
      · rename_i hc
        cases c with
        | str s => simp [Content.len] at hc
        | toks l => simp [Content.len] at hc
        | absent => exact absurd rfl (h ty ls r)
      · split <;> rfl
    · rfl

/-- C36 violated: tokens of an included file are appended as a list (tex_parser.py:373-374), without looking at the
text before: for any two texts two unstyled text tokens are neighbours. -/
theorem C36_violated_list (s t : Str) (hs : s ≠ []) :
    ∃ st, run (α := α) [.add (.str s) false, .add (.list [.text t none []]) false] (none, []) = some st ∧ ¬ NoAdjacentText st.2 := by
  refine ⟨(none, [.text s none [], .text t none []]), ?_, fun h => h [] _ _ [] rfl ⟨trivial, trivial⟩⟩
  cases s with
  | nil => exact absurd rfl hs
  | cons c s => rfl

/-! A history with merging, a separating space, a styled text and a dropped group. -/
example : run (α := Unit) [.add (.str "a".toList) false, .add (.str "b".toList) true,
      .add (.dict (.other "group".toList (.toks []) [] [])) false, .add (.dict (.text "c".toList (some []) [])) false,
      .add (.dict (.text "d".toList none [])) false] (none, []) =
    some (none, [.text "a b".toList none [], .text "c".toList (some []) [], .text "d".toList none []]) := by
  rfl

end L2J.Parse
