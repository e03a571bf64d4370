import Verif.Spec.Flatten
import Verif.Lemmas.NatStr
import Verif.Lemmas.Preproc
import Verif.Props.C29
/-! C44: references in tables. -/
namespace L2J.Flat
open Spec

variable {β : Type}

theorem refKey_eq (n : Nat) : refKey n = '`' :: '|' :: ("REF_".toList ++ (natStr n ++ ['|', '`'])) := by
  simp [refKey]

theorem refKey_core (n : Nat) (x : Str) : ∃ y, refKey n ++ x = '`' :: ("|REF_".toList ++ y) :=
  ⟨natStr n ++ ("|`".toList ++ x), by simp [refKey]⟩

theorem split_at {v : Char} : ∀ (a b x y : Str), v ∉ a → v ∉ b → a ++ v :: x = b ++ v :: y → a = b := by
  intro a
  induction a with
  | nil =>
    intro b x y _ hb h
    cases b with
    | nil => rfl
    | cons c b => simp at h; rw [h.1] at hb; simp at hb
  | cons c a ih =>
    intro b x y ha hb h
    cases b with
    | nil => simp at h; rw [h.1] at ha; simp at ha
    | cons d b =>
      simp at h
      rw [h.1, ih b x y (fun h' => ha (by simp [h'])) (fun h' => hb (by simp [h'])) h.2]

theorem refKey_inj' {i j : Nat} {x y : Str} (h : refKey i ++ x = refKey j ++ y) : i = j := by
  simp only [refKey, List.append_assoc, List.append_cancel_left_eq] at h
  exact natStr_injective (split_at _ _ _ _ (notDigit (by decide)) (notDigit (by decide)) h)

theorem refKey_inj {i j : Nat} (h : refKey i = refKey j) : i = j :=
  refKey_inj' (x := []) (y := []) (by rw [h])

theorem prefix_stop {v : Char} : ∀ {p w x : Str}, v ∉ p → p <+: w ++ v :: x → p <+: w := by
  intro p
  induction p with
  | nil => intros; exact List.nil_prefix
  | cons c p ih =>
    intro w x hv h
    cases w with
    | nil =>
      rw [List.nil_append, List.cons_prefix_cons] at h
      exact absurd h.1 (fun e => hv (by simp [e]))
    | cons d w =>
      rw [List.cons_append, List.cons_prefix_cons] at h
      rw [List.cons_prefix_cons]
      exact ⟨h.1, ih (fun h' => hv (by simp [h'])) h.2⟩

/-- The text of a cell: words and placeholders. -/
def cellText (l : List (Str × Nat)) (last : Str) : Str := weave (l.map fun e => (e.1, refKey e.2)) last

@[simp] theorem cellText_nil (last : Str) : cellText [] last = last := rfl
@[simp] theorem cellText_cons (w : Str) (i : Nat) (l : List (Str × Nat)) (last : Str) :
    cellText ((w, i) :: l) last = w ++ (refKey i ++ cellText l last) := by
  simp [cellText, weave]

/-- All words are clean. -/
def CleanWords (l : List (Str × Nat)) (last : Str) : Prop := (∀ e ∈ l, ¬ Confusing e.1) ∧ ¬ Confusing last

theorem core_prefix_clean {w x : Str} (h : ¬ Confusing w) : ¬ "|REF_".toList <+: w ++ '`' :: x := by
  intro hp
  obtain ⟨t, ht⟩ := prefix_stop (by decide) hp
  exact h ⟨[], t, by rw [← ht]; rfl⟩

theorem core_not_start {l : List (Str × Nat)} {last : Str} (h : CleanWords l last) :
    ¬ "|REF_".toList <+: cellText l last := by
  cases l with
  | nil => rintro ⟨t, ht⟩; exact h.2 ⟨[], t, by rw [← cellText_nil last, ← ht]; rfl⟩
  | cons e l =>
    obtain ⟨w, i⟩ := e
    rw [cellText_cons, refKey_eq]
    exact core_prefix_clean (h.1 (w, i) (by simp))

/-- Occurrences of a placeholder are where it was written. -/
theorem occurrence {l : List (Str × Nat)} {last : Str} (h : CleanWords l last) {j k : Nat}
    (hp : refKey j <+: (cellText l last).drop k) : ∃ l1 w l2, l = l1 ++ (w, j) :: l2 ∧ k = (cellText l1 w).length := by
  induction l generalizing k with
  | nil =>
    rw [cellText_nil] at hp
    obtain ⟨t, ht⟩ := hp
    obtain ⟨y, hy⟩ := refKey_core j t
    rw [hy] at ht
    refine absurd ⟨last.take k ++ ['`'], y, ?_⟩ h.2
    rw [List.append_assoc, List.append_assoc]
    rw [show ['`'] ++ ("|REF_".toList ++ y) = '`' :: ("|REF_".toList ++ y) from rfl, ht, List.take_append_drop]
  | cons e l ih =>
    obtain ⟨w, i⟩ := e
    have hl : CleanWords l last := ⟨fun e he => h.1 e (by simp [he]), h.2⟩
    rw [cellText_cons] at hp
    rcases Nat.lt_trichotomy k w.length with hk | hk | hk
    · rw [List.drop_append_of_le_length (by omega)] at hp
      obtain ⟨c, w', hw⟩ : ∃ c w', w.drop k = c :: w' := by
        cases hw : w.drop k with
        | nil => have := List.drop_eq_nil_iff.1 hw; omega
        | cons c w' => exact ⟨c, w', rfl⟩
      rw [hw, List.cons_append] at hp
      obtain ⟨t, ht⟩ := hp
      obtain ⟨y, hy⟩ := refKey_core j t
      rw [hy] at ht
      have hc : ¬ Confusing w' := by
        rintro ⟨a, b, hab⟩
        exact h.1 (w, i) (by simp) ⟨w.take k ++ c :: a, b, by
          conv => lhs; rw [← List.take_append_drop k w, hw, hab]
          simp⟩
      rw [refKey_eq i] at ht
      refine absurd ⟨y, ?_⟩ (core_prefix_clean (x := '|' :: ("REF_".toList ++ (natStr i ++ ['|', '`'])) ++ cellText l last) hc)
      exact (List.cons.inj ht).2
    · subst hk
      rw [List.drop_left] at hp
      obtain ⟨t, ht⟩ := hp
      have := refKey_inj' ht
      subst this
      exact ⟨[], w, l, rfl, by simp⟩
    · obtain ⟨m, rfl⟩ : ∃ m, k = w.length + m := ⟨k - w.length, by omega⟩
      rw [List.drop_append, List.drop_of_length_le (by omega), List.nil_append, Nat.add_sub_cancel_left] at hp
      by_cases hm : m < (refKey i).length
      · exfalso
        rw [List.drop_append_of_le_length (by omega)] at hp
        have hlen : (refKey i).length = ("`|REF_".toList ++ natStr i ++ "|".toList).length + 1 := by simp [refKey]
        have hsplit : refKey i = ("`|REF_".toList ++ natStr i ++ "|".toList) ++ ['`'] := by simp [refKey]
        by_cases hm2 : m = ("`|REF_".toList ++ natStr i ++ "|".toList).length
        · rw [hsplit, hm2, List.drop_left] at hp
          obtain ⟨t, ht⟩ := hp
          obtain ⟨y, hy⟩ := refKey_core j t
          rw [hy] at ht
          exact core_not_start hl ⟨y, (List.cons.inj ht).2⟩
        · -- the first character would be a backtick inside the key
          obtain ⟨m, rfl⟩ : ∃ n, m = n + 1 := ⟨m - 1, by omega⟩
          have h1 : (refKey i ++ cellText l last)[m + 1]? = some '`' := by
            obtain ⟨t, ht⟩ := hp
            have : (refKey i).drop (m + 1) ++ cellText l last = (refKey i ++ cellText l last).drop (m + 1) := by
              rw [List.drop_append_of_le_length (by omega)]
            rw [this, refKey_eq j] at ht
            have h2 : ((refKey i ++ cellText l last).drop (m + 1))[0]? = some '`' := by rw [← ht]; rfl
            rw [List.getElem?_drop] at h2
            exact h2
          rw [List.getElem?_append_left hm, hsplit, List.getElem?_append_left (by omega)] at h1
          have h2 : ("|REF_".toList ++ natStr i ++ "|".toList)[m]? = some '`' := h1
          have := List.mem_of_getElem? h2
          simp only [List.mem_append] at this
          rcases this with (h3 | h3) | h3
          · revert h3; decide
          · exact notDigit (by decide) h3
          · revert h3; decide
      · obtain ⟨m, rfl⟩ : ∃ n, m = (refKey i).length + n := ⟨m - (refKey i).length, by omega⟩
        rw [List.drop_append, List.drop_of_length_le (by omega), List.nil_append, Nat.add_sub_cancel_left] at hp
        obtain ⟨l1, w1, l2, h1, h2⟩ := ih hl hp
        refine ⟨(w, i) :: l1, w1, l2, by rw [h1]; rfl, ?_⟩
        rw [cellText_cons, List.length_append, List.length_append, h2]

theorem findSub_spec (sub : Str) (hs : sub ≠ []) : ∀ (s : Str) (k : Nat), sub <+: s.drop k →
    (∀ k' < k, ¬ sub <+: s.drop k') → findSub sub s = some k := by
  intro s
  induction s with
  | nil => intro k h _; simp at h; exact absurd h hs
  | cons c s ih =>
    intro k h hmin
    unfold findSub
    cases k with
    | zero => rw [if_pos (by simpa using h)]
    | succ k =>
      rw [if_neg (by have := hmin 0 (by omega); simpa using this)]
      rw [ih k (by simpa using h) (fun k' hk' => by simpa using hmin (k' + 1) (by omega))]
      rfl

theorem refKey_ne_nil (n : Nat) : refKey n ≠ [] := by rw [refKey_eq]; simp

theorem findSub_none {l : List (Str × Nat)} {last : Str} (h : CleanWords l last) {j : Nat} (hj : ∀ e ∈ l, e.2 ≠ j) :
    findSub (refKey j) (cellText l last) = none := by
  cases hf : findSub (refKey j) (cellText l last) with
  | none => rfl
  | some k =>
    obtain ⟨a, b, hab⟩ := (findSub_contains _ (refKey_ne_nil j) _).1 (by rw [hf]; rfl)
    have : refKey j <+: (cellText l last).drop a.length := by
      rw [hab, List.append_assoc, List.drop_left]; exact List.prefix_append _ _
    obtain ⟨l1, w, l2, h1, _⟩ := occurrence h this
    exact absurd rfl (hj (w, j) (by rw [h1]; simp))

theorem findSub_first {l : List (Str × Nat)} {w last : Str} {j : Nat} (h : CleanWords ((w, j) :: l) last)
    : findSub (refKey j) (cellText ((w, j) :: l) last) = some w.length := by
  apply findSub_spec _ (refKey_ne_nil j)
  · rw [cellText_cons, List.drop_left]; exact List.prefix_append _ _
  · intro k hk hp
    obtain ⟨l1, w1, l2, h1, h2⟩ := occurrence h hp
    cases l1 with
    | nil => simp only [List.nil_append, List.cons.injEq, Prod.mk.injEq] at h1; rw [← h1.1.1] at h2; simp at h2; omega
    | cons e l1 =>
      obtain ⟨we, ie⟩ := e
      simp only [List.cons_append, List.cons.injEq, Prod.mk.injEq] at h1
      rw [cellText_cons, List.length_append, ← h1.1.1] at h2
      omega

/-- The references numbered from `a` on. -/
def numbered : Nat → List (FTok β) → Dict (FTok β)
  | _, [] => []
  | a, t :: ts => (refKey a, t) :: numbered (a + 1) ts

/-- What a cell text stands for. -/
def cellToks (bare : β) (tok : Nat → Option (FTok β)) (l : List (Str × Nat)) (last : Str) : List (FTok β) :=
  l.flatMap (fun e => textTok bare e.1 ++ (tok e.2).toList) ++ textTok bare last

theorem textChunk_eq (bare : β) (s : Str) : textChunk bare s = textTok bare s := by
  cases s <;> simp [textChunk, textTok]

theorem chunkLoop_numbered (bare : β) : ∀ (ts : List (FTok β)) (a : Nat) (l : List (Str × Nat)) (last : Str),
    CleanWords l last → (l.map (·.2)).Pairwise (· < ·) → (∀ e ∈ l, a ≤ e.2 ∧ e.2 < a + ts.length) →
    chunkLoop bare (numbered a ts) (cellText l last) = cellToks bare (fun i => ts[i - a]?) l last := by
  intro ts
  induction ts with
  | nil =>
    intro a l last _ _ hr
    cases l with
    | nil => simp [numbered, chunkLoop, cellToks, textChunk_eq]
    | cons e l => have := hr e (by simp); simp at this; omega
  | cons t ts ih =>
    intro a l last hc hinc hr
    have keep : ∀ l' : List (Str × Nat), (∀ e ∈ l', a < e.2) →
        cellToks bare (fun i => ts[i - (a + 1)]?) l' last = cellToks bare (fun i => (t :: ts)[i - a]?) l' last := by
      intro l' hl'
      unfold cellToks
      congr 1
      have : ∀ e ∈ l', textTok bare e.1 ++ (ts[e.2 - (a + 1)]?).toList = textTok bare e.1 ++ ((t :: ts)[e.2 - a]?).toList := by
        intro e he
        have := hl' e he
        rw [show e.2 - a = (e.2 - (a + 1)) + 1 by omega]
        rfl
      clear hl'
      induction l' with
      | nil => rfl
      | cons e l' ihl =>
        simp only [List.flatMap_cons]
        rw [this e (by simp), ihl (fun e he => this e (by simp [he]))]
    cases l with
    | nil =>
      have hf := findSub_none hc (j := a) (by simp)
      simp only [numbered, chunkLoop, hf]
      rw [ih (a + 1) [] last hc hinc (by simp)]
      exact keep [] (by simp)
    | cons e l =>
      obtain ⟨w, i⟩ := e
      have hi := hr (w, i) (by simp)
      simp only [List.length_cons] at hi
      have hrest : ∀ e ∈ l, i < e.2 := by
        intro e he
        simp only [List.map_cons, List.pairwise_cons] at hinc
        exact hinc.1 e.2 (by simp; exact ⟨e.1, he⟩)
      by_cases hia : i = a
      · subst hia
        simp only [numbered, chunkLoop, findSub_first hc]
        rw [cellText_cons, List.take_left, ← List.drop_drop, List.drop_left, List.drop_left]
        rw [ih (i + 1) l last ⟨fun e he => hc.1 e (by simp [he]), hc.2⟩ (List.pairwise_cons.1 hinc).2 (by
          intro e he
          have h1 := hrest e he
          have h2 := hr e (by simp [he])
          simp only [List.length_cons] at h2
          omega)]
        rw [keep l hrest, textChunk_eq]
        simp [cellToks]
      · have hall : ∀ e ∈ (w, i) :: l, a < e.2 := by
          intro e he
          rcases List.mem_cons.1 he with rfl | he
          · simp only; omega
          · have := hrest e he; omega
        have hf := findSub_none hc (j := a) (by intro e he; have := hall e he; omega)
        simp only [numbered, chunkLoop, hf]
        rw [ih (a + 1) _ last hc hinc (by
          intro e he
          have h1 := hall e he
          have h2 := hr e he
          simp only [List.length_cons] at h2
          omega)]
        exact keep _ hall

/-! Flattening. -/

theorem numbered_keys (ts : List (FTok β)) : ∀ a, ∀ e ∈ numbered a ts, ∃ i, a ≤ i ∧ i < a + ts.length ∧ e.1 = refKey i := by
  induction ts with
  | nil => intro a e he; simp [numbered] at he
  | cons t ts ih =>
    intro a e he
    rcases List.mem_cons.1 he with rfl | he
    · exact ⟨a, by simp⟩
    · obtain ⟨i, h1, h2, h3⟩ := ih (a + 1) e he
      exact ⟨i, by omega, by simp; omega, h3⟩

theorem numbered_snoc (ts : List (FTok β)) (t : FTok β) : ∀ a, numbered a (ts ++ [t]) = numbered a ts ++ [(refKey (a + ts.length), t)] := by
  induction ts with
  | nil => intro a; simp [numbered]
  | cons x ts ih =>
    intro a
    simp only [List.cons_append, numbered, ih, List.length_cons]
    rw [show a + 1 + ts.length = a + (ts.length + 1) by omega]

theorem numbered_get (ts : List (FTok β)) : ∀ (a i : Nat), Dict.get? (numbered a ts) (refKey (a + i)) = ts[i]? := by
  induction ts with
  | nil => intros; simp [numbered, Dict.get?]
  | cons t ts ih =>
    intro a i
    simp only [numbered, Dict.get?]
    cases i with
    | zero => simp
    | succ i =>
      rw [if_neg (fun h => by have := refKey_inj h; omega)]
      rw [show a + (i + 1) = (a + 1) + i by omega, ih]
      rfl

theorem weave_snoc : ∀ (l : List (Str × Str)) (w k last : Str), weave (l ++ [(w, k)]) last = weave l (w ++ k ++ last) := by
  intro l
  induction l with
  | nil => intros; simp [weave]
  | cons e l ih => intros; obtain ⟨a, b⟩ := e; simp [weave, ih]

/-- The stretches of a list of tokens with the numbers of the tokens in between. -/
def numberRuns : Nat → List (Str × FTok β) → List (Str × Nat)
  | _, [] => []
  | n, e :: l => (e.1, n) :: numberRuns (n + 1) l

theorem inline_none {t : FTok β} (h : t.inline = none) (w : Str) (ts : List (FTok β)) :
    runs w (t :: ts) = ((w, t) :: (runs [] ts).1, (runs [] ts).2) := by
  obtain ⟨a, b, c⟩ := t
  cases b with
  | none =>
    cases a with
    | none => rfl
    | some s => simp [FTok.inline] at h
  | some b => cases a <;> rfl

theorem inline_some {t : FTok β} {s : Str} (h : t.inline = some s) (w : Str) (ts : List (FTok β)) :
    runs w (t :: ts) = runs (w ++ s) ts := by
  obtain ⟨a, b, c⟩ := t
  cases b with
  | none => simp only [FTok.inline] at h; subst h; rfl
  | some b => simp [FTok.inline] at h

theorem fold_flatten : ∀ (ts pre : List (FTok β)) (c w : Str),
    ts.foldl flattenStep ⟨c ++ w, numbered 1 pre, pre.length + 1⟩ =
      ⟨c ++ cellText (numberRuns (pre.length + 1) (runs w ts).1) (runs w ts).2,
       numbered 1 (pre ++ (runs w ts).1.map (·.2)), pre.length + (runs w ts).1.length + 1⟩ := by
  intro ts
  induction ts with
  | nil => intro pre c w; simp [runs, numberRuns]
  | cons t ts ih =>
    intro pre c w
    rw [List.foldl_cons]
    cases ht : t.inline with
    | some s =>
      rw [inline_some ht]
      simp only [flattenStep, ht]
      rw [List.append_assoc]
      exact ih pre c (w ++ s)
    | none =>
      rw [inline_none ht]
      simp only [flattenStep, ht]
      rw [Dict.set_new _ _ _ (by
        intro e he h
        obtain ⟨i, h1, h2, h3⟩ := numbered_keys pre 1 e he
        have := refKey_inj (h3.symm.trans h)
        omega)]
      have := ih (pre ++ [t]) (c ++ w ++ refKey (pre.length + 1)) []
      rw [numbered_snoc, Nat.add_comm 1 pre.length, List.length_append, List.append_nil] at this
      simp only [List.length_cons, List.length_nil, Nat.zero_add] at this
      rw [this]
      congr 1
      · simp [numberRuns]
      · simp
      · simp; omega

theorem flatten_eq (ts : List (FTok β)) : flattenTokens ts =
    (cellText (numberRuns 1 (runs [] ts).1) (runs [] ts).2, numbered 1 ((runs [] ts).1.map (·.2))) := by
  have := fold_flatten ts [] [] []
  simp only [numbered, List.append_nil, List.length_nil, Nat.zero_add, List.nil_append] at this
  unfold flattenTokens
  rw [show ({} : FState β) = ⟨[], [], 1⟩ from rfl, this]

/-- C44, numbering: the n-th token that is not plain text is written as placeholder n, and kept under that key; the keys
are the placeholders 1..n in this order. -/
theorem C44_numbering (ts : List (FTok β)) :
    (flattenTokens ts).1 = weave ((runs [] ts).1.mapIdx fun i e => (e.1, placeholder (i + 1))) (runs [] ts).2 ∧
    (flattenTokens ts).2 = (runs [] ts).1.mapIdx fun i e => (placeholder (i + 1), e.2) := by
  rw [flatten_eq]
  have h1 : ∀ (l : List (Str × FTok β)) (n : Nat), (numberRuns n l).map (fun e => (e.1, refKey e.2)) =
      l.mapIdx fun i e => (e.1, placeholder (i + n)) := by
    intro l
    induction l with
    | nil => intro n; rfl
    | cons e l ih =>
      intro n
      simp only [numberRuns, List.map_cons, List.mapIdx_cons, ih (n + 1), Nat.zero_add]
      congr 2
      funext i e
      rw [show i + (n + 1) = i + 1 + n by omega]
  have h2 : ∀ (l : List (Str × FTok β)) (n : Nat), numbered n (l.map (·.2)) = l.mapIdx fun i e => (placeholder (i + n), e.2) := by
    intro l
    induction l with
    | nil => intro n; rfl
    | cons e l ih =>
      intro n
      simp only [numbered, List.map_cons, List.mapIdx_cons, ih (n + 1), Nat.zero_add]
      congr 2
      funext i e
      rw [show i + (n + 1) = i + 1 + n by omega]
  exact ⟨by unfold cellText; rw [h1], h2 _ _⟩

/-- Different numbers have different placeholders. -/
theorem C44_distinct (i j : Nat) (h : placeholder i = placeholder j) : i = j := refKey_inj h

/-- C44, looking up a placeholder gives the token it stands for. -/
theorem C44_lookup (ts : List (FTok β)) (n : Nat) :
    Dict.get? (flattenTokens ts).2 (placeholder (n + 1)) = ((runs [] ts).1.map (·.2))[n]? := by
  rw [flatten_eq, Nat.add_comm n 1]
  exact numbered_get _ 1 n

/-- C44, recovery: in any cell text made of clean words and placeholders in increasing order, every placeholder is
replaced by its token and the words are kept. -/
theorem C44_recover_partial (bare : β) (ts : List (FTok β)) (l : List (Str × Nat)) (last : Str)
    (hw : (∀ e ∈ l, ¬ Confusing e.1) ∧ ¬ Confusing last) (hinc : (l.map (·.2)).Pairwise (· < ·))
    (hr : ∀ e ∈ l, 1 ≤ e.2 ∧ e.2 ≤ (runs [] ts).1.length) (rest : β) :
    expandCellTok bare (flattenTokens ts).2 ⟨some (weave (l.map fun e => (e.1, placeholder e.2)) last), none, rest⟩ =
      l.flatMap (fun e => textTok bare e.1 ++ (Dict.get? (flattenTokens ts).2 (placeholder e.2)).toList) ++ textTok bare last := by
  have h := chunkLoop_numbered bare ((runs [] ts).1.map (·.2)) 1 l last hw hinc (by
    intro e he; have := hr e he; simp; omega)
  have hst : ∀ l : List (FTok β), l.map (addStyles ((none : Option (List Str)).getD [])) = l := by
    intro l; induction l with
    | nil => rfl
    | cons a l ih => rw [List.map_cons, ih]; rfl
  simp only [expandCellTok]
  rw [hst]
  rw [flatten_eq] at *
  refine h.trans ?_
  unfold cellToks
  congr 1
  clear h hw hinc
  induction l with
  | nil => rfl
  | cons e l ih =>
    simp only [List.flatMap_cons]
    rw [ih (fun e he => hr e (by simp [he]))]
    obtain ⟨w, i⟩ := e
    have := hr (w, i) (by simp)
    congr 3
    have h := numbered_get ((runs [] ts).1.map (·.2)) 1 (i - 1)
    rw [show 1 + (i - 1) = i by simp only at this; omega] at h
    exact h.symm

/-- C44, round trip: flattening and recovering gives back the tokens, with neighbouring plain texts joined and empty
ones dropped. -/
theorem C44_round_trip_partial (bare : β) (ts : List (FTok β))
    (hw : (∀ e ∈ (runs [] ts).1, ¬ Confusing e.1) ∧ ¬ Confusing (runs [] ts).2) :
    chunkLoop bare (flattenTokens ts).2 (flattenTokens ts).1 = unruns bare (runs [] ts) := by
  rw [flatten_eq]
  generalize runs [] ts = r at hw
  obtain ⟨l, last⟩ := r
  have hmem : ∀ (l : List (Str × FTok β)) (n : Nat), ∀ e ∈ numberRuns n l, n ≤ e.2 ∧ e.2 < n + l.length ∧ ∃ t, (e.1, t) ∈ l := by
    intro l
    induction l with
    | nil => intro n e he; simp [numberRuns] at he
    | cons x l ih =>
      intro n e he
      rcases List.mem_cons.1 he with rfl | he
      · exact ⟨by simp, by simp, x.2, by simp⟩
      · obtain ⟨h1, h2, t, h3⟩ := ih (n + 1) e he
        exact ⟨by omega, by simp; omega, t, by simp [h3]⟩
  have hpw : ∀ (l : List (Str × FTok β)) (n : Nat), ((numberRuns n l).map (·.2)).Pairwise (· < ·) := by
    intro l
    induction l with
    | nil => intro n; simp [numberRuns]
    | cons x l ih =>
      intro n
      simp only [numberRuns, List.map_cons, List.pairwise_cons]
      refine ⟨?_, ih (n + 1)⟩
      intro i hi
      obtain ⟨e, he, rfl⟩ := List.mem_map.1 hi
      have := (hmem l (n + 1) e he).1
      omega
  have h := chunkLoop_numbered bare (l.map (·.2)) 1 (numberRuns 1 l) last
    ⟨fun e he => by obtain ⟨t, ht⟩ := (hmem l 1 e he).2.2; exact hw.1 _ ht, hw.2⟩ (hpw l 1)
    (fun e he => by have := hmem l 1 e he; simp; omega)
  refine h.trans ?_
  unfold cellToks unruns
  congr 1
  have key : ∀ (l pre : List (Str × FTok β)),
      (numberRuns (pre.length + 1) l).flatMap (fun e => textTok bare e.1 ++ (((pre ++ l).map (·.2))[e.2 - 1]?).toList) =
        l.flatMap fun e => textTok bare e.1 ++ [e.2] := by
    intro l
    induction l with
    | nil => intro pre; simp [numberRuns]
    | cons x l ih =>
      intro pre
      have := ih (pre ++ [x])
      simp only [List.length_append, List.length_cons, List.length_nil, Nat.zero_add, List.append_assoc, List.singleton_append] at this
      simp only [numberRuns, List.flatMap_cons, this, Nat.add_sub_cancel]
      congr 2
      simp
  exact key l []

/-- C44: styles of a cell's text are put on every part, its own styles after them, none twice. -/
theorem C44_styles (styles : List Str) (t : FTok β) (h : styles ≠ []) :
    ∃ st, (addStyles styles t).styles = some st ∧ st.Nodup ∧ (∀ x, x ∈ st ↔ x ∈ styles ∨ x ∈ t.styles.getD []) := by
  have hmem : ∀ (l : List Str) (x : Str), x ∈ fromKeys l ↔ x ∈ l := by
    intro l x
    induction l with
    | nil => rfl
    | cons a l ih =>
      simp only [fromKeys, List.mem_cons, List.mem_filter, ih, ne_eq, decide_eq_true_eq]
      by_cases hx : x = a <;> simp [hx]
  have hnd : ∀ l : List Str, (fromKeys l).Nodup := by
    intro l
    induction l with
    | nil => exact List.nodup_nil
    | cons a l ih =>
      simp only [fromKeys, List.nodup_cons]
      exact ⟨by simp, ih.filter _⟩
  unfold addStyles
  rw [if_neg (by simpa using h)]
  exact ⟨_, rfl, hnd _, fun x => by rw [hmem, List.mem_append]⟩

/-- C44 violated: a placeholder written by the author is taken for a reference; the order of the cell changes. -/
theorem C44_violated_literal (bare : β) (t : FTok β) (h : t.inline = none) :
    let ts := [⟨some (placeholder 1), none, bare⟩, t]
    chunkLoop bare (flattenTokens ts).2 (flattenTokens ts).1 = [t, ⟨some (placeholder 1), none, bare⟩] := by
  have : flattenTokens [⟨some (placeholder 1), none, bare⟩, t] = (placeholder 1 ++ placeholder 1, [(placeholder 1, t)]) := by
    simp only [flattenTokens, List.foldl_cons, List.foldl_nil]
    simp only [flattenStep, h]
    rfl
  simp only [this]
  have hf : findSub (placeholder 1) (placeholder 1 ++ placeholder 1) = some 0 := by decide
  simp only [chunkLoop, hf]
  rfl

/-! A table row: text, an equation, styled text. -/
example : flattenTokens (β := Nat) [⟨some "a & ".toList, none, 0⟩, ⟨none, none, 1⟩, ⟨some " & ".toList, none, 0⟩,
      ⟨some "b".toList, some ["bold".toList], 0⟩] =
    ("a & `|REF_1|` & `|REF_2|`".toList, [("`|REF_1|`".toList, ⟨none, none, 1⟩), ("`|REF_2|`".toList, ⟨some "b".toList, some ["bold".toList], 0⟩)]) := by
  decide +kernel
example : ¬ Confusing "a & ".toList := by
  unfold Confusing
  rw [← findSub_contains _ (by decide)]; decide

end L2J.Flat
