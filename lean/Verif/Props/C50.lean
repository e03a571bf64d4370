import Verif.Props.C49
import Verif.Props.C32
import Verif.Props.C02
import Verif.Props.C44
/-! C50: spanning cells are protected while a table is processed, and put back afterwards. -/
namespace L2J.Tab
open L2J Spec

/-- The string by which a reference to a protected cell is recognised. -/
def _root_.L2J.Spec.mark : Str := "ABLE_STRUCT".toList

theorem structKey_eq (n : Nat) : structKey n = "`|T".toList ++ ("ABLE_STRUCT".toList ++ ('_' :: (natStr n ++ ['|', '`']))) := by
  have : "`|TABLE_STRUCT_".toList = "`|T".toList ++ ("ABLE_STRUCT".toList ++ ['_']) := by decide
  unfold structKey
  rw [this]
  simp only [List.append_assoc]
  rfl

theorem struct_family : PhFamily "`|T".toList structKey mark 'A' where
  shape i := ⟨'_' :: (natStr i ++ ['|', '`']), structKey_eq i⟩
  opNe := by decide
  head := ⟨"BLE_STRUCT".toList, rfl⟩
  notOp := by decide
  uniq i k h := by
    unfold structKey at h
    rw [List.append_assoc] at h
    by_cases h1 : k < "`|TABLE_STRUCT_".toList.length
    · rw [List.getElem?_append_left h1] at h
      have : ∀ k, k < "`|TABLE_STRUCT_".toList.length → "`|TABLE_STRUCT_".toList[k]? = some 'A' → k = "`|T".toList.length := by decide
      exact this k h1 h
    · rw [List.getElem?_append_right (by omega)] at h
      rcases List.mem_append.1 (List.mem_of_getElem? h) with h | h
      · exact absurd h (notDigit (by decide))
      · exact absurd h (by decide)
  clash p u h hu t x he := by
    cases u with
    | nil => exact hu rfl
    | cons c u =>
      have hc : c = '`' := by
        have : "`|T".toList = ['`', '|', 'T'] := rfl
        rw [this] at he; simp at he; exact he.1
      have : '`' ∈ mark := by rw [h, ← hc]; simp
      revert this; decide
  inj i j b := by
    rintro ⟨t, h⟩
    unfold structKey at h
    simp only [List.append_assoc, List.append_cancel_left_eq] at h
    have h : natStr i ++ '|' :: ('`' :: t) = natStr j ++ '|' :: ('`' :: b) := h
    have := L2J.Flat.split_at (v := '|') (natStr i) (natStr j) ('`' :: t) ('`' :: b) (notDigit (by decide)) (notDigit (by decide)) h
    exact natStr_injective this

theorem key_chars (n : Nat) : '\\' ∉ structKey n ∧ '}' ∉ structKey n ∧ '{' ∉ structKey n := by
  have h : ∀ c : Char, c ∉ "`|TABLE_STRUCT_".toList → c ∉ "|`".toList → (c.toNat < 48 ∨ 58 ≤ c.toNat) → c ∉ structKey n := by
    intro c h1 h2 h3 hc
    unfold structKey at hc
    rcases List.mem_append.1 hc with hc | hc
    · rcases List.mem_append.1 hc with hc | hc
      · exact h1 hc
      · exact notDigit h3 hc
    · exact h2 hc
  exact ⟨h _ (by decide) (by decide) (by decide), h _ (by decide) (by decide) (by decide), h _ (by decide) (by decide) (by decide)⟩

theorem key_mark (n : Nat) : Contains (structKey n) mark := ⟨"`|T".toList, '_' :: (natStr n ++ ['|', '`']), by rw [structKey_eq, List.append_assoc]; rfl⟩

/-! Cutting a text made of parts. -/

theorem render_append (f : Nat → Str) : ∀ (a b : List Seg), render f (a ++ b) = render f a ++ render f b
  | [], b => rfl
  | .text s :: a, b => by simp [render, render_append f a b]
  | .block i :: a, b => by simp [render, render_append f a b]

/-- A text can be cut before a character that no reference contains. -/
theorem cut_before {c : Char} (hc : ∀ n, c ∉ structKey n) : ∀ (segs : List Seg) (x y : Str), render structKey segs = x ++ c :: y →
    ∃ A C, render structKey A = x ∧ render structKey C = c :: y ∧ (∀ f, render f segs = render f A ++ render f C) ∧
      (∀ i, .block i ∈ A → .block i ∈ segs) ∧ ∀ i, .block i ∈ C → .block i ∈ segs
  | [], x, y, h => by simp [render] at h
  | .text s :: segs, x, y, h => by
    rw [render] at h
    rcases List.append_eq_append_iff.1 h with ⟨u, h1, h2⟩ | ⟨u, h1, h2⟩
    · obtain ⟨A, C, k1, k2, k3, k4, k5⟩ := cut_before hc segs u y h2
      refine ⟨.text s :: A, C, by rw [render, k1, h1], k2, fun f => by simp [render, k3 f], ?_, ?_⟩
      · intro i hi; simp at hi ⊢; exact k4 i hi
      · intro i hi; simp; exact k5 i hi
    · cases u with
      | nil =>
        rw [List.nil_append] at h2
        obtain ⟨A, C, k1, k2, k3, k4, k5⟩ := cut_before hc segs [] y (by simpa using h2.symm)
        refine ⟨.text s :: A, C, by rw [render, k1, h1]; simp, k2, fun f => by simp [render, k3 f], ?_, ?_⟩
        · intro i hi; simp at hi ⊢; exact k4 i hi
        · intro i hi; simp; exact k5 i hi
      | cons d u =>
        simp at h2
        refine ⟨[.text x], .text (d :: u) :: segs, by simp [render], ?_, fun f => by simp [render, h1], ?_, ?_⟩
        · rw [render, h2.2, h2.1]; rfl
        · intro i hi; simp at hi
        · intro i hi; simpa using hi
  | .block j :: segs, x, y, h => by
    rw [render] at h
    rcases List.append_eq_append_iff.1 h with ⟨u, h1, h2⟩ | ⟨u, h1, h2⟩
    · obtain ⟨A, C, k1, k2, k3, k4, k5⟩ := cut_before hc segs u y h2
      refine ⟨.block j :: A, C, by rw [render, k1, h1], k2, fun f => by simp [render, k3 f], ?_, ?_⟩
      · intro i hi; simp at hi ⊢; rcases hi with hi | hi; exact .inl hi; exact .inr (k4 i hi)
      · intro i hi; simp; exact .inr (k5 i hi)
    · cases u with
      | nil =>
        rw [List.nil_append] at h2
        obtain ⟨A, C, k1, k2, k3, k4, k5⟩ := cut_before hc segs [] y (by simpa using h2.symm)
        refine ⟨.block j :: A, C, by rw [render, k1, h1]; simp, k2, fun f => by simp [render, k3 f], ?_, ?_⟩
        · intro i hi; simp at hi ⊢; rcases hi with hi | hi; exact .inl hi; exact .inr (k4 i hi)
        · intro i hi; simp; exact .inr (k5 i hi)
      | cons d u =>
        simp at h2
        exact absurd (by rw [h1, ← h2.1]; simp) (hc j)

/-- And behind one. -/
theorem cut_after {c : Char} (hc : ∀ n, c ∉ structKey n) (segs : List Seg) (x y : Str) (h : render structKey segs = x ++ c :: y) :
    ∃ A C, render structKey A = x ++ [c] ∧ render structKey C = y ∧ (∀ f, render f segs = render f A ++ render f C) ∧
      (∀ i, .block i ∈ A → .block i ∈ segs) ∧ ∀ i, .block i ∈ C → .block i ∈ segs := by
  obtain ⟨A, C, k1, k2, k3, k4, k5⟩ := cut_before hc segs x y h
  have key : ∀ (C : List Seg), render structKey C = c :: y → ∃ C', render structKey C' = y ∧ (∀ f, render f C = c :: render f C') ∧
      ∀ i, .block i ∈ C' → .block i ∈ C := by
    intro C
    induction C with
    | nil => intro h; simp [render] at h
    | cons e C ih =>
      intro h
      cases e with
      | text s =>
        cases s with
        | nil =>
          obtain ⟨C', j1, j2, j3⟩ := ih (by simpa [render] using h)
          exact ⟨C', j1, fun f => by simp [render, j2 f], fun i hi => by simp; exact j3 i hi⟩
        | cons d s =>
          simp [render] at h
          refine ⟨.text s :: C, by rw [render, h.2], fun f => by simp [render, h.1], fun i hi => by simpa using hi⟩
      | block j =>
        exfalso
        rw [render] at h
        cases hk : structKey j with
        | nil => exact absurd hk (ph_ne_nil struct_family j)
        | cons d r =>
          rw [hk] at h; simp at h
          exact hc j (by rw [hk, h.1]; simp)
  obtain ⟨C', j1, j2, j3⟩ := key C k2
  refine ⟨A ++ [.text [c]], C', by rw [render_append, k1]; simp [render], j1, fun f => ?_, ?_, fun i hi => k5 i (j3 i hi)⟩
  · rw [k3 f, j2 f, render_append]; simp [render]
  · intro i hi
    simp at hi
    exact k4 i hi

theorem render_block {i : Nat} : ∀ {segs : List Seg}, .block i ∈ segs → Contains (render structKey segs) (structKey i)
  | .text s :: segs, h => by
    have := render_block (segs := segs) (by simpa using h)
    simpa [render] using contains_mono (a := s) (b := []) this
  | .block j :: segs, h => by
    simp at h
    rcases h with rfl | h
    · exact ⟨[], render structKey segs, by simp [render]⟩
    · have := render_block h
      simpa [render] using contains_mono (a := structKey j) (b := []) this

theorem contains_trans {a b c : Str} (h1 : Contains a b) (h2 : Contains b c) : Contains a c := by
  obtain ⟨x, y, rfl⟩ := h1
  rw [List.append_assoc]; exact contains_mono h2

/-- A block of a text that starts with a backslash, ends with a brace and holds no reference can be cut out. -/
theorem cut_block (segs : List Seg) (t b rest : Str) (h : render structKey segs = t ++ (b ++ rest)) (h1 : b.head? = some '\\')
    (h2 : b.getLast? = some '}') (hm : ¬ Contains b mark) :
    ∃ A C, render structKey A = t ∧ render structKey C = rest ∧ (∀ f, render f segs = render f A ++ (b ++ render f C)) ∧
      (∀ i, .block i ∈ A → .block i ∈ segs) ∧ ∀ i, .block i ∈ C → .block i ∈ segs := by
  obtain ⟨b', rfl⟩ : ∃ b', b = '\\' :: b' := by
    cases b with
    | nil => cases h1
    | cons c b' => simp at h1; exact ⟨b', by rw [h1]⟩
  obtain ⟨A, C, k1, k2, k3, k4, k5⟩ := cut_before (fun n => (key_chars n).1) segs t (b' ++ rest) (by simpa using h)
  obtain ⟨p, hp⟩ : ∃ p, '\\' :: b' = p ++ ['}'] := by
    rcases List.eq_nil_or_concat ('\\' :: b') with h | ⟨p, x, hx⟩
    · cases h
    · rw [hx] at h2; simp at h2; exact ⟨p, by rw [hx, h2]; simp⟩
  obtain ⟨B, D, j1, j2, j3, _, j5⟩ := cut_after (fun n => (key_chars n).2.1) C p rest (by
    rw [k2, ← List.cons_append, hp]; simp)
  have hB : ∀ f, render f B = '\\' :: b' := by
    intro f
    rw [hp, ← j1]
    apply render_congr
    intro i hi
    exfalso
    apply hm
    rw [hp, ← j1]
    exact contains_trans (render_block hi) (key_mark i)
  exact ⟨A, D, k1, j2, fun f => by rw [k3 f, j3 f, hB f], k4, fun i hi => k5 i (j5 i hi)⟩

/-- A part of the text can be cut off at a place behind a closing or before an opening brace. -/
theorem cut_at {c : Char} (hc : ∀ n, c ∉ structKey n) (segs : List Seg) (t rest : Str) (h : render structKey segs = t ++ rest) (ht : t.getLast? = some c) :
    ∃ A C, render structKey A = t ∧ render structKey C = rest ∧ (∀ f, render f segs = render f A ++ render f C) ∧
      (∀ i, .block i ∈ A → .block i ∈ segs) ∧ ∀ i, .block i ∈ C → .block i ∈ segs := by
  obtain ⟨p, hp⟩ : ∃ p, t = p ++ [c] := by
    rcases List.eq_nil_or_concat t with h | ⟨p, x, hx⟩
    · rw [h] at ht; cases ht
    · rw [hx] at ht; simp at ht; exact ⟨p, by rw [hx, ht]; simp⟩
  obtain ⟨A, C, k1, k2, k3, k4, k5⟩ := cut_after hc segs p rest (by rw [h, hp]; simp)
  exact ⟨A, C, by rw [k1, hp], k2, k3, k4, k5⟩

/-! One pass. -/

/-- What is needed of a pattern: a match starts with a backslash and ends with an opening brace. -/
def GoodPat (p : Pat) : Prop := ∀ s a e, p s = some (a, e) → a + 1 < e ∧ e ≤ s.length ∧ s[a]? = some '\\' ∧ s[e - 1]? = some '{'

/-- The sequence of blocks ends behind a closing brace. -/
theorem blocks_last {t : Str} {p q : Nat} {bs : List Str} (h : Blocks t '{' '}' p bs q) (hb : bs ≠ []) : 0 < q ∧ t[q - 1]? = some '}' := by
  induction h with
  | nil p => exact absurd rfl hb
  | cons p s e q bs hs hB hr ih =>
    by_cases h0 : bs = []
    · subst h0
      cases hr
      exact ⟨by have := hB.lt; omega, (liveAt_get (block_closer hB)).1⟩
    · exact ih h0

theorem seq_last (t : Str) (n : Nat) (h : (seqBlocks t '{' '}' (some n)).1 ≠ []) :
    0 < (seqBlocks t '{' '}' (some n)).2 ∧ t[(seqBlocks t '{' '}' (some n)).2 - 1]? = some '}' :=
  blocks_last ((C02_seq_iff t '{' '}' (by decide) n _ _).1 rfl).2.1 h

theorem structLoop_none {p : Pat} {blocks fuel n : Nat} {s : Str} (h : p s = none) : structLoop p blocks (fuel + 1) n s = (s, []) := by
  rw [structLoop, h]

theorem structLoop_skip {p : Pat} {blocks fuel n : Nat} {s : Str} {a e : Nat} (h : p s = some (a, e))
    (hb : (seqBlocks (s.drop (e - 1)) '{' '}' (some blocks)).1 = []) :
    structLoop p blocks (fuel + 1) n s = (s.take (e - 1 + 1) ++ (structLoop p blocks fuel n (s.drop (e - 1 + 1))).1,
      (structLoop p blocks fuel n (s.drop (e - 1 + 1))).2) := by
  rw [structLoop, h]; simp only [hb, List.isEmpty_nil, if_true]

theorem structLoop_take {p : Pat} {blocks fuel n : Nat} {s : Str} {a e : Nat} {r : List Str × Nat} (h : p s = some (a, e))
    (hr : seqBlocks (s.drop (e - 1)) '{' '}' (some blocks) = r) (hb : r.1 ≠ []) :
    structLoop p blocks (fuel + 1) n s = (s.take a ++ structKey n ++ (structLoop p blocks fuel (n + 1) (s.drop (e - 1 + r.2))).1,
      (structKey n, slice s a (e - 1 + r.2)) :: (structLoop p blocks fuel (n + 1) (s.drop (e - 1 + r.2))).2) := by
  rw [structLoop, h]
  have : r.1.isEmpty = false := by cases h : r.1 with | nil => exact absurd h hb | cons _ _ => rfl
  simp only [hr, this, Bool.false_eq_true, if_false]

theorem pass {p : Pat} (hp : GoodPat p) (blocks : Nat) : ∀ (fuel n : Nat) (s : Str) (segs : List Seg), s.length < fuel → render structKey segs = s →
    (∀ e ∈ (structLoop p blocks fuel n s).2, ¬ Contains e.2 mark) →
    ∃ segs', render structKey segs' = (structLoop p blocks fuel n s).1 ∧
      (∀ i, .block i ∈ segs' → .block i ∈ segs ∨ (n ≤ i ∧ i < n + (structLoop p blocks fuel n s).2.length)) ∧
      (∀ k e, (structLoop p blocks fuel n s).2[k]? = some e → e.1 = structKey (n + k)) ∧
      ∀ f : Nat → Str, (∀ k e, (structLoop p blocks fuel n s).2[k]? = some e → f (n + k) = e.2) → render f segs' = render f segs := by
  intro fuel
  induction fuel with
  | zero => intro n s segs h; omega
  | succ fuel ih =>
    intro n s segs hf hseg hmark
    cases hm : p s with
    | none =>
      rw [structLoop_none hm]
      exact ⟨segs, hseg, fun i hi => .inl hi, fun k e h => by simp at h, fun f _ => rfl⟩
    | some m =>
      obtain ⟨a, e⟩ := m
      obtain ⟨g1, g2, g3, g4⟩ := hp s a e hm
      by_cases hb : (seqBlocks (s.drop (e - 1)) '{' '}' (some blocks)).1 = []
      · rw [structLoop_skip hm hb] at hmark ⊢
        have hc : render structKey segs = s.take (e - 1 + 1) ++ s.drop (e - 1 + 1) := by rw [hseg, List.take_append_drop]
        obtain ⟨A, C, k1, k2, k3, k4, k5⟩ := cut_at (fun i => (key_chars i).2.2) segs _ _ hc (by
          rw [List.getLast?_eq_getElem?, List.length_take, Nat.min_eq_left (by omega), List.getElem?_take_of_lt (by omega)]; exact g4)
        obtain ⟨D, j1, j2, j3, j4⟩ := ih n (s.drop (e - 1 + 1)) C (by rw [List.length_drop]; omega) k2 hmark
        refine ⟨A ++ D, by rw [render_append, k1, j1], ?_, j3, fun f hf => by rw [render_append, j4 f hf, k3 f]⟩
        intro i hi
        rcases List.mem_append.1 hi with hi | hi
        · exact .inl (k4 i hi)
        · rcases j2 i hi with h | h
          · exact .inl (k5 i h)
          · exact .inr h
      · generalize hr : seqBlocks (s.drop (e - 1)) '{' '}' (some blocks) = r at hb
        obtain ⟨q0, q1⟩ := seq_last (s.drop (e - 1)) blocks (by rw [hr]; exact hb)
        have q2 := (C02_position (s.drop (e - 1)) '{' '}' (by decide) blocks).1
        rw [hr] at q0 q1 q2
        rw [List.length_drop] at q2
        rw [List.getElem?_drop] at q1
        rw [structLoop_take hm hr hb] at hmark ⊢
        have hsl : slice s a (e - 1 + r.2) = (s.drop a).take (e - 1 + r.2 - a) := by unfold slice; rw [List.drop_take]
        have hslice : slice s a (e - 1 + r.2) ++ s.drop (e - 1 + r.2) = s.drop a := by
          have : s.drop (e - 1 + r.2) = (s.drop a).drop (e - 1 + r.2 - a) := by rw [List.drop_drop]; congr 1; omega
          rw [hsl, this, List.take_append_drop]
        have hlen : (slice s a (e - 1 + r.2)).length = e - 1 + r.2 - a := by
          rw [hsl, List.length_take, List.length_drop]; omega
        obtain ⟨A, C, k1, k2, k3, k4, k5⟩ := cut_block segs (s.take a) (slice s a (e - 1 + r.2)) (s.drop (e - 1 + r.2))
          (by rw [hslice, List.take_append_drop, hseg])
          (by rw [List.head?_eq_getElem?, hsl, List.getElem?_take_of_lt (by omega), List.getElem?_drop]; exact g3)
          (by
            rw [List.getLast?_eq_getElem?, hlen, hsl]
            rw [List.getElem?_take_of_lt (by omega), List.getElem?_drop]
            rw [show a + (e - 1 + r.2 - a - 1) = e - 1 + (r.2 - 1) by omega]; exact q1)
          (hmark (structKey n, slice s a (e - 1 + r.2)) List.mem_cons_self)
        obtain ⟨D, j1, j2, j3, j4⟩ := ih (n + 1) (s.drop (e - 1 + r.2)) C (by rw [List.length_drop]; omega) k2 (fun x hx => hmark x (by simp [hx]))
        refine ⟨A ++ .block n :: D, ?_, ?_, ?_, ?_⟩
        · rw [render_append, k1, render, j1]; simp
        · intro i hi
          simp only [List.length_cons]
          rcases List.mem_append.1 hi with hi | hi
          · exact .inl (k4 i hi)
          · rcases List.mem_cons.1 hi with hi | hi
            · cases hi; exact .inr ⟨by omega, by omega⟩
            · rcases j2 i hi with h | h
              · exact .inl (k5 i h)
              · exact .inr ⟨by omega, by omega⟩
        · intro k x hx
          cases k with
          | zero => simp at hx; rw [← hx]; rfl
          | succ k => rw [List.getElem?_cons_succ] at hx; rw [j3 k x hx]; congr 1; omega
        · intro f hf
          have h0 : f n = slice s a (e - 1 + r.2) := hf 0 (structKey n, slice s a (e - 1 + r.2)) rfl
          rw [render_append, render, h0, j4 f (fun k x hx => by
            have := hf (k + 1) x (by rw [List.getElem?_cons_succ]; exact hx)
            rw [← this]; congr 1; omega), k3 f]

/-- All passes. -/
theorem passes : ∀ (ps : List (Pat × Nat)), (∀ p ∈ ps, GoodPat p.1) → ∀ (n : Nat) (s : Str) (segs : List Seg), render structKey segs = s →
    (∀ e ∈ (structAll ps n s).2, ¬ Contains e.2 mark) →
    ∃ segs', render structKey segs' = (structAll ps n s).1 ∧
      (∀ i, .block i ∈ segs' → .block i ∈ segs ∨ (n ≤ i ∧ i < n + (structAll ps n s).2.length)) ∧
      (∀ k e, (structAll ps n s).2[k]? = some e → e.1 = structKey (n + k)) ∧
      ∀ f : Nat → Str, (∀ k e, (structAll ps n s).2[k]? = some e → f (n + k) = e.2) → render f segs' = render f segs
  | [], _, n, s, segs, h, _ => ⟨segs, h, fun i hi => .inl hi, fun k e h => by simp [structAll] at h, fun _ _ => rfl⟩
  | (p, b) :: ps, hps, n, s, segs, h, hm => by
    have hm' : ∀ e ∈ (structLoop p b (s.length + 1) n s).2 ++
      (structAll ps (n + (structLoop p b (s.length + 1) n s).2.length) (structLoop p b (s.length + 1) n s).1).2, ¬ Contains e.2 mark := hm
    show ∃ segs', render structKey segs' = (structAll ps (n + (structLoop p b (s.length + 1) n s).2.length) (structLoop p b (s.length + 1) n s).1).1 ∧
      (∀ i, .block i ∈ segs' → .block i ∈ segs ∨ (n ≤ i ∧ i < n + ((structLoop p b (s.length + 1) n s).2 ++
        (structAll ps (n + (structLoop p b (s.length + 1) n s).2.length) (structLoop p b (s.length + 1) n s).1).2).length)) ∧
      (∀ k e, ((structLoop p b (s.length + 1) n s).2 ++
        (structAll ps (n + (structLoop p b (s.length + 1) n s).2.length) (structLoop p b (s.length + 1) n s).1).2)[k]? = some e → e.1 = structKey (n + k)) ∧
      ∀ f : Nat → Str, (∀ k e, ((structLoop p b (s.length + 1) n s).2 ++
        (structAll ps (n + (structLoop p b (s.length + 1) n s).2.length) (structLoop p b (s.length + 1) n s).1).2)[k]? = some e → f (n + k) = e.2) →
        render f segs' = render f segs
    obtain ⟨D, j1, j2, j3, j4⟩ := pass (hps (p, b) (by simp)) b (s.length + 1) n s segs (by omega) h (fun e he => hm' e (by simp [he]))
    generalize structLoop p b (s.length + 1) n s = r at *
    obtain ⟨E, i1, i2, i3, i4⟩ := passes ps (fun p hp => hps p (by simp [hp])) (n + r.2.length) r.1 D j1 (fun e he => hm' e (by simp [he]))
    generalize structAll ps (n + r.2.length) r.1 = q at *
    refine ⟨E, i1, ?_, ?_, ?_⟩
    · intro i hi
      rw [List.length_append]
      rcases i2 i hi with h | h
      · rcases j2 i h with h | h
        · exact .inl h
        · exact .inr (by omega)
      · exact .inr (by omega)
    · intro k e he
      by_cases hk : k < r.2.length
      · rw [List.getElem?_append_left hk] at he; exact j3 k e he
      · rw [List.getElem?_append_right (by omega)] at he
        rw [i3 _ e he]; congr 1; omega
    · intro f hf
      rw [i4 f, j4 f]
      · intro k e he
        apply hf k e
        have hk : k < r.2.length := by rcases List.getElem?_eq_some_iff.1 he with ⟨h, _⟩; exact h
        rw [List.getElem?_append_left hk]; exact he
      · intro k e he
        have := hf (r.2.length + k) e (by rw [List.getElem?_append_right (by omega), Nat.add_sub_cancel_left]; exact he)
        rw [← this]; congr 1; omega

/-! The patterns of the code. -/

theorem spacesBrace_spec {s : Str} {n : Nat} (h : spacesBrace s = some n) : 0 < n ∧ s[n - 1]? = some '{' := by
  unfold spacesBrace at h
  simp only [List.head?_drop] at h
  by_cases h0 : s[(s.takeWhile isSpace).length]? = some '{'
  · rw [if_pos h0] at h; cases h; exact ⟨by omega, h0⟩
  · rw [if_neg h0] at h; cases h

/-- A matcher at a position whose matches start with a backslash and end with an opening brace. -/
def GoodMatch (m : Str → Option Nat) : Prop := ∀ s e, m s = some e → 1 < e ∧ s[0]? = some '\\' ∧ s[e - 1]? = some '{'

theorem search_good {m : Str → Option Nat} (hm : GoodMatch m) : ∀ (s : Str) (a e : Nat), searchWith m s = some (a, e) →
    a + 1 < e ∧ e ≤ s.length ∧ s[a]? = some '\\' ∧ s[e - 1]? = some '{'
  | [], a, e, h => by
    cases h0 : m [] with
    | none => simp [searchWith, h0] at h
    | some x => have := (hm _ _ h0).2.1; simp at this
  | c :: s, a, e, h => by
    cases h0 : m (c :: s) with
    | some x =>
      simp [searchWith, h0] at h
      obtain ⟨h1, h2⟩ := h
      subst h1; subst h2
      obtain ⟨k1, k2, k3⟩ := hm _ _ h0
      refine ⟨by omega, ?_, k2, k3⟩
      rcases List.getElem?_eq_some_iff.1 k3 with ⟨h, _⟩; omega
    | none =>
      simp only [searchWith, h0, Option.map_eq_some_iff] at h
      obtain ⟨⟨a', e'⟩, h1, h2⟩ := h
      simp only [Prod.mk.injEq] at h2
      obtain ⟨k1, k2, k3, k4⟩ := search_good hm s a' e' h1
      obtain ⟨h3, h4⟩ := h2
      subst h3; subst h4
      refine ⟨by omega, by simp; omega, by simpa using k3, ?_⟩
      rw [show e' + 1 - 1 = (e' - 1) + 1 by omega, List.getElem?_cons_succ]; exact k4

theorem startsWith_head {s : Str} {name : Str} (h : startsWith s ('\\' :: name) = true) : s[0]? = some '\\' := by
  have : '\\' :: name <+: s := by simpa [startsWith] using h
  obtain ⟨t, rfl⟩ := this
  rfl

theorem good_span (name : Str) (n0 : Str) (hn : name = '\\' :: n0) : GoodMatch (fun t => (matchSpan name t).map (·.2)) := by
  intro s e h
  simp only [Option.map_eq_some_iff] at h
  obtain ⟨x, h, rfl⟩ := h
  unfold matchSpan at h
  by_cases h0 : startsWith s name = true
  · rw [if_pos h0] at h
    simp only at h
    cases h1 : spacesBrace (s.drop name.length) with
    | none => simp [h1] at h
    | some a =>
      simp only [h1] at h
      split at h
      · cases h
      · split at h
        · rename_i r2 hr2
          simp only [Option.map_eq_some_iff] at h
          obtain ⟨b, hb, rfl⟩ := h
          obtain ⟨b0, b1⟩ := spacesBrace_spec hb
          generalize ((s.drop name.length).drop a).takeWhile isDigit = ds at *
          refine ⟨by simp only [hn, List.length_cons]; omega, startsWith_head (hn ▸ h0), ?_⟩
          rw [List.drop_drop] at hr2
          have : (s.drop (name.length + (a + ds.length)))[b]? = some '{' := by
            rw [hr2, show b = (b - 1) + 1 by omega, List.getElem?_cons_succ]; exact b1
          rw [List.getElem?_drop] at this
          rw [← this]; congr 1; simp only; omega
        · cases h
  · rw [if_neg h0] at h; cases h

theorem searchSpan_fst (name s : Str) : (searchSpan name s).map (·.2) = searchWith (fun t => (matchSpan name t).map (·.2)) s := by
  have key : ∀ (m : Str → Option (Str × Nat)) (s : Str) (a e : Nat), searchWith (fun t => (m t).map (·.2)) s = some (a, e) →
      (m (s.drop a)).isSome = true := by
    intro m s
    induction s with
    | nil =>
      intro a e h
      simp [searchWith] at h
      obtain ⟨⟨x, h⟩, _⟩ := h
      simp [h]
    | cons c s ih =>
      intro a e h
      cases h0 : m (c :: s) with
      | some x => simp [searchWith, h0] at h; rw [← h.1]; simp [h0]
      | none =>
        simp only [searchWith, h0, Option.map_none, Option.map_eq_some_iff] at h
        obtain ⟨⟨a', e'⟩, h1, h2⟩ := h
        simp only [Prod.mk.injEq] at h2
        rw [← h2.1]
        simpa using ih a' e' h1
  unfold searchSpan
  cases h : searchWith (fun t => (matchSpan name t).map (·.2)) s with
  | none => rfl
  | some x =>
    obtain ⟨a, e⟩ := x
    have := key (matchSpan name) s a e h
    cases h2 : matchSpan name (s.drop a) with
    | none => simp [h2] at this
    | some y => simp [h2]

theorem good_makecell : GoodMatch matchMakecell := by
  have key : ∀ (name n0 : Str) (hn : name = '\\' :: n0) (s : Str) (e : Nat), (if startsWith s name then
      match spacesBracket (s.drop name.length) with
      | some n => (spacesBrace ((s.drop name.length).drop n)).map fun m => name.length + n + m
      | none => (spacesBrace (s.drop name.length)).map fun m => name.length + m
    else none) = some e → 1 < e ∧ s[0]? = some '\\' ∧ s[e - 1]? = some '{' := by
    intro name n0 hn s e h
    by_cases h0 : startsWith s name = true
    · rw [if_pos h0] at h
      have hl : 0 < name.length := by rw [hn]; simp
      cases h1 : spacesBracket (s.drop name.length) with
      | some n =>
        simp only [h1, Option.map_eq_some_iff] at h
        obtain ⟨b, hb, rfl⟩ := h
        obtain ⟨b0, b1⟩ := spacesBrace_spec hb
        rw [List.drop_drop, List.getElem?_drop] at b1
        refine ⟨by omega, startsWith_head (hn ▸ h0), ?_⟩
        rw [← b1]; congr 1; omega
      | none =>
        simp only [h1, Option.map_eq_some_iff] at h
        obtain ⟨b, hb, rfl⟩ := h
        obtain ⟨b0, b1⟩ := spacesBrace_spec hb
        rw [List.getElem?_drop] at b1
        refine ⟨by omega, startsWith_head (hn ▸ h0), ?_⟩
        rw [← b1]; congr 1; omega
    · rw [if_neg h0] at h; cases h
  intro s e h
  unfold matchMakecell at h
  simp only [Option.or_eq_some_iff] at h
  rcases h with h | ⟨_, h⟩
  · exact key _ _ rfl s e h
  · exact key _ _ rfl s e h

theorem good_patterns : ∀ p ∈ structPatterns, GoodPat p.1 := by
  intro p hp
  simp only [structPatterns, List.mem_cons, List.not_mem_nil, or_false] at hp
  rcases hp with rfl | rfl | rfl
  · intro s a e h
    simp only [searchSpan_fst] at h
    exact search_good (good_span mcol _ rfl) s a e h
  · intro s a e h
    simp only [searchSpan_fst] at h
    exact search_good (good_span mrow _ rfl) s a e h
  · intro s a e h
    exact search_good good_makecell s a e h

theorem restore_eq (t : Str) (m : List (Str × Str)) : restoreStructures t m = restoreBlocks t m := rfl

/-- A list of entries with the keys of the family is the list of entries of its contents. -/
theorem entries_of (f : Nat → Str) : ∀ (l : List (Str × Str)) (n : Nat), (∀ k e, l[k]? = some e → e.1 = structKey (n + k)) →
    (∀ k e, l[k]? = some e → f (n + k) = e.2) → entries structKey f n l.length = l
  | [], n, _, _ => rfl
  | e :: l, n, h1, h2 => by
    have a := h1 0 e rfl
    have b := h2 0 e rfl
    rw [List.length_cons, entries]
    have ih := entries_of f l (n + 1) (fun k x hx => by rw [h1 (k + 1) x hx]; congr 1; omega) (fun k x hx => by rw [← h2 (k + 1) x hx]; congr 1; omega)
    rw [ih]
    congr 1
    obtain ⟨e1, e2⟩ := e
    simp only [Nat.add_zero] at a b
    rw [a, b]

/-- C50: when the protected cells are put back the text of the table is what it was, provided it does not contain the string by which
references are recognised and no protected cell contains a reference. Missing: cells within cells (`C50_violated_nested`). -/
theorem C50_round_trip_partial (content : Str) (h : ¬ Contains content mark) (hn : ∀ e ∈ (extractStructures content).2, ¬ Contains e.2 mark) :
    restoreStructures (extractStructures content).1 (extractStructures content).2 = content := by
  obtain ⟨segs, h1, h2, h3, h4⟩ := passes structPatterns good_patterns 0 content [.text content] (by simp [render]) hn
  change render structKey segs = (extractStructures content).1 at h1
  change ∀ k e, (extractStructures content).2[k]? = some e → _ at h3
  change ∀ f : Nat → Str, (∀ k e, (extractStructures content).2[k]? = some e → f (0 + k) = e.2) → _ at h4
  change ∀ i, .block i ∈ segs → _ ∨ (0 ≤ i ∧ i < 0 + (extractStructures content).2.length) at h2
  generalize extractStructures content = r at *
  let f : Nat → Str := fun i => (r.2[i]?.map (·.2)).getD []
  have hf : ∀ k e, r.2[k]? = some e → f (0 + k) = e.2 := by
    intro k e he
    simp [f, he]
  have hr := h4 f hf
  simp only [render, List.append_nil] at hr
  have hs : render (stage structKey f 0) segs = r.1 := by
    rw [← h1]; apply render_congr; intro i _; simp [stage]
  have := restore_entries struct_family f segs (by rw [hr]; exact h) r.2.length 0
  rw [hs, entries_of f r.2 0 h3 hf] at this
  rw [restore_eq, this, ← hr]
  apply render_congr
  intro i hi
  rcases h2 i hi with h | h
  · simp at h
  · unfold stage; rw [if_pos h.2]

/-- A table with cells of all three kinds meets the hypotheses, and four cells are protected. -/
example : ¬ Contains "a & \\multicolumn{2}{c}{x & y} \\\\ \\multirow {3} {*}{z} & \\makecell[l]{p \\\\ q} & \\shortstack{r\\\\s}".toList mark ∧
    (∀ e ∈ (extractStructures "a & \\multicolumn{2}{c}{x & y} \\\\ \\multirow {3} {*}{z} & \\makecell[l]{p \\\\ q} & \\shortstack{r\\\\s}".toList).2,
      ¬ Contains e.2 mark) ∧
    (extractStructures "a & \\multicolumn{2}{c}{x & y} \\\\ \\multirow {3} {*}{z} & \\makecell[l]{p \\\\ q} & \\shortstack{r\\\\s}".toList).1 =
      "a & `|TABLE_STRUCT_0|` \\\\ `|TABLE_STRUCT_1|` & `|TABLE_STRUCT_2|` & `|TABLE_STRUCT_3|`".toList := by
  have e : ∀ s : Str, ¬ Contains s mark ↔ (findSub mark s).isNone = true := fun s => by
    rw [← findSub_contains _ (by decide)]; cases findSub mark s <;> simp
  simp only [e]
  refine ⟨?_, ?_, ?_⟩ <;> decide +kernel

/-- C50, violated: the cells are put back in the order in which they were taken out, so a `\multicolumn` inside a `\multirow`
is lost: the reference to it stays in the text. -/
theorem C50_violated_nested : restoreStructures (extractStructures "\\multirow{2}{*}{\\multicolumn{2}{c}{x}}".toList).1
    (extractStructures "\\multirow{2}{*}{\\multicolumn{2}{c}{x}}".toList).2 = "\\multirow{2}{*}{`|TABLE_STRUCT_0|`}".toList := by
  decide +kernel

/-- A `\makecell` or `\shortstack` is one block; the group behind it stays in the text and its ampersand is seen by the splitting. -/
theorem C50_one_block : extractStructures "\\makecell{a}{b & c} & \\shortstack{d} {e}".toList =
    ("`|TABLE_STRUCT_0|`{b & c} & `|TABLE_STRUCT_1|` {e}".toList,
      [("`|TABLE_STRUCT_0|`".toList, "\\makecell{a}".toList), ("`|TABLE_STRUCT_1|`".toList, "\\shortstack{d}".toList)]) := by
  decide +kernel

/-- C50, violated: the same for a `\makecell` around a `\multicolumn`. -/
theorem C50_violated_makecell : restoreStructures (extractStructures "\\makecell{\\multirow{2}{*}{x}}".toList).1
    (extractStructures "\\makecell{\\multirow{2}{*}{x}}".toList).2 = "\\makecell{`|TABLE_STRUCT_0|`}".toList := by
  decide +kernel

end L2J.Tab
