import Verif.Spec.Bib
import Verif.Lemmas.Args
import Verif.Props.C01
namespace L2J
open Spec

theorem takeWhile_all {p : Char → Bool} : ∀ (l : Str), ∀ c ∈ l.takeWhile p, p c = true := by
  intro l
  induction l with
  | nil => simp
  | cons x l ih =>
    intro c hc
    by_cases hx : p x
    · simp [hx] at hc
      rcases hc with rfl | hc
      · exact hx
      · exact ih c hc
    · simp [hx] at hc

theorem dropWhile_nil {p : Char → Bool} {l : Str} (h : l.dropWhile p = []) : ∀ c ∈ l, p c = true := by
  intro c hc
  rw [← List.takeWhile_append_dropWhile (p := p) (l := l), h, List.append_nil] at hc
  exact takeWhile_all l c hc

theorem dropWhile_drop {p : Char → Bool} {l : Str} : l.dropWhile p = l.drop (l.takeWhile p).length := by
  induction l with
  | nil => rfl
  | cons x l ih =>
    by_cases h : p x
    · simp [h, ih]
    · simp [h]

theorem dropWhile_head {p : Char → Bool} {l l' : Str} {x : Char} (h : l.dropWhile p = x :: l') : p x = false := by
  induction l with
  | nil => simp at h
  | cons y l ih =>
    by_cases hy : p y
    · simp [hy] at h; exact ih h
    · simp [hy] at h; rw [← h.1]; simpa using hy

/-- Every brace that directly follows a character other than a backslash opens a block. -/
def Closed (s : Str) : Prop := ∀ pre c rest, s = pre ++ c :: '{' :: rest → c ≠ '\\' →
  extractNestedContent ('{' :: rest) '{' '}' ≠ none

theorem Closed.drop {s : Str} (h : Closed s) (k : Nat) : Closed (s.drop k) := by
  intro pre c rest he hc
  refine h (s.take k ++ pre) c rest ?_ hc
  rw [List.append_assoc, ← he, List.take_append_drop]

theorem Closed.dropWhile {s : Str} (h : Closed s) (p : Char → Bool) : Closed (s.dropWhile p) := by
  have : ∃ k, s.dropWhile p = s.drop k := by
    clear h
    induction s with
    | nil => exact ⟨0, rfl⟩
    | cons x s ih =>
      by_cases hx : p x
      · obtain ⟨k, hk⟩ := ih; exact ⟨k + 1, by simp [hx, hk]⟩
      · exact ⟨0, by simp [hx]⟩
  obtain ⟨k, hk⟩ := this
  rw [hk]; exact h.drop k

theorem Closed.append_left {a s : Str} (h : Closed (a ++ s)) : Closed s := by
  have := h.drop a.length
  simpa using this

/-- In a text whose total depth is not above the depth before a live brace, that brace opens a block. -/
theorem block_exists (t : Str) (i : Nat) (h : liveAt t '{' i = true)
    (hle : level t '{' '}' t.length ≤ level t '{' '}' i) : ∃ e, IsBlock t '{' '}' i e := by
  have hi := liveAt_lt h
  -- the first position after `i` at which the depth is back
  have hex : ∃ e, i < e ∧ e ≤ t.length ∧ level t '{' '}' e ≤ level t '{' '}' i ∧
      ∀ j, i < j → j < e → level t '{' '}' i < level t '{' '}' j := by
    have : ∀ n, i < n → n ≤ t.length → level t '{' '}' n ≤ level t '{' '}' i →
        ∃ e, i < e ∧ e ≤ t.length ∧ level t '{' '}' e ≤ level t '{' '}' i ∧
          ∀ j, i < j → j < e → level t '{' '}' i < level t '{' '}' j := by
      intro n
      induction n using Nat.strongRecOn with
      | _ n ih =>
        intro h1 h2 h3
        by_cases hc : ∃ j, i < j ∧ j < n ∧ level t '{' '}' j ≤ level t '{' '}' i
        · obtain ⟨j, a, b, c⟩ := hc
          exact ih j b a (by omega) c
        · refine ⟨n, h1, h2, h3, fun j a b => ?_⟩
          have : ¬ level t '{' '}' j ≤ level t '{' '}' i := fun c => hc ⟨j, a, b, c⟩
          omega
    exact this t.length hi (Nat.le_refl _) hle
  obtain ⟨e, h1, h2, h3, h4⟩ := hex
  have hop : level t '{' '}' (i + 1) = level t '{' '}' i + 1 := by simp [level, h]
  have hne : e ≠ i + 1 := by
    intro he; subst he; omega
  have hprev := h4 (e - 1) (by omega) (by omega)
  have hstep : level t '{' '}' (e - 1) - 1 ≤ level t '{' '}' e := by
    obtain ⟨e', rfl⟩ : ∃ e', e = e' + 1 := ⟨e - 1, by omega⟩
    simp only [Nat.add_sub_cancel, level]
    split
    · omega
    · split <;> omega
  exact ⟨e, h, h1, h2, by omega, h4⟩

theorem closed_of_balanced (t : Str) (h : Balanced t '{' '}') : Closed t := by
  intro pre c rest he hc hn
  rw [extract_none_iff] at hn
  apply hn
  have hesc : escapedAt t (pre.length + 1) = false := by
    apply escapedAt_succ_of_ne (x := c) _ hc
    rw [he]; simp
  have hd : t.drop (pre.length + 1) = '{' :: rest := by
    rw [he]
    rw [show pre ++ c :: '{' :: rest = (pre ++ [c]) ++ '{' :: rest by simp]
    rw [show pre.length + 1 = (pre ++ [c]).length by simp, List.drop_left]
  have hlen : t.length = pre.length + 1 + ('{' :: rest).length := by rw [he]; simp; omega
  have hlev : level ('{' :: rest) '{' '}' ('{' :: rest).length ≤ level ('{' :: rest) '{' '}' 0 := by
    rw [← hd, level_drop t '{' '}' _ hesc, hd, ← hlen]
    have := h.1 (pre.length + 1) (by omega)
    have h0 : level t '{' '}' t.length = 0 := h.2
    show _ ≤ (0 : Int)
    omega
  obtain ⟨e, hb⟩ := block_exists ('{' :: rest) 0 (by simp [liveAt, escapedAt]) hlev
  exact ⟨0, e, ⟨by intro j hj; omega, by intro x hx; simp at hx; subst hx; decide⟩, hb⟩

theorem rstrip_eq (s : Str) : ∃ ws, (∀ c ∈ ws, isSpace c = true) ∧ s = rstrip s ++ ws := by
  refine ⟨(s.reverse.takeWhile isSpace).reverse, ?_, ?_⟩
  · intro c hc
    rw [List.mem_reverse] at hc
    exact takeWhile_all _ c hc
  · unfold rstrip
    rw [← List.reverse_append, List.takeWhile_append_dropWhile, List.reverse_reverse]

theorem lstrip_eq_drop (s : Str) : lstrip s = s.drop (s.takeWhile isSpace).length := by
  unfold lstrip
  induction s with
  | nil => rfl
  | cons x s ih =>
    by_cases h : isSpace x
    · simp [h, ih]
    · simp [h]

/-- Trailing whitespace does not matter for balance. -/
theorem balanced_trim (t ws : Str) (hws : ∀ c ∈ ws, isSpace c = true) (h : Balanced (t ++ ws) '{' '}') :
    Balanced t '{' '}' := by
  constructor
  · intro j hj
    have := h.1 j (by simp; omega)
    rwa [level_append_left _ _ _ _ _ hj] at this
  · have hflat : ∀ k, k ≤ ws.length → level (t ++ ws) '{' '}' (t.length + k) = level (t ++ ws) '{' '}' t.length := by
      intro k
      induction k with
      | zero => intro _; rfl
      | succ k ih =>
        intro hk
        rw [← Nat.add_assoc, level, ih (by omega)]
        have hg : (t ++ ws)[t.length + k]? = some ws[k] := by
          rw [List.getElem?_append_right (by omega)]; simp
        have hsp := hws ws[k] (List.getElem_mem _)
        have h1 : ws[k] ≠ '{' := by intro he; rw [he] at hsp; revert hsp; decide
        have h2 : ws[k] ≠ '}' := by intro he; rw [he] at hsp; revert hsp; decide
        simp [liveAt, hg, h1, h2]
    have h3 := hflat ws.length (Nat.le_refl _)
    have h2 := h.2
    rw [List.length_append, h3, level_append_left _ _ _ _ _ (Nat.le_refl _)] at h2
    exact h2

theorem closed_rstrip {s : Str} (h : Balanced s '{' '}') : Closed (rstrip s) := by
  obtain ⟨ws, h1, h2⟩ := rstrip_eq s
  rw [h2] at h
  exact closed_of_balanced _ (balanced_trim _ _ h1 h)

theorem rstrip_append_nonspace (a b : Str) (h : ∃ c ∈ b, isSpace c = false) : rstrip (a ++ b) = a ++ rstrip b := by
  unfold rstrip
  rw [List.reverse_append, List.dropWhile_append]
  have : (b.reverse.dropWhile isSpace).isEmpty = false := by
    obtain ⟨c, hc, hs⟩ := h
    cases he : b.reverse.dropWhile isSpace with
    | cons _ _ => rfl
    | nil =>
      have h1 : ∀ c ∈ b.reverse, isSpace c = true := dropWhile_nil he
      have := h1 c (by simpa using hc)
      rw [hs] at this; cases this
  simp [this]

theorem dropWhile_eq_nil {p : Char → Bool} {l : Str} (h : ∀ c ∈ l, p c = true) : l.dropWhile p = [] := by
  induction l with
  | nil => rfl
  | cons x l ih => simp [h x (by simp), ih (fun c hc => h c (by simp [hc]))]

/-- The fields of a balanced entry, trimmed, keep every brace closed. -/
theorem closed_fields (content : Str) (h : Balanced content '{' '}') (k : Nat) : Closed (strip (content.drop k)) := by
  by_cases hs : ∃ c ∈ content.drop k, isSpace c = false
  · have h1 : ∃ c ∈ lstrip (content.drop k), isSpace c = false := by
      obtain ⟨c, hc, hsp⟩ := hs
      refine ⟨c, ?_, hsp⟩
      have : content.drop k = (content.drop k).takeWhile isSpace ++ lstrip (content.drop k) := by
        unfold lstrip; rw [List.takeWhile_append_dropWhile]
      rw [this, List.mem_append] at hc
      rcases hc with hc | hc
      ·         rw [takeWhile_all _ c hc] at hsp; cases hsp
      · exact hc
    have h2 := closed_rstrip h
    have h3 : content = (content.take k ++ (content.drop k).takeWhile isSpace) ++ lstrip (content.drop k) := by
      unfold lstrip; rw [List.append_assoc, List.takeWhile_append_dropWhile, List.take_append_drop]
    rw [h3, rstrip_append_nonspace _ _ h1] at h2
    exact h2.append_left
  · have : strip (content.drop k) = [] := by
      have hall : ∀ c ∈ content.drop k, isSpace c = true := by
        intro c hc
        cases hsp : isSpace c with
        | true => rfl
        | false => exact absurd ⟨c, hc, hsp⟩ hs
      unfold strip lstrip
      rw [dropWhile_eq_nil hall]; rfl
    rw [this]
    intro pre c rest he
    simp at he

theorem searchWith_some (m : Str → Option Nat) : ∀ (s : Str) (a e : Nat), searchWith m s = some (a, e) →
    a ≤ s.length ∧ ∃ n, m (s.drop a) = some n ∧ e = a + n := by
  intro s
  induction s with
  | nil =>
    intro a e h
    simp only [searchWith, Option.map_eq_some_iff] at h
    obtain ⟨n, hn, he⟩ := h
    injection he with h1 h2
    subst h1; subst h2
    exact ⟨Nat.le_refl _, n, hn, by simp⟩
  | cons x s ih =>
    intro a e h
    simp only [searchWith] at h
    split at h
    · rename_i n hn
      injection h with h; injection h with h1 h2
      subst h1; subst h2
      exact ⟨by omega, n, hn, by simp⟩
    · rw [Option.map_eq_some_iff] at h
      obtain ⟨⟨a', e'⟩, h1, h2⟩ := h
      injection h2 with h2 h3
      simp only at h2 h3
      subst h2; subst h3
      obtain ⟨g1, n, g2, g3⟩ := ih a' e' h1
      refine ⟨by simpa using g1, n, by simpa using g2, by omega⟩

/-- A field match is non-empty, inside the text, and the character before its end is not a backslash. -/
theorem matchField_some {s : Str} {n : Nat} (h : matchField s = some n) :
    2 ≤ n ∧ n ≤ s.length ∧ ∃ p c, s.take n = p ++ [c] ∧ c ≠ '\\' ∧ (s.drop n).takeWhile isSpace = [] := by
  unfold matchField at h
  simp only [] at h
  split at h
  · cases h
  · rename_i hw
    split at h
    · rename_i r' hr
      injection h with h
      generalize hW : s.takeWhile isWord = W at *
      generalize hR : s.drop W.length = R at *
      generalize hN : R.takeWhile isSpace = N at *
      have hs : s = W ++ (N ++ '=' :: r') := by
        have h1 : s = W ++ R := by
          rw [← hR, ← hW]
          have := List.takeWhile_append_dropWhile (p := isWord) (l := s)
          rw [← dropWhile_drop, this]
        have h2 : R = N ++ '=' :: r' := by
          rw [← hr, ← hN]
          have := List.takeWhile_append_dropWhile (p := isSpace) (l := R)
          rw [← dropWhile_drop, this]
        rw [h1, h2]
      generalize hV : r'.takeWhile isSpace = V at *
      have hr' : r' = V ++ r'.dropWhile isSpace := by rw [← hV, List.takeWhile_append_dropWhile]
      refine ⟨by omega, ?_, W ++ N ++ ('=' :: V).dropLast, ('=' :: V).getLast (by simp), ?_, ?_, ?_⟩
      · rw [hs, hr']; simp; omega
      · have : s = (W ++ N ++ '=' :: V) ++ r'.dropWhile isSpace := by rw [hs, hr']; simp [← hr']
        rw [this, show n = (W ++ N ++ '=' :: V).length by simp; omega, List.take_left, List.append_assoc,
          List.append_assoc, List.dropLast_concat_getLast, ← List.append_assoc]
      · intro hc
        have hm : '\\' ∈ '=' :: V := by rw [← hc]; exact List.getLast_mem _
        simp only [List.mem_cons] at hm
        rcases hm with hm | hm
        · revert hm; decide
        · rw [← hV] at hm
          have := takeWhile_all _ _ hm
          revert this; decide
      · have : s = (W ++ N ++ '=' :: V) ++ r'.dropWhile isSpace := by rw [hs, hr']; simp [← hr']
        rw [this, show n = (W ++ N ++ '=' :: V).length by simp; omega, List.drop_left]
        cases hd : r'.dropWhile isSpace with
        | nil => rfl
        | cons x l =>
          simp [dropWhile_head hd]
    · cases h

end L2J
