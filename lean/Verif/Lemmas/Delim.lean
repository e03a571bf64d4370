import Verif.Model.Delim
import Verif.Spec.Delim
namespace L2J
open Spec

theorem isEscaped_nil : isEscaped [] = false := rfl
theorem isEscaped_cons (x : Char) (rev : Str) :
    isEscaped (x :: rev) = (x == '\\' && !isEscaped rev) := by
  unfold isEscaped
  by_cases h : x == '\\'
  · simp only [countPrecedingBackslashes, h, if_true, Bool.true_and]
    rcases Nat.mod_two_eq_zero_or_one (countPrecedingBackslashes rev) with h1 | h1 <;>
      simp [Nat.add_mod, h1]
  · simp [countPrecedingBackslashes, h]

/-- The zipper's escape test agrees with the positional specification. -/
theorem escapedAt_zip (rev rest : Str) :
    escapedAt (rev.reverse ++ rest) rev.length = isEscaped rev := by
  induction rev generalizing rest with
  | nil => rfl
  | cons x rev ih =>
    have := ih (x :: rest)
    simp only [List.reverse_cons, List.append_assoc, List.singleton_append, List.length_cons,
      escapedAt, isEscaped_cons] at *
    rw [this]
    congr 1
    rw [List.getElem?_append_right (by simp)]
    simp

theorem liveAt_zip (rev rest : Str) (x d : Char) :
    liveAt (rev.reverse ++ x :: rest) d rev.length = (x == d && !isEscaped rev) := by
  unfold liveAt
  rw [escapedAt_zip]
  congr 1
  rw [List.getElem?_append_right (by simp)]
  simp

/-- Step contribution at a zipper. -/
def delta (o c : Char) (rev : Str) (x : Char) : Int :=
  if x == o && !isEscaped rev then 1 else if x == c && !isEscaped rev then -1 else 0

theorem level_zip_succ (rev rest : Str) (x o c : Char) :
    level (rev.reverse ++ x :: rest) o c (rev.length + 1) =
      level (rev.reverse ++ x :: rest) o c rev.length + delta o c rev x := by
  simp only [level, liveAt_zip, delta]

theorem findMatchLoop_iff (o c : Char) (rest : Str) : ∀ (rev : Str) (depth : Nat) (b : Int) (e : Nat),
    1 ≤ depth → level (rev.reverse ++ rest) o c rev.length = b + depth →
    (findMatchLoop o c rev depth rest = some e ↔
      rev.length < e ∧ e ≤ (rev.reverse ++ rest).length ∧
      level (rev.reverse ++ rest) o c e = b ∧
      ∀ j, rev.length < j → j < e → b < level (rev.reverse ++ rest) o c j) := by
  induction rest with
  | nil =>
    intro rev depth b e hd hl
    simp only [findMatchLoop, List.append_nil, List.length_reverse]
    constructor
    · intro h; cases h
    · rintro ⟨h1, h2, _⟩; omega
  | cons x rest ih =>
    intro rev depth b e hd hl
    have hs := level_zip_succ rev rest x o c
    have key : ∀ d', level (rev.reverse ++ x :: rest) o c (rev.length + 1) = b + (d' : Nat) → 1 ≤ d' →
        (findMatchLoop o c (x :: rev) d' rest = some e ↔
          rev.length < e ∧ e ≤ (rev.reverse ++ x :: rest).length ∧
          level (rev.reverse ++ x :: rest) o c e = b ∧
          ∀ j, rev.length < j → j < e → b < level (rev.reverse ++ x :: rest) o c j) := by
      intro d' hl' hd'
      have := ih (x :: rev) d' b e hd' (by simpa using hl')
      simp only [List.reverse_cons, List.append_assoc, List.singleton_append, List.length_cons] at this
      rw [this]
      constructor
      · rintro ⟨h1, h2, h3, h4⟩
        refine ⟨by omega, h2, h3, ?_⟩
        intro j hj hje
        by_cases hj' : j = rev.length + 1
        · subst hj'; omega
        · exact h4 j (by omega) hje
      · rintro ⟨h1, h2, h3, h4⟩
        refine ⟨?_, h2, h3, fun j hj hje => h4 j (by omega) hje⟩
        by_cases he : e = rev.length + 1
        · subst he; omega
        · omega
    unfold findMatchLoop
    unfold delta at hs
    split
    · rename_i hx
      rw [if_pos hx] at hs
      exact key (depth + 1) (by omega) (by omega)
    · rename_i hx
      rw [if_neg hx] at hs
      split
      · rename_i hc
        rw [if_pos hc] at hs
        rw [if_neg (by omega)]
        split
        · constructor
          · intro h
            injection h with h
            subst h
            refine ⟨by omega, by simp, by omega, fun j hj hje => by omega⟩
          · rintro ⟨h1, h2, h3, h4⟩
            by_cases he : e = rev.length + 1
            · rw [he]
            · have := h4 (rev.length + 1) (by omega) (by omega)
              omega
        · exact key (depth - 1) (by omega) (by omega)
      · rename_i hc
        rw [if_neg hc] at hs
        exact key depth (by omega) hd

theorem skipSpace_spec (rest : Str) : ∀ rev,
    skipSpace rev rest = ((rest.takeWhile isSpace).reverse ++ rev, rest.dropWhile isSpace) := by
  induction rest with
  | nil => intro rev; rfl
  | cons x rest ih =>
    intro rev
    unfold skipSpace
    by_cases h : isSpace x
    · simp [h, ih]
    · simp [h]

theorem checkBalanceLoop_iff (o c : Char) (rest : Str) : ∀ (rev : Str) (depth : Nat),
    level (rev.reverse ++ rest) o c rev.length = depth →
    (checkBalanceLoop o c rev depth rest = true ↔
      (∀ j, rev.length ≤ j → j ≤ (rev.reverse ++ rest).length → 0 ≤ level (rev.reverse ++ rest) o c j) ∧
      level (rev.reverse ++ rest) o c (rev.reverse ++ rest).length = 0) := by
  induction rest with
  | nil =>
    intro rev depth hl
    simp only [checkBalanceLoop, List.append_nil, List.length_reverse] at *
    constructor
    · intro h
      simp at h
      refine ⟨fun j h1 h2 => ?_, by omega⟩
      have : j = rev.length := by omega
      subst this; omega
    · rintro ⟨_, h⟩; simp; omega
  | cons x rest ih =>
    intro rev depth hl
    have hs := level_zip_succ rev rest x o c
    have key : ∀ d' : Nat, level (rev.reverse ++ x :: rest) o c (rev.length + 1) = d' →
        (checkBalanceLoop o c (x :: rev) d' rest = true ↔
          (∀ j, rev.length ≤ j → j ≤ (rev.reverse ++ x :: rest).length →
            0 ≤ level (rev.reverse ++ x :: rest) o c j) ∧
          level (rev.reverse ++ x :: rest) o c (rev.reverse ++ x :: rest).length = 0) := by
      intro d' hl'
      have := ih (x :: rev) d' (by simpa using hl')
      simp only [List.reverse_cons, List.append_assoc, List.singleton_append, List.length_cons] at this
      rw [this]
      constructor
      · rintro ⟨h1, h2⟩
        refine ⟨fun j hj hje => ?_, h2⟩
        by_cases hj' : j = rev.length
        · subst hj'; omega
        · exact h1 j (by omega) hje
      · rintro ⟨h1, h2⟩
        exact ⟨fun j hj hje => h1 j (by omega) hje, h2⟩
    unfold checkBalanceLoop
    unfold delta at hs
    split
    · rename_i hx
      rw [if_pos hx] at hs
      exact key (depth + 1) (by omega)
    · rename_i hx
      rw [if_neg hx] at hs
      split
      · rename_i hc
        rw [if_pos hc] at hs
        split
        · constructor
          · intro h; cases h
          · rintro ⟨h1, _⟩
            have := h1 (rev.length + 1) (by omega) (by simp)
            omega
        · exact key (depth - 1) (by omega)
      · rename_i hc
        rw [if_neg hc] at hs
        exact key depth (by omega)

end L2J
