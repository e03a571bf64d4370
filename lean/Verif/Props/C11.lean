import Verif.Model.Roman
import Verif.Spec.Roman
/-! C11: `int_to_roman`. -/
namespace L2J
open Spec

/-- The `while` loop divides: it appends the symbol `num / value` times and leaves the remainder. -/
theorem romanWhile_eq (symbol : Str) (value : Nat) (hv : 0 < value) : ∀ (fuel n : Nat) (acc : Str), n < fuel →
    romanWhile symbol value fuel n acc =
      (acc ++ (List.replicate (n / value) symbol).flatten, ((n % value : Nat) : Int)) := by
  intro fuel
  induction fuel with
  | zero => intro n acc h; omega
  | succ fuel ih =>
    intro n acc h
    unfold romanWhile
    by_cases hc : (n : Int) ≥ value
    · rw [if_pos hc]
      have hle : value ≤ n := by omega
      rw [show (n : Int) - value = ((n - value : Nat) : Int) by omega]
      rw [ih (n - value) (acc ++ symbol) (by omega)]
      have h1 : n / value = (n - value) / value + 1 := by
        rw [Nat.div_eq_sub_div hv hle]
      have h2 : (n - value) % value = n % value := (Nat.mod_eq_sub_mod hle).symm
      rw [h1, h2, List.replicate_succ, List.flatten_cons]
      simp
    · rw [if_neg hc]
      have hlt : n < value := by omega
      simp [Nat.div_eq_of_lt hlt, Nat.mod_eq_of_lt hlt]

/-- C11 (termination): the loop has exited when the fuel `num + 1` is used up — the remaining number is
below the value. -/
theorem C11_loop_exits (symbol : Str) (value : Nat) (hv : 0 < value) (num : Int) (acc : Str) :
    (romanWhile symbol value (num.toNat + 1) num acc).2 < value := by
  by_cases h : num < 0
  · unfold romanWhile
    rw [if_neg (by omega)]
    show num < value
    omega
  · obtain ⟨n, rfl⟩ : ∃ n : Nat, num = n := ⟨num.toNat, by omega⟩
    rw [show (n : Int).toNat = n by omega, romanWhile_eq symbol value hv _ n acc (by omega)]
    have := Nat.mod_lt n hv
    show ((n % value : Nat) : Int) < value
    omega

theorem romanFor_acc : ∀ (l : List (Str × Nat)) (n : Nat) (acc : Str), (∀ p ∈ l, 0 < p.2) →
    romanFor l n acc = acc ++ romanFor l n []
  | [], n, acc, _ => by simp [romanFor]
  | (s, v) :: l, n, acc, h => by
    have hv : 0 < v := h (s, v) (by simp)
    have hl : ∀ p ∈ l, 0 < p.2 := fun p hp => h p (by simp [hp])
    unfold romanFor
    simp only [show (n : Int).toNat = n by omega]
    rw [romanWhile_eq s v hv _ n acc (by omega), romanWhile_eq s v hv _ n [] (by omega)]
    rw [romanFor_acc l (n % v) _ hl, romanFor_acc l (n % v) ([] ++ _) hl]
    simp

theorem romanSymbols_pos : ∀ p ∈ romanSymbols, 0 < p.2 := by decide

theorem roman_thousands (n : Nat) :
    intToRoman n = List.replicate (n / 1000) 'm' ++ intToRoman (n % 1000 : Nat) := by
  have ht : ∀ p ∈ romanSymbols.tail, 0 < p.2 := by decide
  have e : ∀ n : Nat, intToRoman n =
      (List.replicate (n / 1000) 'm') ++ (romanFor romanSymbols.tail (n % 1000 : Nat) []).map asciiLower := by
    intro n
    unfold intToRoman
    rw [show romanSymbols = ("M".toList, 1000) :: romanSymbols.tail from rfl]
    unfold romanFor
    simp only [show (n : Int).toNat = n by omega]
    rw [romanWhile_eq _ 1000 (by omega) _ n [] (by omega), romanFor_acc _ _ _ ht]
    simp only [List.map_append, List.nil_append]
    congr 1
    rw [show "M".toList = ['M'] from rfl]
    rw [← List.flatMap_id, List.flatMap_replicate]
    simp [List.flatten_replicate_singleton]
    exact Or.inr (by decide)
  rw [e n, e (n % 1000)]
  rw [Nat.mod_mod, Nat.div_eq_of_lt (Nat.mod_lt n (by omega))]
  simp

/-- The whole table of remainders. -/
theorem roman_table : ∀ r : Fin 1000, romanValue (intToRoman (r.val : Nat)) = some (r.val : Int) := by
  decide +kernel

theorem romanDigit_le (c : Char) (v : Nat) (h : romanDigit c = some v) : v ≤ 1000 := by
  unfold romanDigit at h
  split at h <;> simp at h <;> omega

theorem romanValue_m (s : Str) (x : Int) (h : romanValue s = some x) : ∀ k : Nat,
    romanValue (List.replicate k 'm' ++ s) = some (1000 * k + x)
  | 0 => by simpa using h
  | k + 1 => by
    have ih := romanValue_m s x h k
    rw [List.replicate_succ, List.cons_append]
    unfold romanValue
    rw [ih]
    have hm : romanDigit 'm' = some 1000 := rfl
    simp only [hm, Option.bind_eq_bind, Option.bind_some, Option.pure_def]
    cases hh : (List.replicate k 'm' ++ s).head? with
    | none => simp; omega
    | some d =>
      cases hd : romanDigit d with
      | none =>
        exfalso
        cases hs : List.replicate k 'm' ++ s with
        | nil => rw [hs] at hh; simp at hh
        | cons y ys =>
          rw [hs] at hh ih
          simp at hh; subst hh
          unfold romanValue at ih
          rw [hd] at ih
          simp at ih
      | some u =>
        have := romanDigit_le d u hd
        simp only [hd, Option.bind_some]
        rw [if_neg (by omega)]
        simp; omega

/-- C11: the numeral produced for `n` denotes `n` under the subtractive reading. -/
theorem C11_value (n : Nat) : romanValue (intToRoman n) = some (n : Int) := by
  rw [roman_thousands]
  have h := roman_table ⟨n % 1000, Nat.mod_lt n (by omega)⟩
  rw [romanValue_m _ _ h]
  congr 1
  simp only []
  omega

/-- C11: distinct numbers get distinct numerals. -/
theorem C11_injective (m n : Nat) (h : intToRoman m = intToRoman n) : m = n := by
  have h1 := C11_value m
  rw [h, C11_value n] at h1
  injection h1 with h1
  omega

/-- C11: the canonical form: a run of `m`s followed by the numeral of the remainder below 1000, which
has at most 12 letters. -/
theorem C11_canonical (n : Nat) :
    ∃ s, intToRoman n = List.replicate (n / 1000) 'm' ++ s ∧ s = intToRoman (n % 1000 : Nat) ∧ s.length ≤ 12 := by
  refine ⟨_, roman_thousands n, rfl, ?_⟩
  have h : ∀ r : Fin 1000, (intToRoman (r.val : Nat)).length ≤ 12 := by decide +kernel
  exact h ⟨n % 1000, Nat.mod_lt n (by omega)⟩

/-- C11: the numeral is the standard one, digit by digit. -/
theorem C11_standard (n : Nat) : intToRoman n = standardRoman n := by
  rw [roman_thousands n]
  have h : ∀ r : Fin 1000, intToRoman (r.val : Nat) = romanOfDigit 'c' 'd' 'm' (r.val / 100 % 10) ++
    romanOfDigit 'x' 'l' 'c' (r.val / 10 % 10) ++ romanOfDigit 'i' 'v' 'x' (r.val % 10) := by decide +kernel
  have := h ⟨n % 1000, Nat.mod_lt n (by omega)⟩
  simp only at this
  rw [this]
  unfold standardRoman
  have e1 : n % 1000 / 100 % 10 = n / 100 % 10 := by omega
  have e2 : n % 1000 / 10 % 10 = n / 10 % 10 := by omega
  have e3 : n % 1000 % 10 = n % 10 := by omega
  rw [e1, e2, e3, List.append_assoc, List.append_assoc, List.append_assoc]

/-- Outside the positive numbers the result is empty. -/
theorem C11_nonpositive (z : Int) (h : z ≤ 0) : intToRoman z = [] := by
  have e : ∀ l, (∀ p ∈ l, 0 < p.2) → romanFor l z [] = [] := by
    intro l
    induction l with
    | nil => intro _; rfl
    | cons p l ih =>
      intro hp
      obtain ⟨s, v⟩ := p
      have hv : 0 < v := hp (s, v) (by simp)
      unfold romanFor romanWhile
      rw [if_neg (by omega)]
      exact ih (fun q hq => hp q (by simp [hq]))
  unfold intToRoman
  rw [e _ romanSymbols_pos]; rfl

example : intToRoman 1994 = "mcmxciv".toList := by decide +kernel

end L2J
