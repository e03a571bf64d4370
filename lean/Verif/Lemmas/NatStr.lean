import Verif.Model.Token
/-! Decimal rendering is what it should be: it reads back as the number and has no leading zero. -/
namespace L2J

/-- The number a string of decimal digits denotes. -/
def decVal (s : Str) : Nat := s.foldl (fun v c => 10 * v + (c.toNat - 48)) 0

theorem decVal_append (a b : Str) : decVal (a ++ b) = b.foldl (fun v c => 10 * v + (c.toNat - 48)) (decVal a) := by
  simp [decVal]

theorem digit_toNat (d : Nat) (h : d < 10) : (Char.ofNat (48 + d)).toNat = 48 + d := by
  have : d = 0 ∨ d = 1 ∨ d = 2 ∨ d = 3 ∨ d = 4 ∨ d = 5 ∨ d = 6 ∨ d = 7 ∨ d = 8 ∨ d = 9 := by omega
  rcases this with h | h | h | h | h | h | h | h | h | h <;> subst h <;> rfl

/-- A shorter description of `natStrAux`: the digits of `n` in front of `acc`. -/
theorem natStrAux_eq : ∀ (fuel n : Nat) (acc : Str), n < fuel → natStrAux fuel n acc = natStr n ++ acc := by
  have gen : ∀ (n fuel fuel' : Nat) (acc : Str), n < fuel → n < fuel' →
      natStrAux fuel n acc = natStrAux fuel' n [] ++ acc := by
    intro n
    induction n using Nat.strongRecOn with
    | _ n ih =>
      intro fuel fuel' acc h h'
      cases fuel with
      | zero => omega
      | succ f =>
        cases fuel' with
        | zero => omega
        | succ f' =>
          simp only [natStrAux]
          by_cases h0 : n / 10 = 0
          · rw [if_pos h0, if_pos h0]; rfl
          · rw [if_neg h0, if_neg h0]
            rw [ih (n / 10) (by omega) f f' _ (by omega) (by omega)]
            rw [ih (n / 10) (by omega) f' f' [_] (by omega) (by omega)]
            simp
  intro fuel n acc h
  exact gen n fuel (n + 1) acc h (by omega)

theorem natStr_lt (n : Nat) (h : n < 10) : natStr n = [Char.ofNat (48 + n)] := by
  unfold natStr
  simp only [natStrAux]
  rw [if_pos (by omega), Nat.mod_eq_of_lt h]

theorem natStr_ge (n : Nat) (h : 10 ≤ n) : natStr n = natStr (n / 10) ++ [Char.ofNat (48 + n % 10)] := by
  rw [natStr]
  simp only [natStrAux]
  rw [if_neg (by omega), natStrAux_eq _ _ _ (by omega)]

theorem natStr_digits (n : Nat) : ∀ c ∈ natStr n, 48 ≤ c.toNat ∧ c.toNat < 58 := by
  induction n using Nat.strongRecOn with
  | _ n ih =>
    intro c hc
    by_cases h : n < 10
    · rw [natStr_lt n h] at hc
      simp only [List.mem_singleton] at hc
      subst hc
      rw [digit_toNat n h]; omega
    · rw [natStr_ge n (by omega)] at hc
      simp only [List.mem_append, List.mem_singleton] at hc
      rcases hc with hc | hc
      · exact ih (n / 10) (by omega) c hc
      · subst hc
        rw [digit_toNat _ (by omega)]; omega

theorem natStr_val (n : Nat) : decVal (natStr n) = n := by
  induction n using Nat.strongRecOn with
  | _ n ih =>
    by_cases h : n < 10
    · rw [natStr_lt n h]
      simp only [decVal, List.foldl_cons, List.foldl_nil, digit_toNat n h]; omega
    · rw [natStr_ge n (by omega), decVal_append, ih (n / 10) (by omega)]
      simp only [List.foldl_cons, List.foldl_nil, digit_toNat (n % 10) (by omega)]; omega

theorem natStr_injective {m n : Nat} (h : natStr m = natStr n) : m = n := by
  rw [← natStr_val m, ← natStr_val n, h]

theorem natStr_ne_nil (n : Nat) : natStr n ≠ [] := by
  by_cases h : n < 10
  · rw [natStr_lt n h]; simp
  · rw [natStr_ge n (by omega)]; simp

theorem natStr_head (n : Nat) (h : 0 < n) : (natStr n).head? ≠ some '0' := by
  induction n using Nat.strongRecOn with
  | _ n ih =>
    by_cases h' : n < 10
    · rw [natStr_lt n h']
      intro hc
      have := congrArg Char.toNat (Option.some.inj hc)
      rw [digit_toNat n h'] at this
      have h0 : ('0' : Char).toNat = 48 := rfl
      omega
    · rw [natStr_ge n (by omega), List.head?_append]
      have := ih (n / 10) (by omega) (by omega)
      cases hh : (natStr (n / 10)).head? with
      | none => exact absurd (List.head?_eq_none_iff.1 hh) (natStr_ne_nil _)
      | some c => rw [hh] at this; simpa using this

theorem dot_not_digit (n : Nat) : '.' ∉ natStr n := by
  intro h
  have := natStr_digits n _ h
  have h0 : ('.' : Char).toNat = 46 := rfl
  omega

end L2J
