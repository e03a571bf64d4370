import Verif.Spec.Encoding
/-! The beginnings of the UTF-8 bytes of the characters. -/
namespace L2J.Enc
open L2J.Spec

theorem second_iff {x y : UInt8} : second x y = true ↔ 128 ≤ y.toNat ∧ y.toNat ≤ 191 ∧
    (224 ≤ x.toNat ∧ x.toNat ≤ 239 ∧ (x.toNat = 224 → 160 ≤ y.toNat) ∧ (x.toNat = 237 → y.toNat ≤ 159) ∨
     240 ≤ x.toNat ∧ x.toNat ≤ 244 ∧ (x.toNat = 240 → 144 ≤ y.toNat) ∧ (x.toNat = 244 → y.toNat ≤ 143)) := by
  have e : ∀ k : UInt8, (x = k) ↔ x.toNat = k.toNat := fun k => ⟨fun h => by rw [h], fun h => UInt8.toNat_inj.1 h⟩
  unfold second
  simp only [UInt8.le_iff_toNat_le, e]
  simp only [show (0xE0 : UInt8).toNat = 224 from rfl, show (0xED : UInt8).toNat = 237 from rfl, show (0xE1 : UInt8).toNat = 225 from rfl, show (0xEF : UInt8).toNat = 239 from rfl,
    show (0xF0 : UInt8).toNat = 240 from rfl, show (0xF4 : UInt8).toNat = 244 from rfl, show (0xF1 : UInt8).toNat = 241 from rfl, show (0xF3 : UInt8).toNat = 243 from rfl,
    show (0xA0 : UInt8).toNat = 160 from rfl, show (0xBF : UInt8).toNat = 191 from rfl, show (0x80 : UInt8).toNat = 128 from rfl, show (0x9F : UInt8).toNat = 159 from rfl,
    show (0x90 : UInt8).toNat = 144 from rfl, show (0x8F : UInt8).toNat = 143 from rfl]
  repeat' split
  all_goals simp only [Bool.and_eq_true, decide_eq_true_eq, Bool.false_eq_true] at *
  all_goals first | omega | exact ⟨fun h => h.elim, fun h => by omega⟩

theorem char_val {n : Nat} (h : n < 0xd800 ∨ 0xdfff < n ∧ n < 0x110000) : (Char.ofNat n).val.toNat = n := by
  have : n.isValidChar := h
  unfold Char.ofNat
  rw [dif_pos this]
  rfl

theorem byte {n : Nat} {x : UInt8} (h : n = x.toNat) : UInt8.ofNat n = x := by rw [h]; simp

theorem begins_two {x y : UInt8} (h : second x y = true) : ∃ c, [x, y] <+: String.utf8EncodeChar c := by
  rw [second_iff] at h
  have hx := x.toNat_lt
  obtain ⟨h1, h2, ⟨h3, h4, h5, h6⟩ | ⟨h3, h4, h5, h6⟩⟩ := h
  · refine ⟨Char.ofNat ((x.toNat - 224) * 4096 + (y.toNat - 128) * 64), ?_⟩
    have hv : (Char.ofNat ((x.toNat - 224) * 4096 + (y.toNat - 128) * 64)).val.toNat = (x.toNat - 224) * 4096 + (y.toNat - 128) * 64 := char_val (by omega)
    unfold String.utf8EncodeChar
    simp only [hv]
    rw [if_neg (by omega), if_neg (by omega), if_pos (by omega), byte (x := x) (by omega), byte (x := y) (by omega)]
    exact ⟨_, rfl⟩
  · refine ⟨Char.ofNat ((x.toNat - 240) * 262144 + (y.toNat - 128) * 4096), ?_⟩
    have hv : (Char.ofNat ((x.toNat - 240) * 262144 + (y.toNat - 128) * 4096)).val.toNat = (x.toNat - 240) * 262144 + (y.toNat - 128) * 4096 := char_val (by omega)
    unfold String.utf8EncodeChar
    simp only [hv]
    rw [if_neg (by omega), if_neg (by omega), if_neg (by omega), byte (x := x) (by omega), byte (x := y) (by omega)]
    exact ⟨_, rfl⟩

theorem begins_three {x y z : UInt8} (h : second x y = true) (hx : 240 ≤ x.toNat) (hz : 128 ≤ z.toNat ∧ z.toNat ≤ 191) : ∃ c, [x, y, z] <+: String.utf8EncodeChar c := by
  rw [second_iff] at h
  obtain ⟨h1, h2, ⟨h3, h4, h5, h6⟩ | ⟨h3, h4, h5, h6⟩⟩ := h
  · omega
  · refine ⟨Char.ofNat ((x.toNat - 240) * 262144 + (y.toNat - 128) * 4096 + (z.toNat - 128) * 64), ?_⟩
    have hv : (Char.ofNat ((x.toNat - 240) * 262144 + (y.toNat - 128) * 4096 + (z.toNat - 128) * 64)).val.toNat =
        (x.toNat - 240) * 262144 + (y.toNat - 128) * 4096 + (z.toNat - 128) * 64 := char_val (by omega)
    unfold String.utf8EncodeChar
    simp only [hv]
    rw [if_neg (by omega), if_neg (by omega), if_neg (by omega), byte (x := x) (by omega), byte (x := y) (by omega), byte (x := z) (by omega)]
    exact ⟨_, rfl⟩

/-- The two forms of a character of more than two bytes. -/
theorem enc_cases (c : Char) : (String.utf8EncodeChar c).length ≤ 2 ∨
    (∃ x y z, String.utf8EncodeChar c = [x, y, z] ∧ second x y = true) ∨
    ∃ x y z w, String.utf8EncodeChar c = [x, y, z, w] ∧ second x y = true ∧ 240 ≤ x.toNat ∧ 128 ≤ z.toNat ∧ z.toNat ≤ 191 := by
  have hv : c.val.toNat < 0xd800 ∨ 0xdfff < c.val.toNat ∧ c.val.toNat < 0x110000 := c.valid
  unfold String.utf8EncodeChar
  simp only
  split
  · left; simp
  split
  · left; simp
  split
  · right; left
    refine ⟨_, _, _, rfl, ?_⟩
    rw [second_iff]
    simp only [UInt8.toNat_ofNat']
    omega
  · right; right
    refine ⟨_, _, _, _, rfl, ?_, ?_⟩
    · rw [second_iff]
      simp only [UInt8.toNat_ofNat']
      omega
    · simp only [UInt8.toNat_ofNat']
      omega

theorem badLen_begins {b : Bytes} (hb : b ≠ []) : (b.take (badLen b)).length = 1 ∨ ∃ c, b.take (badLen b) <+: String.utf8EncodeChar c := by
  unfold badLen
  split
  · next x y z r =>
    split
    · next h =>
      right
      split
      · next h2 =>
        simp only [Bool.and_eq_true, decide_eq_true_eq, UInt8.le_iff_toNat_le] at h2
        exact begins_three h h2.1 h2.2
      · exact begins_two h
    · left; rfl
  · next x y =>
    split
    · next h => right; exact begins_two h
    · left; rfl
  · left
    cases b with
    | nil => exact absurd rfl hb
    | cons x b => rfl

theorem badLen_longest {b p : Bytes} {c : Char} (hn : ¬ String.utf8EncodeChar c <+: b) (hp : p <+: b) (hc : p <+: String.utf8EncodeChar c) : p.length ≤ badLen b := by
  have hne : p.length < (String.utf8EncodeChar c).length := by
    rcases Nat.lt_or_ge p.length (String.utf8EncodeChar c).length with h | h
    · exact h
    · exact absurd (hc.eq_of_length_le h ▸ hp) hn
  have h1 : 1 ≤ badLen b := by
    unfold badLen
    repeat' split
    all_goals omega
  rcases Nat.lt_or_ge p.length 2 with h2 | h2
  · omega
  rcases enc_cases c with h | ⟨x, y, z, h, h3⟩ | ⟨x, y, z, w, h, h3, h4, h5, h6⟩
  · omega
  · rw [h] at hne hc
    have : p = [x, y] := by
      obtain ⟨q, hq⟩ := hc
      match p, h2, hne with
      | [a, b], _, _ => injection hq with e1 hq; injection hq with e2 hq; rw [e1, e2]
    subst this
    obtain ⟨r, rfl⟩ := hp
    cases r with
    | nil => simp [badLen, h3]
    | cons v r => simp only [List.cons_append, List.nil_append, badLen, h3, if_true, List.length_cons, List.length_nil]; split <;> omega
  · rw [h] at hne hc
    obtain ⟨q, hq⟩ := hc
    match p, h2, hne with
    | [a, b'], _, _ =>
      injection hq with e1 hq; injection hq with e2 hq
      subst e1 e2
      obtain ⟨r, rfl⟩ := hp
      cases r with
      | nil => simp [badLen, h3]
      | cons v r => simp only [List.cons_append, List.nil_append, badLen, h3, if_true, List.length_cons, List.length_nil]; split <;> omega
    | [a, b', d], _, _ =>
      injection hq with e1 hq; injection hq with e2 hq; injection hq with e3 hq
      subst e1 e2 e3
      obtain ⟨r, rfl⟩ := hp
      have : ((0xF0 : UInt8) ≤ a && ((0x80 : UInt8) ≤ d && d ≤ 0xBF)) = true := by
        simp only [Bool.and_eq_true, decide_eq_true_eq, UInt8.le_iff_toNat_le]
        exact ⟨h4, h5, h6⟩
      simp only [List.cons_append, List.nil_append, badLen, h3, this, if_true, List.length_cons, List.length_nil]
      omega

end L2J.Enc
