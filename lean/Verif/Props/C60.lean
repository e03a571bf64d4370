import Verif.Spec.Author
import Verif.Props.C58
/-! C60: authors. -/
namespace L2J.Author
open Spec Content

theorem lower_cases (x : Char) : (x.toLower = x ∧ ¬ (65 ≤ x.toNat ∧ x.toNat ≤ 90)) ∨ (x.toLower.toNat = x.toNat + 32 ∧ 65 ≤ x.toNat ∧ x.toNat ≤ 90) := by
  unfold Char.toLower
  split
  · rename_i h
    refine .inr ?_
    obtain ⟨h1, h2⟩ := h
    have h1 : 65 ≤ x.toNat := h1
    have h2 : x.toNat ≤ 90 := h2
    refine ⟨?_, h1, h2⟩
    show (x.val + ('a'.val - 'A'.val)).toNat = x.toNat + 32
    rw [UInt32.toNat_add]
    show (x.toNat + 32) % 4294967296 = _
    omega
  · rename_i h
    refine .inl ⟨rfl, fun hh => h ⟨hh.1, hh.2⟩⟩

theorem le_nat (a b : Char) : a ≤ b ↔ a.toNat ≤ b.toNat := Iff.rfl

theorem ci_of_lower {c x : Char} (hc : c = '\\' ∨ ('a' ≤ c ∧ c ≤ 'z')) (h : x.toLower = c) : ciChar c x = true := by
  rcases lower_cases x with ⟨h1, _⟩ | ⟨h1, h2, h3⟩
  · rw [h1] at h; subst h; simp [ciChar]
  · rw [h] at h1
    rcases hc with rfl | hc
    · exfalso
      have : '\\'.toNat = 92 := rfl
      omega
    · unfold ciChar
      simp [hc.1, hc.2, h1]

theorem lower_of_ci {c d x : Char} (hc : c = '\\' ∨ ('a' ≤ c ∧ c ≤ 'z')) (hd : d = '\\' ∨ ('a' ≤ d ∧ d ≤ 'z')) (h : ciChar c x = true) (h2 : x.toLower = d) : c = d := by
  have hdn : d.toNat ≤ 122 ∧ ¬ (65 ≤ d.toNat ∧ d.toNat ≤ 90) := by
    rcases hd with rfl | ⟨h3, h4⟩
    · decide
    · rw [le_nat] at h3 h4
      have : 'a'.toNat = 97 := rfl
      have : 'z'.toNat = 122 := rfl
      omega
  have hx : x.toNat ≤ 122 := by
    rcases lower_cases x with ⟨h1, _⟩ | ⟨h1, _, h3⟩
    · rw [h1] at h2; rw [h2]; exact hdn.1
    · omega
  unfold ciChar at h
  simp only [Bool.or_eq_true, Bool.and_eq_true, beq_iff_eq, decide_eq_true_eq] at h
  rcases h with (((h | h) | h) | h) | h
  · subst h
    rcases lower_cases x with ⟨h1, _⟩ | ⟨h1, h3, h4⟩
    · rw [← h2, h1]
    · exfalso
      rcases hc with rfl | ⟨hc, _⟩
      · have : '\\'.toNat = 92 := rfl
        omega
      · rw [le_nat] at hc
        have : 'a'.toNat = 97 := rfl
        omega
  · obtain ⟨⟨h3, h4⟩, h5⟩ := h
    rw [le_nat] at h3 h4
    have : 'a'.toNat = 97 := rfl
    have : 'z'.toNat = 122 := rfl
    rcases lower_cases x with ⟨_, h6⟩ | ⟨h1, _, _⟩
    · omega
    · rw [h2] at h1
      exact Char.toNat_inj.1 (by omega)
  · omega
  · omega
  · omega

/-- Written in lower case. -/
def Low (kw : Str) : Prop := ∀ c ∈ kw, c = '\\' ∨ ('a' ≤ c ∧ c ≤ 'z')

theorem sameWord_cons {c : Char} {kw w : Str} (h : SameWord (c :: kw) w) : ∃ x w', w = x :: w' ∧ x.toLower = c ∧ SameWord kw w' := by
  cases w with
  | nil => cases h
  | cons x w => unfold SameWord at h; rw [List.map_cons] at h; injection h with h1 h2; exact ⟨x, w, rfl, h1, h2⟩

theorem sameWord_length {kw w : Str} (h : SameWord kw w) : w.length = kw.length := by rw [← h, List.length_map]

theorem ciDrop_prefix {a b : Str} (ha : Low a) : ∀ {w : Str}, SameWord (a ++ b) w → ∃ w2, SameWord b w2 ∧ ∀ X, ciDrop a (w ++ X) = some (w2 ++ X) := by
  induction a with
  | nil => intro w h; exact ⟨w, h, fun X => rfl⟩
  | cons c a ih =>
    intro w h
    obtain ⟨x, w', rfl, h1, h2⟩ := sameWord_cons h
    obtain ⟨w2, h3, h4⟩ := ih (fun y hy => ha y (by simp [hy])) h2
    refine ⟨w2, h3, fun X => ?_⟩
    rw [List.cons_append]
    unfold ciDrop
    rw [if_pos (ci_of_lower (ha c (by simp)) h1), h4]

theorem ciDrop_hit {kw w : Str} (hk : Low kw) (h : SameWord kw w) (X : Str) : ciDrop kw (w ++ X) = some X := by
  obtain ⟨w2, h1, h2⟩ := ciDrop_prefix (b := []) hk (by rw [List.append_nil]; exact h)
  have : w2 = [] := List.eq_nil_of_length_eq_zero (sameWord_length h1)
  subst this
  exact h2 X

theorem ciDrop_miss : ∀ {a b w : Str}, Low a → Low b → SameWord b w → ¬ a <+: b → ¬ b <+: a → ∀ X, ciDrop a (w ++ X) = none
  | [], b, w, _, _, _, h1, _, _ => absurd (List.nil_prefix) h1
  | _ :: _, [], w, _, _, _, _, h2, _ => absurd (List.nil_prefix) h2
  | c :: a, d :: b, w, ha, hb, hw, h1, h2, X => by
    obtain ⟨x, w', rfl, hx, hw'⟩ := sameWord_cons hw
    rw [List.cons_append]
    unfold ciDrop
    split
    · rename_i hc
      have e : c = d := lower_of_ci (ha c (by simp)) (hb d (by simp)) hc hx
      subst e
      exact ciDrop_miss (fun y hy => ha y (by simp [hy])) (fun y hy => hb y (by simp [hy])) hw' (fun h => h1 (List.cons_prefix_cons.2 ⟨rfl, h⟩)) (fun h => h2 (List.cons_prefix_cons.2 ⟨rfl, h⟩)) X
    · rfl

theorem brace_hit (ws r : Str) (hws : ∀ c ∈ ws, isSpace c = true) : brace (ws ++ '{' :: r) = some ws.length := by
  obtain ⟨d1, d2⟩ := Style.dropWhile_ws' ws '{' r hws (by decide)
  unfold brace
  rw [d1, d2]
  rfl

theorem brace_some {s : Str} {n : Nat} (h : brace s = some n) : ∃ ws r, (∀ c ∈ ws, isSpace c = true) ∧ s = ws ++ '{' :: r ∧ n = ws.length := by
  unfold brace at h
  split at h
  · rename_i hh
    injection h with h
    cases hd : s.dropWhile isSpace with
    | nil => rw [hd] at hh; cases hh
    | cons x r =>
      rw [hd] at hh
      injection hh with hh
      subst hh
      exact ⟨s.takeWhile isSpace, r, fun x hx => List.all_eq_true.1 List.all_takeWhile x hx, by rw [← hd, List.takeWhile_append_dropWhile], h.symm⟩
  · cases h

theorem closing_hit (ws r : Str) (hws : ∀ c ∈ ws, isSpace c = true) : ∀ (o : Str), (∀ u b v, o = u ++ ']' :: (b ++ '{' :: v) → ∃ c ∈ b, isSpace c = false) →
    closing (o ++ ']' :: (ws ++ '{' :: r)) = some (o.length + 1 + ws.length)
  | [], _ => by
    rw [List.nil_append]
    unfold closing
    rw [if_pos rfl, brace_hit ws r hws]
    simp; omega
  | c :: o, h => by
    rw [List.cons_append]
    unfold closing
    have h0 : (if c = ']' then brace (o ++ ']' :: (ws ++ '{' :: r)) else none) = none := by
      split
      · rename_i hc
        subst hc
        cases hb : brace (o ++ ']' :: (ws ++ '{' :: r)) with
        | none => rfl
        | some n =>
          exfalso
          obtain ⟨b, v, hb1, hb2, _⟩ := brace_some hb
          rcases List.append_eq_append_iff.1 hb2 with ⟨a, h1, h2⟩ | ⟨a, h1, h2⟩
          · cases a with
            | nil => cases h2
            | cons y a =>
              injection h2 with h2 _
              subst h2
              exact absurd (hb1 ']' (by rw [h1]; simp)) (by decide)
          · cases a with
            | nil => cases h2
            | cons y a =>
              injection h2 with h2 h3
              subst h2
              obtain ⟨x, hx, hx2⟩ := h [] b a (by rw [h1]; rfl)
              rw [hb1 x hx] at hx2; cases hx2
      · rfl
    rw [h0]
    simp only
    rw [closing_hit ws r hws o (fun u b v e => h (c :: u) b v (by rw [e]; rfl))]
    simp; omega

theorem optBrace_hit {o : Str} (ho : OptArg o) (ws r : Str) (hws : ∀ c ∈ ws, isSpace c = true) : optBrace (o ++ (ws ++ '{' :: r)) = some (o.length + ws.length) := by
  cases ho with
  | none =>
    unfold optBrace
    rw [List.nil_append]
    rw [(Style.dropWhile_ws' ws '{' r hws (by decide)).1]
    show brace (ws ++ '{' :: r) = _
    rw [brace_hit ws r hws]
    simp
  | some ws0 o h0 ho =>
    unfold optBrace
    rw [show ws0 ++ '[' :: (o ++ [']']) ++ (ws ++ '{' :: r) = ws0 ++ '[' :: (o ++ ']' :: (ws ++ '{' :: r)) by simp]
    obtain ⟨d1, d2⟩ := Style.dropWhile_ws' ws0 '[' (o ++ ']' :: (ws ++ '{' :: r)) h0 (by decide)
    rw [d1, d2]
    simp only
    rw [closing_hit ws r hws o ho]
    simp; omega

/-! The words `\and`. -/

theorem ciDrop_some : ∀ {kw s r : Str}, ciDrop kw s = some r → ∃ w, s = w ++ r ∧ w.length = kw.length ∧ ∀ p ∈ kw.zip w, ciChar p.1 p.2 = true
  | [], s, r, h => by injection h with h; subst h; exact ⟨[], rfl, rfl, by simp⟩
  | c :: kw, [], r, h => by cases h
  | c :: kw, x :: s, r, h => by
    unfold ciDrop at h
    split at h
    · rename_i hc
      obtain ⟨w, rfl, h2, h3⟩ := ciDrop_some h
      refine ⟨x :: w, rfl, by simp [h2], ?_⟩
      intro p hp
      rw [List.zip_cons_cons] at hp
      rcases List.mem_cons.1 hp with rfl | hp
      · exact hc
      · exact h3 p hp
    · cases h

theorem lower_ci {c x : Char} (hc : c = '\\' ∨ c = 'a' ∨ c = 'n' ∨ c = 'd') (h : ciChar c x = true) : x.toLower = c := by
  have hcl : c.toLower = c := by rcases hc with rfl | rfl | rfl | rfl <;> decide
  unfold ciChar at h
  simp only [Bool.or_eq_true, Bool.and_eq_true, beq_iff_eq, decide_eq_true_eq] at h
  rcases h with (((h | h) | h) | h) | h
  · rw [h]; exact hcl
  · obtain ⟨⟨h3, h4⟩, h5⟩ := h
    rw [le_nat] at h3 h4
    have : 'a'.toNat = 97 := rfl
    have : 'z'.toNat = 122 := rfl
    rcases lower_cases x with ⟨_, h6⟩ | ⟨h1, _, _⟩
    · omega
    · exact Char.toNat_inj.1 (by omega)
  · exfalso; rcases hc with rfl | rfl | rfl | rfl <;> exact absurd h.1 (by decide)
  · exfalso; rcases hc with rfl | rfl | rfl | rfl <;> exact absurd h.1 (by decide)
  · exfalso; rcases hc with rfl | rfl | rfl | rfl <;> exact absurd h.1 (by decide)

theorem and_low : Low "\\and".toList := by unfold Low; decide +kernel

theorem word_end (r : Str) : (!(r.head?.map isWord).getD false) = true ↔ ∀ c ∈ r.head?, isWord c = false := by
  cases r.head? with
  | none => simp
  | some c => simp

theorem andAt_iff (s : Str) : andAt s = true ↔ ∃ w r, SameWord "\\and".toList w ∧ s = w ++ r ∧ ∀ c ∈ r.head?, isWord c = false := by
  unfold andAt
  constructor
  · intro h
    split at h
    · cases h
    · rename_i r hr
      obtain ⟨w, h1, h2, h3⟩ := ciDrop_some hr
      refine ⟨w, r, ?_, h1, (word_end r).1 h⟩
      match w, h2, h3 with
      | [a, b, c, d], _, h3 =>
        have e : "\\and".toList = ['\\', 'a', 'n', 'd'] := rfl
        rw [e] at h3 ⊢
        simp only [List.zip_cons_cons, List.zip_nil_right, List.mem_cons, List.not_mem_nil, or_false] at h3
        unfold SameWord
        simp only [List.map_cons, List.map_nil]
        rw [lower_ci (c := '\\') (by simp) (h3 ('\\', a) (by simp)), lower_ci (c := 'a') (by simp) (h3 ('a', b) (by simp)),
          lower_ci (c := 'n') (by simp) (h3 ('n', c) (by simp)), lower_ci (c := 'd') (by simp) (h3 ('d', d) (by simp))]
  · rintro ⟨w, r, hw, rfl, hr⟩
    rw [ciDrop_hit and_low hw]
    exact (word_end r).2 hr

theorem splitAnd_ne : ∀ (k : Nat) (s : Str), splitAnd k s ≠ []
  | k, [] => by cases k <;> simp [splitAnd]
  | k + 1, _ :: s => by unfold splitAnd; exact splitAnd_ne k s
  | 0, c :: s => by
    unfold splitAnd
    split
    · simp
    · split <;> simp

theorem splitAnd_skip : ∀ (w r : Str), splitAnd w.length (w ++ r) = splitAnd 0 r
  | [], r => rfl
  | c :: w, r => by rw [List.cons_append, List.length_cons]; show splitAnd w.length (w ++ r) = _; exact splitAnd_skip w r

theorem splitAnd_sep {w r : Str} (hw : SameWord "\\and".toList w) (hr : ∀ c ∈ r.head?, isWord c = false) : splitAnd 0 (w ++ r) = [] :: splitAnd 0 r := by
  have h := (andAt_iff (w ++ r)).2 ⟨w, r, hw, rfl, hr⟩
  have hl : w.length = 4 := sameWord_length hw
  cases w with
  | nil => cases hl
  | cons c w =>
    rw [List.cons_append] at h ⊢
    have : w.length = 3 := by simpa using hl
    have e : splitAnd 0 (c :: (w ++ r)) = if andAt (c :: (w ++ r)) then [] :: splitAnd 3 (w ++ r) else
      (match splitAnd 0 (w ++ r) with | [] => [[c]] | p :: l => (c :: p) :: l) := rfl
    rw [e, if_pos h, ← this, splitAnd_skip]

/-- A text without `\and` in front of a separator or the end. -/
theorem splitAnd_text (R : Str) (hR : R = [] ∨ R.head? = some '\\') : ∀ (t : Str), AndFree t → ∀ p l, splitAnd 0 R = p :: l → splitAnd 0 (t ++ R) = (t ++ p) :: l
  | [], _, p, l, h => by simpa using h
  | c :: t, ht, p, l, h => by
    rw [List.cons_append]
    unfold splitAnd
    have h0 : andAt (c :: (t ++ R)) = false := by
      cases ha : andAt (c :: (t ++ R)) with
      | false => rfl
      | true =>
        exfalso
        obtain ⟨w, r, hw, hE, hr⟩ := (andAt_iff _).1 ha
        rw [← List.cons_append] at hE
        have hw4 := hw
        obtain ⟨x0, w', rfl, hx0, hw'⟩ := sameWord_cons (c := '\\') (kw := "and".toList) hw
        rcases List.append_eq_append_iff.1 hE with ⟨a, h1, h2⟩ | ⟨a, h1, h2⟩
        · cases a with
          | nil =>
            rw [List.append_nil] at h1
            obtain ⟨y, hy, _⟩ := ht [] (x0 :: w') [] (by rw [h1]; simp) hw4
            simp at hy
          | cons y a =>
            have hy : y = '\\' := by
              rw [h2] at hR
              rcases hR with hR | hR
              · cases hR
              · simpa using hR
            subst hy
            rw [List.cons_append] at h1
            injection h1 with _ h1
            have : '\\'.toLower ∈ "and".toList := by rw [← hw', h1]; exact List.mem_map_of_mem (by simp)
            revert this; decide +kernel
        · obtain ⟨y, hy, hy2⟩ := ht [] (x0 :: w') a (by rw [h1]; rfl) hw4
          rw [hr y (by rw [h2]; cases a with | nil => simp at hy | cons z a => exact hy)] at hy2
          cases hy2
    rw [h0]
    rw [splitAnd_text R hR t (fun u w r e hw => ht (c :: u) w r (by rw [e]; rfl) hw) p l h]
    rfl

theorem splitAnd_parts {body : Str} {ps : List Str} (h : AndParts body ps) : splitAnd 0 body = ps := by
  induction h with
  | last t ht =>
    have := splitAnd_text [] (.inl rfl) t ht [] [] rfl
    simpa using this
  | cons t w r ps ht hw hr _ ih =>
    have := splitAnd_text (w ++ r) (.inr (by
      obtain ⟨x0, w', rfl, hx0, hw'⟩ := sameWord_cons (c := '\\') (kw := "and".toList) hw
      rw [List.cons_append, List.head?_cons]
      rcases lower_cases x0 with ⟨h1, _⟩ | ⟨h1, h2, h3⟩
      · rw [← h1, hx0]
      · rw [hx0] at h1
        have : '\\'.toNat = 92 := rfl
        omega)) t ht [] ps (by rw [splitAnd_sep hw hr, ih])
    simpa using this

/-- Every text has its parts, and only one list of them. -/
theorem C60_parts (body : Str) : ∃ ps, AndParts body ps ∧ ∀ qs, AndParts body qs → qs = ps := by
  suffices h : ∀ n (body : Str), body.length ≤ n → ∃ ps, AndParts body ps by
    obtain ⟨ps, hp⟩ := h body.length body (Nat.le_refl _)
    exact ⟨ps, hp, fun qs hq => by rw [← splitAnd_parts hq, splitAnd_parts hp]⟩
  intro n
  induction n with
  | zero =>
    intro body hl
    have : body = [] := List.eq_nil_of_length_eq_zero (by omega)
    subst this
    refine ⟨[[]], .last [] ?_⟩
    intro u w r e hw
    have := sameWord_length hw
    have h2 := congrArg List.length e
    simp at h2 this
    omega
  | succ n ih =>
    intro body hl
    by_cases hf : AndFree body
    · exact ⟨[body], .last body hf⟩
    · -- the first separator
      have key : ∀ (t R : Str), (∀ u v, t = u ++ v → v ≠ [] → andAt (v ++ R) = false) → andAt R = true → ∃ w r, SameWord "\\and".toList w ∧ R = w ++ r ∧ (∀ c ∈ r.head?, isWord c = false) ∧ AndFree t := by
        intro t R ht hR
        obtain ⟨w, r, hw, hE, hr⟩ := (andAt_iff R).1 hR
        refine ⟨w, r, hw, hE, hr, ?_⟩
        intro u w2 r2 e hw2
        have hl2 := sameWord_length hw2
        have := ht u (w2 ++ r2) e (by intro h; rw [(List.append_eq_nil_iff.1 h).1] at hl2; exact absurd hl2 (by decide))
        cases hh : r2.head? with
        | none =>
          exfalso
          have : r2 = [] := by simpa using hh
          subst this
          have hx : andAt (w2 ++ [] ++ R) = true := (andAt_iff _).2 ⟨w2, R, hw2, by simp, by
            obtain ⟨x0, w', rfl, hx0, hw'⟩ := sameWord_cons (c := '\\') (kw := "and".toList) hw
            intro c hc
            rw [hE] at hc
            simp at hc
            subst hc
            rcases lower_cases x0 with ⟨h1, _⟩ | ⟨h1, h2, h3⟩
            · rw [← h1, hx0]; decide
            · rw [hx0] at h1
              have : '\\'.toNat = 92 := rfl
              omega⟩
          rw [hx] at this; cases this
        | some c =>
          refine ⟨c, rfl, ?_⟩
          cases hc : isWord c with
          | true => rfl
          | false =>
            exfalso
            have hx : andAt (w2 ++ r2 ++ R) = true := (andAt_iff _).2 ⟨w2, r2 ++ R, hw2, by simp, by
              intro d hd
              cases r2 with
              | nil => cases hh
              | cons y r2 => simp at hh hd; subst hh; subst hd; exact hc⟩
            rw [hx] at this; cases this
      have first : ∀ (s : Str), (∃ t R, s = t ++ R ∧ (∀ u v, t = u ++ v → v ≠ [] → andAt (v ++ R) = false) ∧ andAt R = true) ∨ (∀ u v, s = u ++ v → andAt v = false) := by
        intro s
        induction s with
        | nil => exact .inr fun u v e => by rw [(List.append_eq_nil_iff.1 e.symm).2]; rfl
        | cons c s ihs =>
          cases ha : andAt (c :: s) with
          | true => exact .inl ⟨[], c :: s, rfl, fun u v e hv => absurd (List.append_eq_nil_iff.1 e.symm).2 hv, ha⟩
          | false =>
            rcases ihs with ⟨t, R, rfl, h1, h2⟩ | h
            · refine .inl ⟨c :: t, R, rfl, ?_, h2⟩
              intro u v e hv
              cases u with
              | nil => rw [List.nil_append] at e; subst e; exact ha
              | cons y u => rw [List.cons_append] at e; injection e with _ e; exact h1 u v e hv
            · refine .inr ?_
              intro u v e
              cases u with
              | nil => rw [List.nil_append] at e; subst e; exact ha
              | cons y u => rw [List.cons_append] at e; injection e with _ e; exact h u v e
      rcases first body with ⟨t, R, rfl, h1, h2⟩ | h
      · obtain ⟨w, r, hw, rfl, hr, ht⟩ := key t R h1 h2
        have hl4 : w.length = 4 := sameWord_length hw
        obtain ⟨ps, hp⟩ := ih r (by simp at hl; omega)
        exact ⟨t :: ps, .cons t w r ps ht hw hr hp⟩
      · exfalso
        apply hf
        intro u w r e hw
        have := h u (w ++ r) e
        cases hh : r.head? with
        | none =>
          exfalso
          rw [(andAt_iff _).2 ⟨w, r, hw, rfl, by intro c hc; rw [hh] at hc; cases hc⟩] at this
          cases this
        | some c =>
          refine ⟨c, rfl, ?_⟩
          cases hc : isWord c with
          | true => rfl
          | false =>
            exfalso
            rw [(andAt_iff _).2 ⟨w, r, hw, rfl, by intro d hd; rw [hh] at hd; cases hd; exact hc⟩] at this
            cases this

theorem cmd_arg {kw w o ws body : Str} (f : Str → Option Nat) (hk : Low kw) (hw : SameWord kw w) (hf : ∀ r, f (o ++ (ws ++ '{' :: r)) = some (o.length + ws.length)) (hb : Wrappable '{' '}' body) (rest : Str) :
    ∃ i, cmdAt kw f (w ++ (o ++ (ws ++ '{' :: (body ++ '}' :: rest)))) = some i ∧ extractNestedContent ((w ++ (o ++ (ws ++ '{' :: (body ++ '}' :: rest)))).drop i) '{' '}' = some (body, body.length + 2) ∧
      i + (body.length + 2) = (w ++ (o ++ (ws ++ '{' :: (body ++ ['}'])))).length := by
  refine ⟨(w ++ (o ++ ws)).length, ?_, ?_, by simp; omega⟩
  · unfold cmdAt
    rw [ciDrop_hit hk hw, ← sameWord_length hw]
    simp only
    rw [hf]
    simp; omega
  · rw [show w ++ (o ++ (ws ++ '{' :: (body ++ '}' :: rest))) = (w ++ (o ++ ws)) ++ '{' :: (body ++ '}' :: rest) by simp, List.drop_left]
    exact Style.extract_wrapped '{' '}' (by decide) (by decide) (by decide) body rest hb

theorem cmd_miss {a b w : Str} (ha : Low a) (hb : Low b) (hw : SameWord b w) (h : ¬ a <+: b ∧ ¬ b <+: a) (f : Str → Option Nat) (X : Str) : cmdAt a f (w ++ X) = none := by
  unfold cmdAt
  rw [ciDrop_miss ha hb hw h.1 h.2]

/-- C60: `\author` gives the authors: the texts between the words `\and`, trimmed, without empty ones, each parsed. Exactly the command is used up. -/
theorem C60_authors {τ} (parse : Str → List τ) (w o ws body rest : Str) (ps : List Str) (hw : SameWord "\\author".toList w) (ho : OptArg o) (hws : ∀ c ∈ ws, isSpace c = true)
    (hb : Wrappable '{' '}' body) (hp : AndParts body ps) (hparse : ∀ p ∈ ps, strip p ≠ [] → parse (strip p) ≠ []) :
    handle parse (w ++ (o ++ (ws ++ '{' :: (body ++ '}' :: rest)))) =
      some (.ok (.authors (((ps.map strip).filter (· ≠ [])).map parse), (w ++ (o ++ (ws ++ '{' :: (body ++ ['}'])))).length)) := by
  obtain ⟨i, h1, h2, h3⟩ := cmd_arg optBrace (by unfold Low; decide +kernel) hw (fun r => optBrace_hit ho ws r hws) hb rest
  unfold handle
  rw [h1]
  simp only
  rw [h2]
  simp only
  rw [h3]
  unfold authorTokens authorParts
  rw [splitAnd_parts hp, List.filter_eq_self.2]
  intro l hl
  obtain ⟨p, hp1, rfl⟩ := List.mem_map.1 hl
  rw [List.mem_filter] at hp1
  obtain ⟨q, hq, rfl⟩ := List.mem_map.1 hp1.1
  have := hparse q hq (by simpa using hp1.2)
  cases hx : parse (strip q) with
  | nil => exact absurd hx this
  | cons _ _ => rfl

theorem field_eq {τ} (parse : Str → List τ) (type : String) {s body : Str} {i n : Nat} (h : extractNestedContent (s.drop i) '{' '}' = some (body, body.length + 2)) (hn : i + (body.length + 2) = n) :
    fieldOut parse type.toList s i = (.field type.toList (some (parse body)), n) := by
  unfold fieldOut
  rw [h]
  simp only
  rw [hn]

/-- C60: `\email`, `\affil`, `\affiliation` and `\address` give a token of their type with the parsed argument. -/
theorem C60_field {τ} (parse : Str → List τ) (name type : String) (opt : Bool) (hf : (name, type, opt) ∈ authorFields) (w o ws body rest : Str) (hw : SameWord name.toList w)
    (ho : OptArg o) (hopt : opt = false → o = []) (hws : ∀ c ∈ ws, isSpace c = true) (hb : Wrappable '{' '}' body) :
    handle parse (w ++ (o ++ (ws ++ '{' :: (body ++ '}' :: rest)))) = some (.ok (.field type.toList (some (parse body)), (w ++ (o ++ (ws ++ '{' :: (body ++ ['}'])))).length)) := by
  have l1 : Low "\\author".toList := by unfold Low; decide +kernel
  have l2 : Low "\\email".toList := by unfold Low; decide +kernel
  have l3 : Low "\\affil".toList := by unfold Low; decide +kernel
  have l4 : Low "\\affiliation".toList := by unfold Low; decide +kernel
  have l5 : Low "\\address".toList := by unfold Low; decide +kernel
  have hbr : o = [] → ∀ r, brace (o ++ (ws ++ '{' :: r)) = some (o.length + ws.length) := by
    rintro rfl r
    rw [List.nil_append, brace_hit ws r hws]
    simp
  simp only [authorFields, List.mem_cons, List.not_mem_nil, or_false, Prod.mk.injEq] at hf
  unfold handle
  rcases hf with ⟨rfl, rfl, rfl⟩ | ⟨rfl, rfl, rfl⟩ | ⟨rfl, rfl, rfl⟩ | ⟨rfl, rfl, rfl⟩
  · obtain ⟨i, h1, h2, h3⟩ := cmd_arg brace l2 hw (hbr (hopt rfl)) hb rest
    rw [cmd_miss l1 l2 hw (by decide +kernel), h1]
    simp only
    rw [field_eq parse "email" h2 h3]
  · obtain ⟨i, h1, h2, h3⟩ := cmd_arg optBrace l3 hw (fun r => optBrace_hit ho ws r hws) hb rest
    rw [cmd_miss l1 l3 hw (by decide +kernel), cmd_miss l2 l3 hw (by decide +kernel), h1]
    simp only
    rw [field_eq parse "affiliation" h2 h3]
  · obtain ⟨i, h1, h2, h3⟩ := cmd_arg optBrace l4 hw (fun r => optBrace_hit ho ws r hws) hb rest
    have h0 : cmdAt "\\affil".toList optBrace (w ++ (o ++ (ws ++ '{' :: (body ++ '}' :: rest)))) = none := by
      obtain ⟨w2, e1, e2⟩ := ciDrop_prefix (a := "\\affil".toList) (b := "iation".toList) l3 hw
      unfold cmdAt
      rw [e2]
      obtain ⟨x, w3, rfl, hx, _⟩ := sameWord_cons (c := 'i') (kw := "ation".toList) e1
      have hx2 : isSpace x = false ∧ x ≠ '[' ∧ x ≠ '{' := by
        have : x = 'i' ∨ x = 'I' := by
          rcases lower_cases x with ⟨h, _⟩ | ⟨h, _⟩
          · left; rw [← h, hx]
          · right
            rw [hx] at h
            have e3 : 'i'.toNat = 105 := rfl
            have e4 : 'I'.toNat = 73 := rfl
            exact Char.toNat_inj.1 (by omega)
        rcases this with rfl | rfl <;> decide
      have : optBrace (x :: w3 ++ (o ++ (ws ++ '{' :: (body ++ '}' :: rest)))) = none := by
        unfold optBrace brace
        rw [List.cons_append, List.dropWhile_cons_of_neg (by simp [hx2.1])]
        split
        · rename_i hE; injection hE with hE _; exact absurd hE hx2.2.1
        · rw [if_neg (by simp [hx2.2.2])]
      simp only [this]
      rfl
    rw [cmd_miss l1 l4 hw (by decide +kernel), cmd_miss l2 l4 hw (by decide +kernel), h0]
    simp only
    rw [h1]
    simp only
    rw [field_eq parse "affiliation" h2 h3]
  · obtain ⟨i, h1, h2, h3⟩ := cmd_arg brace l5 hw (hbr (hopt rfl)) hb rest
    rw [cmd_miss l1 l5 hw (by decide +kernel), cmd_miss l2 l5 hw (by decide +kernel), cmd_miss l3 l5 hw (by decide +kernel)]
    simp only
    rw [cmd_miss l4 l5 hw (by decide +kernel), h1]
    simp only
    rw [field_eq parse "address" h2 h3]

theorem curraddr_miss {b w : Str} (hw : SameWord b w) (h : ¬ "\\curraddr".toList <+: b ∧ ¬ b <+: "\\curraddr".toList) (X : Str) : curraddr (w ++ X) = none := by
  unfold curraddr
  rw [if_neg]
  intro hs
  have h0 := List.isPrefixOf_iff_prefix.1 hs
  rcases List.prefix_or_prefix_of_prefix h0 (List.prefix_append w X) with h1 | h1
  · exact h.1 (by
      obtain ⟨r, rfl⟩ := h1
      refine ⟨r.map Char.toLower, ?_⟩
      rw [← hw, List.map_append]
      rfl)
  · exact h.2 (by
      obtain ⟨r, hr⟩ := h1
      refine ⟨r.map Char.toLower, ?_⟩
      rw [← hw, ← List.map_append, hr]
      rfl)

/-- C60: `\thanks` gives a footnote with its argument. -/
theorem C60_thanks {τ} (parse : Str → List τ) (w ws body rest : Str) (hw : SameWord "\\thanks".toList w) (hws : ∀ c ∈ ws, isSpace c = true) (hb : Wrappable '{' '}' body) :
    handle parse (w ++ (ws ++ '{' :: (body ++ '}' :: rest))) = some (.ok (.footnote (some body), (w ++ (ws ++ '{' :: (body ++ ['}']))).length)) := by
  have l0 : Low "\\thanks".toList := by unfold Low; decide +kernel
  have l1 : Low "\\author".toList := by unfold Low; decide +kernel
  have l2 : Low "\\email".toList := by unfold Low; decide +kernel
  have l3 : Low "\\affil".toList := by unfold Low; decide +kernel
  have l4 : Low "\\affiliation".toList := by unfold Low; decide +kernel
  have l5 : Low "\\address".toList := by unfold Low; decide +kernel
  obtain ⟨i, h1, h2, h3⟩ := cmd_arg (o := []) brace l0 hw (fun r => by rw [List.nil_append, brace_hit ws r hws]; simp) hb rest
  rw [List.nil_append] at h1 h2 h3
  unfold handle
  rw [cmd_miss l1 l0 hw (by decide +kernel), cmd_miss l2 l0 hw (by decide +kernel), cmd_miss l3 l0 hw (by decide +kernel)]
  simp only
  rw [cmd_miss l4 l0 hw (by decide +kernel), cmd_miss l5 l0 hw (by decide +kernel), curraddr_miss hw (by decide +kernel), h1]
  simp only
  rw [h2]
  simp only
  rw [h3]

/-- C60: nothing of the authors is lost: what lies between two authors is blanks, words `\and` and parts that are empty. -/
theorem C60_nothing_lost {body : Str} {ps : List Str} (h : AndParts body ps) : ∀ p ∈ ps, ∃ u v, body = u ++ p ++ v := by
  induction h with
  | last t _ => intro p hp; simp at hp; subst hp; exact ⟨[], [], by simp⟩
  | cons t w r ps _ _ _ _ ih =>
    intro p hp
    rcases List.mem_cons.1 hp with rfl | hp
    · exact ⟨[], w ++ r, by simp⟩
    · obtain ⟨u, v, hE⟩ := ih p hp
      exact ⟨t ++ (w ++ u), v, by rw [hE]; simp⟩

/-- C60: `\curraddr` gives nothing; an empty argument is used up with it. -/
theorem C60_curraddr {τ} (parse : Str → List τ) (rest : Str) : handle parse ("\\curraddr{}".toList ++ rest) = some (.ok (.nothing, 11)) ∧
    ((∀ c ∈ rest.head?, isWord c = false) → ¬ "{}".toList <+: rest → handle parse ("\\curraddr".toList ++ rest) = some (.ok (.nothing, 9))) := by
  have l0 : Low "\\curraddr".toList := by unfold Low; decide +kernel
  have l1 : Low "\\author".toList := by unfold Low; decide +kernel
  have l2 : Low "\\email".toList := by unfold Low; decide +kernel
  have l3 : Low "\\affil".toList := by unfold Low; decide +kernel
  have l4 : Low "\\affiliation".toList := by unfold Low; decide +kernel
  have l5 : Low "\\address".toList := by unfold Low; decide +kernel
  have hw : SameWord "\\curraddr".toList "\\curraddr".toList := by unfold SameWord; decide +kernel
  have key : ∀ X, handle parse ("\\curraddr".toList ++ X) = match curraddr ("\\curraddr".toList ++ X) with
      | some e => some (.ok (.nothing, e))
      | none => match cmdAt "\\thanks".toList brace ("\\curraddr".toList ++ X) with
        | some i => some (.ok (match extractNestedContent (("\\curraddr".toList ++ X).drop i) '{' '}' with
          | none => (.footnote none, i)
          | some (t, e) => (.footnote (some t), i + e)))
        | none => none := by
    intro X
    unfold handle
    rw [cmd_miss l1 l0 hw (by decide +kernel), cmd_miss l2 l0 hw (by decide +kernel), cmd_miss l3 l0 hw (by decide +kernel)]
    simp only
    rw [cmd_miss l4 l0 hw (by decide +kernel), cmd_miss l5 l0 hw (by decide +kernel)]
    rfl
  have hd : ∀ X : Str, ("\\curraddr".toList ++ X).drop 9 = X := fun X => rfl
  have hs : ∀ X : Str, startsWith ("\\curraddr".toList ++ X) "\\curraddr".toList = true := fun X => by
    unfold startsWith; rw [List.isPrefixOf_iff_prefix]; exact List.prefix_append _ _
  constructor
  · have hc : curraddr ("\\curraddr".toList ++ ("{}".toList ++ rest)) = some 11 := by
      unfold curraddr
      rw [if_pos (hs _), hd, if_pos]
      unfold startsWith; rw [List.isPrefixOf_iff_prefix]; exact List.prefix_append _ _
    have := key ("{}".toList ++ rest)
    rw [hc] at this
    exact this
  · intro hr hn
    have hc : curraddr ("\\curraddr".toList ++ rest) = some 9 := by
      unfold curraddr
      rw [if_pos (hs _), hd, if_neg, if_neg]
      · have := (word_end rest).2 hr
        simpa using this
      · unfold startsWith; rw [List.isPrefixOf_iff_prefix]; exact hn
    rw [key, hc]

/-! What does not hold. -/

/-- C60 fails for an argument that is not closed: an exception. -/
theorem C60_violated_unclosed {τ} (parse : Str → List τ) (w ws body : Str) (hw : SameWord "\\author".toList w) (hws : ∀ c ∈ ws, isSpace c = true) (hb : Balanced body '{' '}') :
    handle parse (w ++ (ws ++ '{' :: body)) = some (.error ()) := by
  have h1 : cmdAt "\\author".toList optBrace (w ++ (ws ++ '{' :: body)) = some (w ++ ws).length := by
    unfold cmdAt
    rw [ciDrop_hit (by unfold Low; decide +kernel) hw, ← sameWord_length hw]
    simp only
    have := optBrace_hit .none ws body hws
    rw [List.nil_append] at this
    rw [this]
    simp; omega
  unfold handle
  rw [h1]
  simp only
  rw [show w ++ (ws ++ '{' :: body) = (w ++ ws) ++ '{' :: body by simp, List.drop_left, Legacy.extract_open body hb]

/-- It fails for `\and` in a group: the group is torn. -/
theorem C60_violated_group : handle (fun s => [s]) "\\author{A\\thanks{B \\and C} \\and D}".toList = some (.ok (.authors [["A\\thanks{B".toList], ["C}".toList], ["D".toList]], 34)) := by
  decide +kernel

/-- It fails for a line break before "and": the name keeps a backslash. -/
theorem C60_violated_break : handle (fun s => [s]) "\\author{Smith \\\\and Co}".toList = some (.ok (.authors [["Smith \\".toList], ["Co".toList]], 23)) := by decide +kernel

/-- It fails for `\curraddr` with an argument: its braces stay in the text. -/
theorem C60_violated_curraddr : handle (fun s => [s]) "\\curraddr{Home}".toList = some (.ok (.nothing, 9)) := by decide +kernel

/-- A bracket without its braces reaches up to a bracket and a brace anywhere behind: all between is lost. -/
theorem C60_violated_bracket : handle (fun s => [s]) "\\affil[1] One \\section[s]{Title}".toList = some (.ok (.field "affiliation".toList (some ["Title".toList]), 32)) := by decide +kernel

/-! Instances. -/

theorem andFree_of {t : Str} (h : ((List.range (t.length + 1)).all fun i => !andAt (t.drop i)) = true) : AndFree t := by
  intro u w r e hw
  have := List.all_eq_true.1 h u.length (by rw [List.mem_range, e]; simp; omega)
  rw [e, List.drop_left] at this
  cases hh : r.head? with
  | none =>
    exfalso
    rw [(andAt_iff _).2 ⟨w, r, hw, rfl, by intro c hc; rw [hh] at hc; cases hc⟩] at this
    cases this
  | some c =>
    refine ⟨c, rfl, ?_⟩
    cases hc : isWord c with
    | true => rfl
    | false =>
      exfalso
      rw [(andAt_iff _).2 ⟨w, r, hw, rfl, by intro d hd; rw [hh] at hd; cases hd; exact hc⟩] at this
      cases this

example : AndParts "\n \\AND A \\andx {b} \\and\\And C".toList ["\n ".toList, " A \\andx {b} ".toList, [], " C".toList] := by
  refine .cons "\n ".toList "\\AND".toList " A \\andx {b} \\and\\And C".toList _ (andFree_of (by decide +kernel)) (by unfold SameWord; decide +kernel) (by decide +kernel) ?_
  refine .cons " A \\andx {b} ".toList "\\and".toList "\\And C".toList _ (andFree_of (by decide +kernel)) (by unfold SameWord; decide +kernel) (by decide +kernel) ?_
  refine .cons [] "\\And".toList " C".toList _ (andFree_of (by decide +kernel)) (by unfold SameWord; decide +kernel) (by decide +kernel) ?_
  exact .last _ (andFree_of (by decide +kernel))

example : handle (fun s => [s]) "\\Author [x]y]{\n \\AND A \\andx {b} \\and\\And C} z".toList = some (.ok (.authors [["A \\andx {b}".toList], ["C".toList]], 44)) := by decide +kernel

example : OptArg " [x]y]".toList := .some " ".toList "x]y".toList (by decide) (by
  intro u b v e
  have h : '{' ∈ "x]y".toList := by rw [e]; simp
  exact absurd h (by decide))

end L2J.Author
