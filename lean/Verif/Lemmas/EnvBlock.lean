import Verif.Lemmas.Nested
namespace L2J
open Spec

theorem Re.run_lit (g : List (Nat × Str)) : ∀ (s rev rest : Str),
    (Re.lit s).run ⟨rev, rest, g⟩ =
      if s.isPrefixOf rest then [⟨s.reverse ++ rev, rest.drop s.length, g⟩] else []
  | [], rev, rest => by simp [Re.lit, Re.run]
  | c :: s, rev, [] => by simp [Re.lit, Re.run]
  | c :: s, rev, x :: rest => by
    by_cases h : x = c
    · subst h
      simp [Re.lit, Re.run, Re.run_lit g s (x :: rev) rest]
    · have h' : ¬ c = x := fun e => h e.symm
      simp [Re.lit, Re.run, h, h']

/-- The common shape of `beginRe` and `endRe`. -/
def delimRe (kw name : Str) : Re :=
  .seq (.lit kw) (.seq (.star reSpace) (.seq (.lit ['{']) (.seq (.lit name) (.lit ['}']))))

theorem beginRe_eq (name : Str) : beginRe name = delimRe "\\begin".toList name := rfl
theorem endRe_eq (name : Str) : endRe name = delimRe "\\end".toList name := rfl

theorem brace_not_space : isSpace '{' = false := by decide

theorem takeWhile_ws (ws rest : Str) (hws : ∀ x ∈ ws, isSpace x = true) :
    (ws ++ '{' :: rest).takeWhile isSpace = ws := by
  rw [List.takeWhile_append_of_pos hws]; simp [brace_not_space]

theorem dropWhile_ws (ws rest : Str) (hws : ∀ x ∈ ws, isSpace x = true) :
    (ws ++ '{' :: rest).dropWhile isSpace = '{' :: rest := by
  rw [List.dropWhile_append_of_pos hws]; simp [brace_not_space]

theorem tail_run (name rev rest : Str) (g : List (Nat × Str)) :
    (Re.seq (.lit ['{']) (.seq (.lit name) (.lit ['}']))).run ⟨rev, rest, g⟩ =
      if ('{' :: (name ++ ['}'])).isPrefixOf rest then
        [⟨('{' :: (name ++ ['}'])).reverse ++ rev, rest.drop (name.length + 2), g⟩] else [] := by
  conv => lhs; unfold Re.run
  rw [Re.run_lit]
  cases rest with
  | nil => simp
  | cons x rest =>
    by_cases hx : x = '{'
    · subst hx
      simp only [List.isPrefixOf, beq_self_eq_true, Bool.true_and, if_true, List.flatMap_cons, List.flatMap_nil,
        List.append_nil]
      conv => lhs; unfold Re.run
      rw [Re.run_lit]
      by_cases hn : name.isPrefixOf (List.drop ['{'].length ('{' :: rest))
      · rw [if_pos hn]
        simp only [List.length_cons, List.length_nil, List.drop_succ_cons, List.drop_zero] at hn ⊢
        rw [List.isPrefixOf_iff_prefix] at hn
        obtain ⟨t, rfl⟩ := hn
        simp only [List.flatMap_cons, List.flatMap_nil, List.append_nil, Re.run_lit, List.drop_left]
        have e : (name ++ ['}']).isPrefixOf (name ++ t) = ['}'].isPrefixOf t := by
          rw [Bool.eq_iff_iff, List.isPrefixOf_iff_prefix, List.isPrefixOf_iff_prefix]
          exact List.prefix_append_right_inj _
        rw [e]
        have e2 : (name ++ t).drop (name.length + 1) = t.drop 1 := by
          rw [← List.drop_drop, List.drop_left]
        split <;> simp [e2]
      · rw [if_neg hn]
        simp only [List.length_cons, List.length_nil, List.drop_succ_cons, List.drop_zero] at hn
        have : ¬ (name ++ ['}']).isPrefixOf rest := by
          intro h
          rw [List.isPrefixOf_iff_prefix] at h
          exact hn (List.isPrefixOf_iff_prefix.2 ((List.prefix_append _ _).trans h))
        simp [this]
    · have h' : ¬ '{' = x := fun e => hx e.symm
      simp [h']

/-- The match of a delimiter pattern at a position. -/
theorem delimRe_run (kw name rev rest : Str) (g : List (Nat × Str)) :
    (delimRe kw name).run ⟨rev, rest, g⟩ =
      if kw.isPrefixOf rest ∧ ('{' :: (name ++ ['}'])).isPrefixOf ((rest.drop kw.length).dropWhile isSpace) then
        [⟨(kw ++ (rest.drop kw.length).takeWhile isSpace ++ '{' :: (name ++ ['}'])).reverse ++ rev,
          ((rest.drop kw.length).dropWhile isSpace).drop (name.length + 2), g⟩] else [] := by
  unfold delimRe
  conv => lhs; unfold Re.run
  rw [Re.run_lit]
  by_cases hk : kw.isPrefixOf rest
  · rw [if_pos hk]
    simp only [List.flatMap_cons, List.flatMap_nil, List.append_nil]
    conv => lhs; unfold Re.run
    unfold reSpace
    rw [run_star_chr, charRuns_flatMap]
    · rw [tail_run]
      simp only [hk, true_and]
      split <;> simp
    · intro rev x rest hx
      rw [tail_run]
      have : x ≠ '{' := by rintro rfl; simp [brace_not_space] at hx
      have h' : ¬ '{' = x := fun e => this e.symm
      simp [h']
  · rw [if_neg hk, if_neg (fun h => hk h.1)]; rfl

theorem delimRe_match (kw name rev d tail : Str) (hd : IsDelim kw name d) :
    (delimRe kw name).matchAt rev (d ++ tail) = some ⟨rev, d ++ tail, d.length, []⟩ := by
  obtain ⟨ws, hws, rfl⟩ := hd
  rw [Re.matchAt_eq, delimRe_run]
  have e1 : (kw ++ ws ++ '{' :: (name ++ ['}']) ++ tail) = kw ++ (ws ++ '{' :: (name ++ ['}'] ++ tail)) := by simp
  have hp : kw.isPrefixOf (kw ++ ws ++ '{' :: (name ++ ['}']) ++ tail) := by
    rw [e1]; exact List.isPrefixOf_iff_prefix.2 (List.prefix_append _ _)
  have hdr : ((kw ++ ws ++ '{' :: (name ++ ['}']) ++ tail).drop kw.length) = ws ++ '{' :: (name ++ ['}'] ++ tail) := by
    rw [e1, List.drop_left]
  rw [hdr, dropWhile_ws _ _ hws]
  have h2 : ('{' :: (name ++ ['}'])).isPrefixOf ('{' :: (name ++ ['}'] ++ tail)) := by
    rw [List.isPrefixOf_iff_prefix]
    exact ⟨tail, by simp⟩
  rw [if_pos ⟨hp, h2⟩]
  simp
  omega

theorem delimRe_some (kw name rev rest : Str) (m : Match) (h : (delimRe kw name).matchAt rev rest = some m) :
    ∃ d tail, rest = d ++ tail ∧ IsDelim kw name d ∧ m = ⟨rev, rest, d.length, []⟩ := by
  have h0 := h
  rw [Re.matchAt_eq, delimRe_run] at h
  by_cases hc : kw.isPrefixOf rest ∧ ('{' :: (name ++ ['}'])).isPrefixOf ((rest.drop kw.length).dropWhile isSpace)
  · obtain ⟨h1, h2⟩ := hc
    rw [List.isPrefixOf_iff_prefix] at h1 h2
    obtain ⟨r1, rfl⟩ := h1
    rw [List.drop_left] at h2
    obtain ⟨r2, h2⟩ := h2
    have e : r1 = r1.takeWhile isSpace ++ ('{' :: (name ++ ['}']) ++ r2) := by
      rw [h2, List.takeWhile_append_dropWhile]
    have hd : IsDelim kw name (kw ++ r1.takeWhile isSpace ++ '{' :: (name ++ ['}'])) :=
      ⟨_, fun x hx => List.all_eq_true.1 List.all_takeWhile x hx, rfl⟩
    refine ⟨_, r2, ?_, hd, ?_⟩
    · conv => lhs; rw [e]
      simp
    · have := delimRe_match kw name rev _ r2 hd
      have e2 : kw ++ r1.takeWhile isSpace ++ '{' :: (name ++ ['}']) ++ r2 = kw ++ r1 := by
        conv => rhs; rw [e]
        simp
      rw [e2, h0] at this
      injection this
  · rw [if_neg hc] at h; cases h

theorem delimRe_nonEmpty (kw name : Str) : NonEmptyRe (delimRe kw name) := by
  intro rev rest m h
  obtain ⟨d, tail, rfl, ⟨ws, _, rfl⟩, rfl⟩ := delimRe_some kw name rev rest m h
  simp
  omega

theorem beginRe_nonEmpty (name : Str) : NonEmptyRe (beginRe name) := delimRe_nonEmpty _ _
theorem endRe_nonEmpty (name : Str) : NonEmptyRe (endRe name) := delimRe_nonEmpty _ _

/-- Search result at position `p`, unfolded one step. -/
theorem searchPos_here (r : Re) (P R : Str) (m : Match) (h : r.matchAt P.reverse R = some m) :
    r.searchPos (P ++ R) P.length = some (P.length, P.length + m.len) := by
  have hz := r.matchAt_zip _ _ _ h
  unfold Re.searchPos
  rw [List.take_left, List.drop_left]
  have : r.searchFrom P.reverse R = some m := by
    cases R with
    | nil => simpa [Re.searchFrom] using h
    | cons x R => simp [Re.searchFrom, h]
  rw [this]
  simp [Match.start, Match.stop, hz.1]

theorem searchFrom_skip (r : Re) : ∀ (t rev R : Str),
    (∀ u v, t = u ++ v → v ≠ [] → r.matchAt (u.reverse ++ rev) (v ++ R) = none) →
    r.searchFrom rev (t ++ R) = r.searchFrom (t.reverse ++ rev) R
  | [], rev, R, _ => by simp
  | x :: t, rev, R, h => by
    have h0 := h [] (x :: t) rfl (by simp)
    simp only [List.reverse_nil, List.nil_append] at h0
    simp only [List.cons_append, Re.searchFrom] at h0 ⊢
    rw [h0]
    simp only []
    rw [searchFrom_skip r t (x :: rev) R]
    · simp
    · intro u v e hv
      have := h (x :: u) v (by rw [e]; rfl) hv
      simpa using this

theorem searchPos_skip (r : Re) (P t R : Str)
    (h : ∀ u v, t = u ++ v → v ≠ [] → r.matchAt (u.reverse ++ P.reverse) (v ++ R) = none) :
    r.searchPos (P ++ t ++ R) P.length = r.searchPos (P ++ t ++ R) (P ++ t).length := by
  unfold Re.searchPos
  have e1 : (P ++ t ++ R).take (P ++ t).length = P ++ t := List.take_left
  have e2 : (P ++ t ++ R).drop (P ++ t).length = R := List.drop_left
  rw [e1, e2]
  have e3 : (P ++ t ++ R).take P.length = P := by rw [List.append_assoc]; exact List.take_left
  have e4 : (P ++ t ++ R).drop P.length = t ++ R := by rw [List.append_assoc]; exact List.drop_left
  rw [e3, e4, searchFrom_skip r t P.reverse R h]
  simp

/-- A delimiter contains a backslash only as its first character. -/
theorem delim_backslash (kw' name d : Str) (hkw : '\\' ∉ kw') (hn : '\\' ∉ name)
    (hd : IsDelim ('\\' :: kw') name d) : ∃ d', d = '\\' :: d' ∧ '\\' ∉ d' := by
  obtain ⟨ws, hws, rfl⟩ := hd
  refine ⟨kw' ++ ws ++ '{' :: (name ++ ['}']), by simp, ?_⟩
  simp only [List.mem_append, List.mem_cons, not_or]
  refine ⟨⟨hkw, fun h => ?_⟩, by decide, hn, by decide, by simp⟩
  have := hws _ h
  revert this; decide

/-- Plain text followed by a backslash (or by nothing): no delimiter starts in it. -/
theorem plain_skip (kw' name : Str) (hkw : '\\' ∉ kw') (hn : '\\' ∉ name) (t R : Str)
    (ht : NoDelim ('\\' :: kw') name t) (hR : R.head? = some '\\') (rev u v : Str) (e : t = u ++ v) (hv : v ≠ []) :
    (delimRe ('\\' :: kw') name).matchAt rev (v ++ R) = none := by
  cases h : (delimRe ('\\' :: kw') name).matchAt rev (v ++ R) with
  | none => rfl
  | some m =>
    obtain ⟨d, tail, e1, hd, _⟩ := delimRe_some _ _ _ _ _ h
    exfalso
    rcases List.append_eq_append_iff.1 e1 with ⟨a, ha, hb⟩ | ⟨a, ha, hb⟩
    · -- d = v ++ a, R = a ++ tail
      cases a with
      | nil =>
        simp at ha
        subst ha
        exact ht u d [] (by simp [e]) hd
      | cons x a =>
        rw [hb] at hR
        simp at hR
        subst hR
        obtain ⟨d', hd', hnb⟩ := delim_backslash kw' name d hkw hn hd
        cases v with
        | nil => exact hv rfl
        | cons y v =>
          rw [ha] at hd'
          simp at hd'
          apply hnb
          rw [← hd'.2]
          simp
    · exact ht u d a (by rw [e, ha, List.append_assoc]) hd

theorem Closes_congr {F : Finders} {p q d x y : Nat} (h1 : F.opener p = F.opener q) (h2 : F.closer p = F.closer q)
    (h : F.Closes q d x y) : F.Closes p d x y := by
  cases h with
  | last _ _ _ hn => exact .last _ _ _ (by unfold Finders.NextClose; rw [h1, h2]; exact hn)
  | close _ d' _ _ a' b' hd hn hc =>
    exact .close _ _ _ _ a' b' hd (by unfold Finders.NextClose; rw [h1, h2]; exact hn) hc
  | opens _ _ _ _ a' b' hd hn hc =>
    exact .opens _ _ _ _ a' b' hd (by unfold Finders.NextOpen; rw [h1, h2]; exact hn) hc

theorem delim_head (kw' name d R : Str) (hd : IsDelim ('\\' :: kw') name d) : (d ++ R).head? = some '\\' := by
  obtain ⟨ws, _, rfl⟩ := hd; simp

/-- `\begin` does not match where an `\end` delimiter stands. -/
theorem begin_ne_end (name name' d tail rev : Str) (hd : IsDelim "\\end".toList name' d) :
    (delimRe "\\begin".toList name).matchAt rev (d ++ tail) = none := by
  cases h : (delimRe "\\begin".toList name).matchAt rev (d ++ tail) with
  | none => rfl
  | some m =>
    obtain ⟨d2, t2, e1, ⟨ws2, _, rfl⟩, _⟩ := delimRe_some _ _ _ _ _ h
    obtain ⟨ws, _, rfl⟩ := hd
    simp at e1

/-- Positions of a later search are at least the position searched from. -/
theorem searchPos_gt (r : Re) (hr : NonEmptyRe r) (P R : Str) (h : r.matchAt P.reverse R = none)
    {a b : Nat} (hs : r.searchPos (P ++ R) P.length = some (a, b)) : P.length < a := by
  unfold Re.searchPos at hs
  rw [List.take_left, List.drop_left] at hs
  cases R with
  | nil => simp [Re.searchFrom, h] at hs
  | cons x R =>
    simp only [Re.searchFrom, h] at hs
    have e : r.searchPos ((P ++ [x]) ++ R) (P ++ [x]).length = some (a, b) := by
      unfold Re.searchPos
      rw [List.take_left, List.drop_left]
      simpa using hs
    have := searchPos_bounds r hr _ _ _ _ (by simp) e
    simp at this
    omega

theorem begin_kw : "\\begin".toList = '\\' :: "begin".toList := rfl
theorem end_kw : "\\end".toList = '\\' :: "end".toList := rfl
theorem begin_nb : '\\' ∉ "begin".toList := by decide
theorem end_nb : '\\' ∉ "end".toList := by decide

/-- Walking over a well-nested body leaves the depth unchanged. -/
theorem envBody_closes (name : Str) (hn : '\\' ∉ name) {body : Str} (hb : EnvBody name body) :
    ∀ (P R text : Str) (d x y : Nat), text = P ++ body ++ R → R.head? = some '\\' → 1 ≤ d →
    (finders (beginRe name) (endRe name) text).Closes (P ++ body).length d x y →
    (finders (beginRe name) (endRe name) text).Closes P.length d x y := by
  have plainStep : ∀ (t P R text : Str), NoDelim "\\begin".toList name t → NoDelim "\\end".toList name t →
      text = P ++ t ++ R → R.head? = some '\\' → ∀ d x y,
      (finders (beginRe name) (endRe name) text).Closes (P ++ t).length d x y →
      (finders (beginRe name) (endRe name) text).Closes P.length d x y := by
    intro t P R text h1 h2 ht hR d x y hc
    subst ht
    refine Closes_congr ?_ ?_ hc
    · exact searchPos_skip _ P t R fun u v e hv => plain_skip "begin".toList name begin_nb hn t R h1 hR _ u v e hv
    · exact searchPos_skip _ P t R fun u v e hv => plain_skip "end".toList name end_nb hn t R h2 hR _ u v e hv
  induction hb with
  | plain t h1 h2 => intro P R text d x y ht hR _ hc; exact plainStep t P R text h1 h2 ht hR d x y hc
  | env t b body e rest h1 h2 hbg _ hen _ ihb ihr =>
    intro P R text d x y ht hR hd hc
    have hbe := endRe_nonEmpty name
    have hbb := beginRe_nonEmpty name
    have s4 := ihr (P ++ t ++ b ++ body ++ e) R text d x y (by simp [ht]) hR hd (by simpa using hc)
    have s3 : (finders (beginRe name) (endRe name) text).Closes (P ++ t ++ b ++ body).length (d + 1) x y := by
      refine .close _ d x y (P ++ t ++ b ++ body).length (P ++ t ++ b ++ body ++ e).length hd ⟨?_, ?_⟩ s4
      · have := searchPos_here (endRe name) (P ++ t ++ b ++ body) (e ++ (rest ++ R)) _
          (delimRe_match "\\end".toList name _ e (rest ++ R) hen)
        show (endRe name).searchPos text _ = _
        rw [show text = (P ++ t ++ b ++ body) ++ (e ++ (rest ++ R)) by simp [ht], this]
        simp [Nat.add_assoc]
      · intro a' b' h
        refine searchPos_gt (beginRe name) hbb (P ++ t ++ b ++ body) (e ++ (rest ++ R)) ?_ ?_ (b := b')
        · exact begin_ne_end name name e _ _ hen
        · rw [show (P ++ t ++ b ++ body) ++ (e ++ (rest ++ R)) = text by simp [ht]]
          exact h
    have s2 := ihb (P ++ t ++ b) (e ++ (rest ++ R)) text (d + 1) x y (by simp [ht])
      (delim_head "end".toList name e _ hen) (by omega) (by simpa using s3)
    have s1 : (finders (beginRe name) (endRe name) text).Closes (P ++ t).length d x y := by
      refine .opens _ d x y (P ++ t).length (P ++ t ++ b).length hd ⟨?_, ?_⟩ s2
      · have := searchPos_here (beginRe name) (P ++ t) (b ++ (body ++ e ++ rest ++ R)) _
          (delimRe_match "\\begin".toList name _ b _ hbg)
        show (beginRe name).searchPos text _ = _
        rw [show text = (P ++ t) ++ (b ++ (body ++ e ++ rest ++ R)) by simp [ht], this]
        simp [Nat.add_assoc]
      · intro a' b' h
        exact (searchPos_bounds _ hbe text _ _ _ (by simp [ht]) h).1
    exact plainStep t P (b ++ (body ++ e ++ rest ++ R)) text h1 h2 (by simp [ht])
      (delim_head "begin".toList name b _ hbg) d x y s1

end L2J
