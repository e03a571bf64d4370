import Verif.Model.Regex
namespace L2J

theorem Re.matchAt_eq (r : Re) (rev rest : Str) :
    r.matchAt rev rest = (r.run ⟨rev, rest, []⟩).head?.map
      fun st => ⟨rev, rest, rest.length - st.rest.length, st.groups⟩ := by
  unfold Re.matchAt
  cases r.run ⟨rev, rest, []⟩ <;> rfl

/-- All prefixes of the maximal run of `p`-characters, longest first. -/
def charRuns (p : Char → Bool) (g : List (Nat × Str)) : Str → Str → List MSt
  | rev, [] => [⟨rev, [], g⟩]
  | rev, x :: rest =>
    if p x then charRuns p g (x :: rev) rest ++ [⟨rev, x :: rest, g⟩] else [⟨rev, x :: rest, g⟩]

theorem iterGreedy_chr (p : Char → Bool) (g : List (Nat × Str)) : ∀ (rest rev : Str) (n : Nat),
    rest.length ≤ n → iterGreedy (Re.run (.chr p)) n ⟨rev, rest, g⟩ = charRuns p g rev rest
  | [], rev, 0, _ => rfl
  | [], rev, n + 1, _ => by simp [iterGreedy, Re.run, charRuns]
  | x :: rest, rev, 0, h => by simp at h
  | x :: rest, rev, n + 1, h => by
    have ih := iterGreedy_chr p g rest (x :: rev) n (by simpa using h)
    by_cases hp : p x
    · have e : Re.run (.chr p) ⟨rev, x :: rest, g⟩ = [⟨x :: rev, rest, g⟩] := by simp [Re.run, hp]
      simp only [iterGreedy, e, charRuns, hp, if_true]
      simp [ih]
    · simp [iterGreedy, Re.run, charRuns, hp]

theorem run_star_chr (p : Char → Bool) (st : MSt) :
    (Re.star (.chr p)).run st = charRuns p st.groups st.rev st.rest := by
  obtain ⟨rev, rest, g⟩ := st
  exact iterGreedy_chr p g rest rev _ (Nat.le_refl _)

/-- If the continuation fails whenever the next character is still in the class, only the longest
run matters. -/
theorem charRuns_flatMap {β} (p : Char → Bool) (g : List (Nat × Str)) (k : MSt → List β)
    (hk : ∀ rev x rest, p x = true → k ⟨rev, x :: rest, g⟩ = []) : ∀ (rest rev : Str),
    (charRuns p g rev rest).flatMap k =
      k ⟨(rest.takeWhile p).reverse ++ rev, rest.dropWhile p, g⟩
  | [], rev => by simp [charRuns]
  | x :: rest, rev => by
    by_cases hp : p x
    · simp only [charRuns, hp, if_true, List.flatMap_append, charRuns_flatMap p g k hk rest (x :: rev)]
      simp [hp, hk rev x rest hp]
    · simp [charRuns, hp]

theorem charRuns_head? (p : Char → Bool) (g : List (Nat × Str)) : ∀ (rest rev : Str),
    (charRuns p g rev rest).head? = some ⟨(rest.takeWhile p).reverse ++ rev, rest.dropWhile p, g⟩
  | [], rev => by simp [charRuns]
  | x :: rest, rev => by
    by_cases hp : p x
    · simp [charRuns, hp, charRuns_head? p g rest (x :: rev)]
    · simp [charRuns, hp]

theorem run_plus_chr (p : Char → Bool) (st : MSt) :
    (Re.plus (.chr p)).run st =
      match st.rest with
      | [] => []
      | x :: rest => if p x then charRuns p st.groups (x :: st.rev) rest else [] := by
  obtain ⟨rev, rest, g⟩ := st
  cases rest with
  | nil => simp [Re.plus, Re.run]
  | cons x rest =>
    by_cases hp : p x
    · have := run_star_chr p ⟨x :: rev, rest, g⟩
      simp only [Re.plus, Re.run, hp, if_true, List.flatMap_cons, List.flatMap_nil, List.append_nil]
      simp only [Re.run] at this
      exact this
    · simp [Re.plus, Re.run, hp]

theorem run_plus_chr_flatMap {β} (p : Char → Bool) (k : MSt → List β) (rev rest : Str) (g : List (Nat × Str))
    (hk : ∀ rev x rest, p x = true → k ⟨rev, x :: rest, g⟩ = []) :
    ((Re.plus (.chr p)).run ⟨rev, rest, g⟩).flatMap k =
      if rest.takeWhile p = [] then [] else
        k ⟨(rest.takeWhile p).reverse ++ rev, rest.dropWhile p, g⟩ := by
  rw [run_plus_chr]
  cases rest with
  | nil => simp
  | cons x rest =>
    by_cases hp : p x
    · simp only [hp, if_true]
      rw [charRuns_flatMap p g k hk]
      simp [hp]
    · simp [hp]

theorem run_plus_chr_head? (p : Char → Bool) (rev rest : Str) (g : List (Nat × Str)) :
    ((Re.plus (.chr p)).run ⟨rev, rest, g⟩).head? =
      if rest.takeWhile p = [] then none else
        some ⟨(rest.takeWhile p).reverse ++ rev, rest.dropWhile p, g⟩ := by
  rw [run_plus_chr]
  cases rest with
  | nil => simp
  | cons x rest =>
    by_cases hp : p x
    · simp only [hp, if_true]
      rw [charRuns_head?]
      simp [hp]
    · simp [hp]

theorem takeWhile_eq_take {α} (p : α → Bool) (l : List α) : l.takeWhile p = l.take (l.takeWhile p).length := by
  conv => rhs; rhs; rw [← List.takeWhile_append_dropWhile (p := p) (l := l)]
  rw [List.take_left]

theorem dropWhile_length {α} (p : α → Bool) (l : List α) :
    (l.takeWhile p).length + (l.dropWhile p).length = l.length := by
  rw [← List.length_append, List.takeWhile_append_dropWhile]

/-- Skipping over the characters of a match. -/
theorem Re.subAux_skip (r : Re) (f : Match → Str) : ∀ (a rev b : Str),
    r.subAux f a.length rev (a ++ b) = r.subAux f 0 (a.reverse ++ rev) b
  | [], rev, b => by simp
  | x :: a, rev, b => by
    simp only [List.length_cons, List.cons_append, Re.subAux]
    rw [Re.subAux_skip r f a (x :: rev) b]; simp

theorem Re.findIter_skip (r : Re) : ∀ (a rev b : Str),
    r.findIter a.length rev (a ++ b) = r.findIter 0 (a.reverse ++ rev) b
  | [], rev, b => by simp
  | x :: a, rev, b => by
    simp only [List.length_cons, List.cons_append, Re.findIter]
    rw [Re.findIter_skip r a (x :: rev) b]; simp

/-- One `sub` step at a match of length `a.length > 0`. -/
theorem Re.subAux_match (r : Re) (f : Match → Str) (a rev b : Str) (m : Match) (ha : a ≠ [])
    (hm : r.matchAt rev (a ++ b) = some m) (hlen : m.len = a.length) :
    r.subAux f 0 rev (a ++ b) = f m ++ r.subAux f 0 (a.reverse ++ rev) b := by
  cases a with
  | nil => exact absurd rfl ha
  | cons x a =>
    simp only [List.cons_append] at hm ⊢
    conv => lhs; unfold Re.subAux
    rw [hm]
    simp only [hlen, List.length_cons, Nat.zero_lt_succ, if_true, Nat.add_sub_cancel]
    have := Re.subAux_skip r f a (x :: rev) b
    rw [this]; simp

theorem Re.findIter_match (r : Re) (a rev b : Str) (m : Match) (ha : a ≠ [])
    (hm : r.matchAt rev (a ++ b) = some m) (hlen : m.len = a.length) :
    r.findIter 0 rev (a ++ b) = m :: r.findIter 0 (a.reverse ++ rev) b := by
  cases a with
  | nil => exact absurd rfl ha
  | cons x a =>
    simp only [List.cons_append] at hm ⊢
    conv => lhs; unfold Re.findIter
    rw [hm]
    simp only [hlen, List.length_cons, Nat.zero_lt_succ, if_true, Nat.add_sub_cancel]
    have := Re.findIter_skip r a (x :: rev) b
    rw [this]; simp

theorem Re.subAux_none (r : Re) (f : Match → Str) (x : Char) (rev b : Str)
    (hm : r.matchAt rev (x :: b) = none) :
    r.subAux f 0 rev (x :: b) = x :: r.subAux f 0 (x :: rev) b := by
  conv => lhs; unfold Re.subAux
  rw [hm]

theorem Re.findIter_none (r : Re) (x : Char) (rev b : Str)
    (hm : r.matchAt rev (x :: b) = none) :
    r.findIter 0 rev (x :: b) = r.findIter 0 (x :: rev) b := by
  conv => lhs; unfold Re.findIter
  rw [hm]

end L2J
