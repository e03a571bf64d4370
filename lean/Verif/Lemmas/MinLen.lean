import Verif.Lemmas.Nested
/-! How much a regular expression consumes at least. -/
namespace L2J

/-- A lower bound for the length of every match. -/
def Re.minLen : Re → Nat
  | .eps => 0
  | .fail => 0
  | .chr _ => 1
  | .seq a b => a.minLen + b.minLen
  | .alt a b => min a.minLen b.minLen
  | .star _ => 0
  | .lazyStar _ => 0
  | .group _ a => a.minLen
  | .look _ => 0
  | .nlook _ => 0
  | .nbehind _ => 0
  | .eos => 0

theorem iterGreedy_short (f : MSt → List MSt) (hf : ∀ st st', st' ∈ f st → st'.rest.length ≤ st.rest.length) :
    ∀ (n : Nat) (st st' : MSt), st' ∈ iterGreedy f n st → st'.rest.length ≤ st.rest.length
  | 0, st, st', h => by simp [iterGreedy] at h; rw [h]; exact Nat.le_refl _
  | n + 1, st, st', h => by
    simp only [iterGreedy, List.mem_append, List.mem_flatMap, List.mem_filter, List.mem_singleton] at h
    rcases h with ⟨s, ⟨hs, _⟩, h⟩ | h
    · exact Nat.le_trans (iterGreedy_short f hf n s st' h) (hf st s hs)
    · rw [h]; exact Nat.le_refl _

theorem iterLazy_short (f : MSt → List MSt) (hf : ∀ st st', st' ∈ f st → st'.rest.length ≤ st.rest.length) :
    ∀ (n : Nat) (st st' : MSt), st' ∈ iterLazy f n st → st'.rest.length ≤ st.rest.length
  | 0, st, st', h => by simp [iterLazy] at h; rw [h]; exact Nat.le_refl _
  | n + 1, st, st', h => by
    simp only [iterLazy, List.mem_cons, List.mem_flatMap, List.mem_filter] at h
    rcases h with h | ⟨s, ⟨hs, _⟩, h⟩
    · rw [h]; exact Nat.le_refl _
    · exact Nat.le_trans (iterLazy_short f hf n s st' h) (hf st s hs)

theorem Re.run_minLen (r : Re) : ∀ (st st' : MSt), st' ∈ r.run st → st'.rest.length + r.minLen ≤ st.rest.length := by
  induction r with
  | eps => intro st st' h; simp [Re.run] at h; simp [h, Re.minLen]
  | fail => intro st st' h; simp [Re.run] at h
  | chr p =>
    intro st st' h
    unfold Re.run at h
    cases hr : st.rest with
    | nil => rw [hr] at h; simp at h
    | cons x rest =>
      rw [hr] at h
      simp only at h
      split at h
      · simp at h; rw [h]; simp [Re.minLen]
      · simp at h
  | seq a b iha ihb =>
    intro st st' h
    simp only [Re.run, List.mem_flatMap] at h
    obtain ⟨s, hs, h⟩ := h
    have := iha st s hs; have := ihb s st' h
    simp only [Re.minLen]; omega
  | alt a b iha ihb =>
    intro st st' h
    simp only [Re.run, List.mem_append] at h
    rcases h with h | h
    · have := iha st st' h; simp only [Re.minLen]; omega
    · have := ihb st st' h; simp only [Re.minLen]; omega
  | star a ih =>
    intro st st' h
    simp only [Re.run] at h
    have := iterGreedy_short a.run (fun s s' hs => by have := ih s s' hs; omega) _ st st' h
    simp only [Re.minLen]; omega
  | lazyStar a ih =>
    intro st st' h
    simp only [Re.run] at h
    have := iterLazy_short a.run (fun s s' hs => by have := ih s s' hs; omega) _ st st' h
    simp only [Re.minLen]; omega
  | group n a ih =>
    intro st st' h
    simp only [Re.run, List.mem_map] at h
    obtain ⟨s, hs, h⟩ := h
    have := ih st s hs
    rw [← h]; simpa [Re.minLen] using this
  | look a _ => intro st st' h; simp only [Re.run] at h; split at h <;> simp at h; simp [h, Re.minLen]
  | nlook a _ => intro st st' h; simp only [Re.run] at h; split at h <;> simp at h; simp [h, Re.minLen]
  | nbehind p =>
    intro st st' h
    simp only [Re.run] at h
    split at h
    · simp at h; simp [h, Re.minLen]
    · split at h <;> simp at h; simp [h, Re.minLen]
  | eos => intro st st' h; simp only [Re.run] at h; split at h <;> simp at h; simp [h, Re.minLen]

theorem Re.matchAt_minLen (r : Re) (rev rest : Str) (m : Match) (h : r.matchAt rev rest = some m) :
    r.minLen ≤ m.len ∧ m.len ≤ rest.length := by
  unfold Re.matchAt at h
  split at h
  · cases h
  · rename_i st' l hr
    injection h with h
    have := Re.run_minLen r ⟨rev, rest, []⟩ st' (by rw [hr]; simp)
    rw [← h]
    simp at this ⊢
    omega

theorem nonEmpty_of_minLen (r : Re) (h : 1 ≤ r.minLen) : NonEmptyRe r := fun rev rest m hm => by
  have := Re.matchAt_minLen r rev rest m hm
  omega

theorem Re.search_minLen (r : Re) (text : Str) (m : Match) (h : r.search text = some m) : r.minLen ≤ m.len := by
  have key : ∀ (rest rev : Str), r.searchFrom rev rest = some m → r.minLen ≤ m.len := by
    intro rest
    induction rest with
    | nil => intro rev h; exact (Re.matchAt_minLen r rev [] m h).1
    | cons x rest ih =>
      intro rev h
      unfold Re.searchFrom at h
      split at h
      · rename_i m' hm; injection h with h; subst h; exact (Re.matchAt_minLen r rev _ _ hm).1
      · exact ih _ h
  exact key text [] h

theorem minLen_lit (s : Str) : (Re.lit s).minLen = s.length := by
  induction s with
  | nil => rfl
  | cons c s ih => simp [Re.lit, Re.minLen, ih]; omega

end L2J
