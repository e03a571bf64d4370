import Verif.Lemmas.Eats
/-! What a pattern can do on a text of which only the beginning is known: a sound over-approximation that can be computed. -/
namespace L2J.Defn

/-- The states a pattern can lead to on the known beginning `w`: what is left of it, or `none` for somewhere behind it. -/
def _root_.L2J.Re.may : Re → Str → List (Option Str)
  | .eps, w => [some w]
  | .fail, _ => []
  | .chr p, w =>
    match w with
    | [] => [none]
    | x :: t => if p x then [some t] else []
  | .seq a b, w => (a.may w).flatMap fun | none => [none] | some v => b.may v
  | .alt a b, w => a.may w ++ b.may w
  | .star a, w => if (a.may w).isEmpty then [some w] else [none]
  | .lazyStar a, w => if (a.may w).isEmpty then [some w] else [none]
  | .group _ a, w => a.may w
  | .look a, w => if (a.may w).isEmpty then [] else [some w]
  | .nlook (.chr p), w =>
    match w with
    | [] => [some []]
    | x :: _ => if p x then [] else [some w]
  | .nlook _, w => [some w]
  | .nbehind _, w => [some w]
  | .eos, w => [some w]

/-- A state agrees with what was foreseen. -/
def Fits (l : List (Option Str)) (r s : Str) : Prop := none ∈ l ∨ ∃ v, some v ∈ l ∧ s = v ++ r

theorem iterGreedy_nil {f : MSt → List MSt} {st : MSt} (h : f st = []) : ∀ n, iterGreedy f n st = [st]
  | 0 => rfl
  | n + 1 => by simp [iterGreedy, h]

theorem iterLazy_nil {f : MSt → List MSt} {st : MSt} (h : f st = []) : ∀ n, iterLazy f n st = [st]
  | 0 => rfl
  | n + 1 => by simp [iterLazy, h]

theorem may_fits (q : Re) (r : Str) : ∀ (w : Str) (st st' : MSt), st.rest = w ++ r → st' ∈ q.run st → Fits (q.may w) r st'.rest := by
  have nil : ∀ {a : Re} {w : Str} {st : MSt}, (∀ (w : Str) (st st' : MSt), st.rest = w ++ r → st' ∈ a.run st → Fits (a.may w) r st'.rest) →
      st.rest = w ++ r → (a.may w).isEmpty = true → a.run st = [] := by
    intro a w st ih hw he
    rw [List.isEmpty_iff] at he
    refine List.eq_nil_iff_forall_not_mem.2 fun x hx => ?_
    have := ih w st x hw hx
    rw [he] at this
    simp [Fits] at this
  induction q with
  | eps => intro w st st' hw h; simp [Re.run] at h; exact .inr ⟨w, by simp [Re.may], by rw [h, hw]⟩
  | fail => intro w st st' hw h; simp [Re.run] at h
  | chr p =>
    intro w st st' hw h
    cases w with
    | nil => exact .inl (by simp [Re.may])
    | cons x t =>
      simp only [Re.run, hw, List.cons_append] at h
      split at h
      · rename_i hp
        simp at h
        exact .inr ⟨t, by simp [Re.may, hp], by rw [h]⟩
      · simp at h
  | seq a b iha ihb =>
    intro w st st' hw h
    simp only [Re.run, List.mem_flatMap] at h
    obtain ⟨s, h1, h2⟩ := h
    rcases iha w st s hw h1 with h3 | ⟨v, h3, h4⟩
    · exact .inl (by simp only [Re.may, List.mem_flatMap]; exact ⟨none, h3, by simp⟩)
    · rcases ihb v s st' h4 h2 with h5 | ⟨u, h5, h6⟩
      · exact .inl (by simp only [Re.may, List.mem_flatMap]; exact ⟨some v, h3, h5⟩)
      · exact .inr ⟨u, by simp only [Re.may, List.mem_flatMap]; exact ⟨some v, h3, h5⟩, h6⟩
  | alt a b iha ihb =>
    intro w st st' hw h
    simp only [Re.run, List.mem_append] at h
    rcases h with h | h
    · rcases iha w st st' hw h with h3 | ⟨v, h3, h4⟩
      · exact .inl (by simp [Re.may, h3])
      · exact .inr ⟨v, by simp [Re.may, h3], h4⟩
    · rcases ihb w st st' hw h with h3 | ⟨v, h3, h4⟩
      · exact .inl (by simp [Re.may, h3])
      · exact .inr ⟨v, by simp [Re.may, h3], h4⟩
  | star a ih =>
    intro w st st' hw h
    unfold Re.may
    split
    · rename_i he
      rw [show (Re.star a).run st = iterGreedy a.run st.rest.length st from rfl, iterGreedy_nil (nil ih hw he)] at h
      simp at h
      exact .inr ⟨w, by simp, by rw [h, hw]⟩
    · exact .inl (by simp)
  | lazyStar a ih =>
    intro w st st' hw h
    unfold Re.may
    split
    · rename_i he
      rw [show (Re.lazyStar a).run st = iterLazy a.run st.rest.length st from rfl, iterLazy_nil (nil ih hw he)] at h
      simp at h
      exact .inr ⟨w, by simp, by rw [h, hw]⟩
    · exact .inl (by simp)
  | group n a ih =>
    intro w st st' hw h
    simp only [Re.run, List.mem_map] at h
    obtain ⟨s, h1, rfl⟩ := h
    exact ih w st s hw h1
  | look a ih =>
    intro w st st' hw h
    simp only [Re.run] at h
    split at h
    · simp at h
    · rename_i he
      simp at h
      unfold Re.may
      split
      · rename_i h5; exact absurd (by simp [nil ih hw h5]) he
      · exact .inr ⟨w, by simp, by rw [h, hw]⟩
  | nlook a ih =>
    intro w st st' hw h
    have stay : st' = st := by
      simp only [Re.run] at h
      split at h <;> simp at h
      exact h
    have gen : some w ∈ (Re.nlook a).may w → Fits ((Re.nlook a).may w) r st'.rest := fun hm => .inr ⟨w, hm, by rw [stay, hw]⟩
    apply gen
    cases a with
    | chr p =>
      cases w with
      | nil => simp [Re.may]
      | cons x t =>
        by_cases hp : p x = true
        · simp [Re.run, hw, hp] at h
        · simp [Re.may, hp]
    | _ => simp [Re.may]
  | nbehind p =>
    intro w st st' hw h
    simp only [Re.run] at h
    refine .inr ⟨w, by simp [Re.may], ?_⟩
    split at h
    · simp at h; rw [h, hw]
    · split at h <;> simp at h; rw [h, hw]
  | eos => intro w st st' hw h; simp only [Re.run] at h; split at h <;> simp at h; exact .inr ⟨w, by simp [Re.may], by rw [h, hw]⟩

theorem may_dead {q : Re} {w : Str} (h : (q.may w).isEmpty = true) (r : Str) : Dead q (w ++ r) := by
  intro rev g
  refine List.eq_nil_iff_forall_not_mem.2 fun x hx => ?_
  have := may_fits q r w ⟨rev, w ++ r, g⟩ x rfl hx
  rw [List.isEmpty_iff.1 h] at this
  simp [Fits] at this

end L2J.Defn
