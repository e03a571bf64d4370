import Verif.Lemmas.Regex
import Verif.Model.Nested
import Verif.Spec.Nested
namespace L2J
open Spec

def finders (b e : Re) (text : Str) : Finders := ⟨b.searchPos text, e.searchPos text⟩

/-- A pattern that never matches the empty string, on a given text. -/
def NonEmptyRe (r : Re) : Prop := ∀ rev rest m, r.matchAt rev rest = some m → 0 < m.len ∧ m.len ≤ rest.length

theorem Re.searchFrom_spec (r : Re) (rest : Str) : ∀ rev,
    (r.searchFrom rev rest = none ∧ ∀ k, k ≤ rest.length → r.matchAt ((rest.take k).reverse ++ rev) (rest.drop k) = none) ∨
    (∃ k m, k ≤ rest.length ∧ r.searchFrom rev rest = some m ∧
      r.matchAt ((rest.take k).reverse ++ rev) (rest.drop k) = some m ∧
      ∀ j, j < k → r.matchAt ((rest.take j).reverse ++ rev) (rest.drop j) = none) := by
  induction rest with
  | nil =>
    intro rev
    simp only [Re.searchFrom]
    cases h : r.matchAt rev [] with
    | none => left; refine ⟨rfl, fun k hk => ?_⟩; simp at hk; subst hk; simpa using h
    | some m => right; exact ⟨0, m, by simp, rfl, by simpa using h, fun j hj => by omega⟩
  | cons x rest ih =>
    intro rev
    simp only [Re.searchFrom]
    cases h : r.matchAt rev (x :: rest) with
    | some m => right; exact ⟨0, m, by simp, rfl, by simpa using h, fun j hj => by omega⟩
    | none =>
      simp only []
      rcases ih (x :: rev) with ⟨h1, h2⟩ | ⟨k, m, h1, h2, h3, h4⟩
      · left
        refine ⟨h1, fun k hk => ?_⟩
        cases k with
        | zero => simpa using h
        | succ k => have := h2 k (by simpa using hk); simpa using this
      · right
        refine ⟨k + 1, m, by simpa using h1, h2, by simpa using h3, fun j hj => ?_⟩
        cases j with
        | zero => simpa using h
        | succ j => have := h4 j (by omega); simpa using this

theorem Re.matchAt_zip (r : Re) (rev rest : Str) (m : Match) (h : r.matchAt rev rest = some m) :
    m.rev = rev ∧ m.rest = rest := by
  rw [Re.matchAt_eq] at h
  rw [Option.map_eq_some_iff] at h
  obtain ⟨st, _, rfl⟩ := h
  exact ⟨rfl, rfl⟩

/-- Positions reported by a search. -/
theorem searchPos_bounds (r : Re) (hr : NonEmptyRe r) (text : Str) (p a b : Nat) (hp : p ≤ text.length)
    (h : r.searchPos text p = some (a, b)) : p ≤ a ∧ a < b ∧ b ≤ text.length := by
  unfold Re.searchPos at h
  rw [Option.map_eq_some_iff] at h
  obtain ⟨m, hm, hab⟩ := h
  rcases r.searchFrom_spec (text.drop p) (text.take p).reverse with ⟨h1, _⟩ | ⟨k, m', h1, h2, h3, _⟩
  · rw [h1] at hm; cases hm
  · rw [h2] at hm
    injection hm with hm
    subst hm
    obtain ⟨e1, e2⟩ := r.matchAt_zip _ _ _ h3
    have := hr _ _ _ h3
    simp only [Match.start, Match.stop, Prod.mk.injEq, e1] at hab
    simp at hab this h1
    omega

theorem nestLoop_iff (b e : Re) (hb : NonEmptyRe b) (he : NonEmptyRe e) (text : Str) :
    ∀ (fuel p d : Nat), text.length < p + fuel → p ≤ text.length → 1 ≤ d → ∀ x y,
    (nestLoop b e text fuel p d = some (x, y) ↔ (finders b e text).Closes p d x y) := by
  intro fuel
  induction fuel with
  | zero => intro p d h1 h2; omega
  | succ fuel ih =>
    intro p d h1 h2 hd x y
    unfold nestLoop
    by_cases hp : p < text.length
    · rw [if_pos hp]
      cases hes : e.searchPos text p with
      | none =>
        simp only [reduceCtorEq, false_iff]
        intro hc
        -- every event is then an opening one; the walk never ends since closer is none at later positions
        have hmono : ∀ q, p ≤ q → q ≤ text.length → e.searchPos text q = none := by
          intro q hq hql
          unfold Re.searchPos at hes ⊢
          rw [Option.map_eq_none_iff] at hes ⊢
          rcases e.searchFrom_spec (text.drop p) (text.take p).reverse with ⟨g1, g2⟩ | ⟨k, m, _, g2, _⟩
          · rcases e.searchFrom_spec (text.drop q) (text.take q).reverse with ⟨f1, _⟩ | ⟨k, m, f0, f1, f2, _⟩
            · exact f1
            · have := g2 (q - p + k) (by simp at f0 ⊢; omega)
              have e1 : (text.drop p).drop (q - p + k) = (text.drop q).drop k := by
                rw [List.drop_drop, List.drop_drop]; congr 1; omega
              have e2 : ((text.drop p).take (q - p + k)).reverse ++ (text.take p).reverse =
                  ((text.drop q).take k).reverse ++ (text.take q).reverse := by
                rw [← List.reverse_append, ← List.reverse_append]
                congr 1
                have a1 := List.take_add (l := text) (i := p) (j := q - p + k)
                have a2 := List.take_add (l := text) (i := q) (j := k)
                rw [← a1, ← a2]; congr 1; omega
              rw [e1, e2, f2] at this
              cases this
          · rw [g2] at hes; cases hes
        have : ∀ {q d x y}, (finders b e text).Closes q d x y → p ≤ q → q ≤ text.length → False := by
          intro q d x y hc
          induction hc with
          | last q a b' hn => intro h1 h2; have := hn.1; simp only [finders] at this; rw [hmono q h1 h2] at this; cases this
          | close q d a b' a' b'' _ hn _ _ => intro h1 h2; have := hn.1; simp only [finders] at this; rw [hmono q h1 h2] at this; cases this
          | opens q d a b' a' b'' _ hn _ ih' =>
            intro h1 h2
            have := searchPos_bounds b hb text q a' b'' h2 hn.1
            exact ih' (by omega) (by omega)
        exact this hc (Nat.le_refl _) h2
      | some r =>
        obtain ⟨es, ee⟩ := r
        have hbe := searchPos_bounds e he text p es ee h2 hes
        simp only []
        have hclose : (∀ a' b', b.searchPos text p = some (a', b') → es < a') →
            ((if d - 1 = 0 then some (es, ee) else nestLoop b e text fuel ee (d - 1)) = some (x, y) ↔
              (finders b e text).Closes p d x y) := by
          intro hno
          have hnc : (finders b e text).NextClose p es ee := ⟨hes, hno⟩
          constructor
          · intro h
            by_cases hd1 : d - 1 = 0
            · rw [if_pos hd1] at h
              injection h with h
              injection h with h3 h4
              subst h3; subst h4
              have : d = 1 := by omega
              subst this
              exact .last p _ _ hnc
            · rw [if_neg hd1] at h
              have := (ih ee (d - 1) (by omega) (by omega) (by omega) x y).1 h
              have h5 := Finders.Closes.close p (d - 1) x y es ee (by omega) hnc this
              rwa [show d - 1 + 1 = d by omega] at h5
          · intro h
            cases h with
            | last _ _ _ hn =>
              have := hn.1
              simp only [finders] at this
              rw [hes] at this
              injection this with this
              injection this with h3 h4
              simp [h3, h4]
            | close _ d' _ _ a' b' hd' hn hc =>
              have := hn.1
              simp only [finders] at this
              rw [hes] at this
              injection this with this
              injection this with h3 h4
              subst h3; subst h4
              rw [if_neg (by omega)]
              exact (ih ee (d' + 1 - 1) (by omega) (by omega) (by omega) x y).2 (by simpa using hc)
            | opens _ _ _ _ a' b' _ hn _ =>
              have h3 := hn.1
              have h4 := hn.2 es ee hes
              have := hno a' b' h3
              omega
        cases hbs : b.searchPos text p with
        | none =>
          simp only []
          exact hclose (by intro a' b' h; rw [hbs] at h; cases h)
        | some r =>
          obtain ⟨bs, be⟩ := r
          simp only []
          by_cases hlt : es < bs
          · rw [if_pos hlt]
            exact hclose (by intro a' b' h; rw [hbs] at h; injection h with h; injection h with h3 h4; omega)
          · rw [if_neg hlt]
            have hbb := searchPos_bounds b hb text p bs be h2 hbs
            have hno : (finders b e text).NextOpen p bs be :=
              ⟨hbs, by intro a' b' h; simp only [finders] at h; rw [hes] at h; injection h with h; injection h with h3 h4; omega⟩
            rw [ih be (d + 1) (by omega) (by omega) (by omega) x y]
            constructor
            · intro h; exact .opens p d x y bs be hd hno h
            · intro h
              have conflict : ∀ a b', ¬ (finders b e text).NextClose p a b' := by
                intro a b' hn
                have h3 := hn.1
                simp only [finders] at h3
                rw [hes] at h3
                injection h3 with h3; injection h3 with h4 h5
                have := hn.2 bs be hbs
                omega
              cases h with
              | last _ _ _ hn => exact absurd hn (conflict _ _)
              | close _ d' _ _ a' b' hd' hn hc => exact absurd hn (conflict _ _)
              | opens _ _ _ _ a' b' _ hn hc =>
                have := hn.1
                simp only [finders] at this
                rw [hbs] at this
                injection this with this
                injection this with h3 h4
                subst h4
                exact hc
    · rw [if_neg hp]
      simp only [reduceCtorEq, false_iff]
      intro hc
      have hpe : p = text.length := by omega
      have hnone : ∀ (r : Re), NonEmptyRe r → r.searchPos text p = none := by
        intro r hr
        cases h : r.searchPos text p with
        | none => rfl
        | some q => have := searchPos_bounds r hr text p q.1 q.2 h2 h; omega
      cases hc with
      | last _ _ _ hn => have := hn.1; simp only [finders] at this; rw [hnone e he] at this; cases this
      | close _ _ _ _ _ _ _ hn _ => have := hn.1; simp only [finders] at this; rw [hnone e he] at this; cases this
      | opens _ _ _ _ _ _ _ hn _ => have := hn.1; simp only [finders] at this; rw [hnone b hb] at this; cases this

end L2J
