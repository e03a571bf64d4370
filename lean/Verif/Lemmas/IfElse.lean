import Verif.Spec.IfElse
namespace L2J
open Spec

theorem minMatch_spec (l : List (CondKind × Hit)) :
    (minMatch l = none ∧ l = []) ∨
    ∃ x a b, minMatch l = some x ∧ l = a ++ x :: b ∧ (∀ y ∈ a, x.2.start < y.2.start) ∧
      ∀ y ∈ b, x.2.start ≤ y.2.start := by
  induction l with
  | nil => exact .inl ⟨rfl, rfl⟩
  | cons x xs ih =>
    right
    unfold minMatch
    rcases ih with ⟨h1, h2⟩ | ⟨y, a, b, h1, h2, h3, h4⟩
    · rw [h1]; exact ⟨x, [], [], rfl, by simp [h2], by simp, by simp⟩
    · rw [h1]
      by_cases hlt : y.2.start < x.2.start
      · refine ⟨y, x :: a, b, by simp [hlt], by simp [h2], ?_, h4⟩
        intro z hz
        simp only [List.mem_cons] at hz
        rcases hz with rfl | hz
        · exact hlt
        · exact h3 z hz
      · refine ⟨x, [], xs, by simp [hlt], rfl, by simp, ?_⟩
        intro z hz
        rw [h2] at hz
        simp only [List.mem_append, List.mem_cons] at hz
        rcases hz with hz | rfl | hz
        · have := h3 z hz; omega
        · omega
        · have := h4 z hz; omega

theorem validMatches_mem (D : CondDelims) (t : Str) (p d : Nat) (k : CondKind) (h : Hit) :
    (k, h) ∈ validMatches D d (t.drop p) ↔ FirstOf D t p k h ∧ Counts d k := by
  unfold validMatches FirstOf Counts
  by_cases hd : d = 1 <;> cases k <;> simp [hd]

/-- The rank is increasing along `validMatches`, so a kind occurs at most once and before higher ranks. -/
theorem validMatches_sorted (D : CondDelims) (d : Nat) (s : Str) :
    (validMatches D d s).Pairwise (fun x y => rank x.1 < rank y.1) := by
  unfold validMatches
  cases D.ifs s <;> cases D.fi s <;> cases D.els s <;> cases D.elsif s <;> by_cases hd : d = 1 <;>
    simp [hd, rank]

theorem nextCond_iff (D : CondDelims) (t : Str) (p d : Nat) (k : CondKind) (h : Hit) :
    minMatch (validMatches D d (t.drop p)) = some (k, h) ↔
      NextCond D t p d ⟨k, p + h.start, p + h.stop, h.group⟩ := by
  have hs := validMatches_sorted D d (t.drop p)
  rcases minMatch_spec (validMatches D d (t.drop p)) with ⟨h1, h2⟩ | ⟨x, a, b, h1, h2, h3, h4⟩
  · rw [h1]
    simp only [reduceCtorEq, false_iff]
    rintro ⟨h', g1, g2, _⟩
    have := (validMatches_mem D t p d k h').2 ⟨g1, g2⟩
    rw [h2] at this; simp at this
  · rw [h1]
    have hxm : x ∈ validMatches D d (t.drop p) := by rw [h2]; simp
    have min : ∀ k' h', FirstOf D t p k' h' → Counts d k' →
        x.2.start < h'.start ∨ (x.2.start = h'.start ∧ rank x.1 ≤ rank k') := by
      intro k' h' f c
      have hm := (validMatches_mem D t p d k' h').2 ⟨f, c⟩
      rw [h2] at hm hs
      simp only [List.mem_append, List.mem_cons] at hm
      rcases hm with hm | hm | hm
      · exact .inl (h3 _ hm)
      · subst hm; exact .inr ⟨rfl, Nat.le_refl _⟩
      · have g1 := h4 _ hm
        have g2 := List.rel_of_pairwise_cons (List.pairwise_append.1 hs).2.1 hm
        simp only at g1 g2
        by_cases hlt : x.2.start < h'.start
        · exact .inl hlt
        · exact .inr ⟨by omega, by omega⟩
    obtain ⟨k0, h0⟩ := x
    obtain ⟨f0, c0⟩ := (validMatches_mem D t p d k0 h0).1 hxm
    constructor
    · intro e
      simp only [Option.some.injEq, Prod.mk.injEq] at e
      obtain ⟨rfl, rfl⟩ := e
      exact ⟨h0, f0, c0, rfl, rfl, rfl, min⟩
    · rintro ⟨h', f', c', e1, e2, e3, m'⟩
      simp only at f' c' e1 e2 e3 m'
      have A := min k h' f' c'
      have B := m' k0 h0 f0 c0
      have hr : rank k0 = rank k := by simp only at A; omega
      have hk : k0 = k := by cases k0 <;> cases k <;> simp [rank] at hr <;> rfl
      subst hk
      have hh : h' = h0 := by
        unfold FirstOf at f' f0
        rw [f0] at f'; injection f' with f'; exact f'.symm
      subst hh
      have : h' = h := by
        cases h; cases h'
        simp only [Hit.mk.injEq] at *
        exact ⟨by omega, by omega, e3.symm⟩
      rw [this]

theorem nextCond_hit {D : CondDelims} {t : Str} {p d : Nat} {e : CondEv} (h : NextCond D t p d e) :
    ∃ hh, minMatch (validMatches D d (t.drop p)) = some (e.kind, hh) ∧ e.a = p + hh.start ∧ e.b = p + hh.stop ∧
      e.group = hh.group := by
  have h0 := h
  obtain ⟨hh, _, _, h3, h4, h5, _⟩ := h
  refine ⟨hh, ?_, h3, h4, h5⟩
  rw [nextCond_iff]
  cases e
  simp only at h3 h4 h5
  subst h3 h4 h5
  exact h0

theorem nextCond_none {D : CondDelims} {t : Str} {p d : Nat} (h : ∀ e, ¬ NextCond D t p d e) :
    minMatch (validMatches D d (t.drop p)) = none := by
  cases hm : minMatch (validMatches D d (t.drop p)) with
  | none => rfl
  | some x => exact absurd ((nextCond_iff D t p d x.1 x.2).1 hm) (h _)

theorem nextCond_bounds {D : CondDelims} (hD : CondDelims.WF D) {t : Str} {p d : Nat} {e : CondEv}
    (h : NextCond D t p d e) : p ≤ e.a ∧ e.a < e.b ∧ e.b ≤ t.length ∧ p < t.length := by
  obtain ⟨hh, h1, _, h3, h4, _⟩ := h
  have : hh.start < hh.stop ∧ hh.stop ≤ (t.drop p).length := by
    apply hD
    unfold FirstOf at h1
    cases hk : e.kind <;> simp only [hk] at h1
    · exact .inl h1
    · exact .inr (.inl h1)
    · exact .inr (.inr (.inl h1))
    · exact .inr (.inr (.inr h1))
  rw [List.length_drop] at this
  omega

theorem push_buf (st : CondSt) (c : Str) : (st.push c).buf = st.buf ++ [c] := by
  cases st with
  | mk a b cur br => cases cur <;> rfl

/-- Append several chunks. -/
def CondSt.pushAll (st : CondSt) : List Str → CondSt
  | [] => st
  | c :: cs => (st.push c).pushAll cs

theorem slice_append (t : Str) (a b c : Nat) (h1 : a ≤ b) (h2 : b ≤ c) : slice t a b ++ slice t b c = slice t a c := by
  unfold slice
  rw [show t.take b = (t.take c).take b by rw [List.take_take, Nat.min_eq_left h2]]
  have h : ∀ (u : Str), (u.take b).drop a ++ u.drop b = u.drop a := by
    intro u
    rw [show u.drop b = (u.drop a).drop (b - a) by rw [List.drop_drop]; congr 1; omega, List.drop_take,
      List.take_append_drop]
  exact h (t.take c)

/-- Run the loop through nested conditionals up to the next delimiter of the outer one. -/
theorem run_to_top (D : CondDelims) (hD : CondDelims.WF D) (t : Str) {p d : Nat} {evs : List CondEv}
    (h : TopDelims D t p d evs) : ∀ fuel st, t.length < p + fuel →
    ∃ e es fuel' p' chunks, evs = e :: es ∧ p ≤ p' ∧ NextCond D t p' 1 e ∧ t.length < p' + fuel' ∧ p' < t.length ∧
      condLoop D t fuel p d st = condLoop D t fuel' p' 1 (st.pushAll chunks) ∧ chunks.flatten = slice t p p' ∧
      ((e.kind = .fi ∧ es = []) ∨ ((e.kind = .els ∨ e.kind = .elsif) ∧ TopDelims D t e.b 1 es)) := by
  induction h with
  | fi p e h1 h2 =>
    intro fuel st hf
    have hb := nextCond_bounds hD h1
    exact ⟨e, [], fuel, p, [], rfl, Nat.le_refl _, h1, hf, hb.2.2.2, rfl, by simp [slice], .inl ⟨h2, rfl⟩⟩
  | sep p e es h1 h2 h3 _ =>
    intro fuel st hf
    have hb := nextCond_bounds hD h1
    exact ⟨e, es, fuel, p, [], rfl, Nat.le_refl _, h1, hf, hb.2.2.2, rfl, by simp [slice], .inr ⟨h2, h3⟩⟩
  | opens p d e es h0 h1 h2 h3 ih =>
    intro fuel st hf
    have hb := nextCond_bounds hD h1
    obtain ⟨hh, g1, g2, g3, g4⟩ := nextCond_hit h1
    cases fuel with
    | zero => omega
    | succ fuel =>
      obtain ⟨e', es', fuel', p', chunks, q1, q2, q3, q4, q5, q6, q7, q8⟩ :=
        ih fuel (st.push (slice t p e.b)) (by omega)
      refine ⟨e', es', fuel', p', slice t p e.b :: chunks, q1, by omega, q3, q4, q5, ?_, ?_, q8⟩
      · rw [condLoop, if_pos ⟨hb.2.2.2, by omega⟩, g1, h2]
        simp only [ne_eq, not_true_eq_false, and_false, if_false, ← g3]
        exact q6
      · rw [List.flatten_cons, q7]
        exact slice_append t _ _ _ (by omega) (by omega)
  | closes p d e es h0 h1 h2 h3 ih =>
    intro fuel st hf
    have hb := nextCond_bounds hD h1
    obtain ⟨hh, g1, g2, g3, g4⟩ := nextCond_hit h1
    cases fuel with
    | zero => omega
    | succ fuel =>
      obtain ⟨e', es', fuel', p', chunks, q1, q2, q3, q4, q5, q6, q7, q8⟩ :=
        ih fuel (st.push (slice t p e.b)) (by omega)
      refine ⟨e', es', fuel', p', slice t p e.b :: chunks, q1, by omega, q3, q4, q5, ?_, ?_, q8⟩
      · rw [condLoop, if_pos ⟨hb.2.2.2, by omega⟩, g1, h2]
        have : ¬ (d + 1 = 1 ∧ CondKind.fi ≠ .start) := by omega
        simp only [this, if_false, ← g3, Nat.add_sub_cancel]
        exact q6
      · rw [List.flatten_cons, q7]
        exact slice_append t _ _ _ (by omega) (by omega)

theorem pushAll_append (a b : List Str) : ∀ st : CondSt, st.pushAll (a ++ b) = (st.pushAll a).pushAll b := by
  induction a with
  | nil => intro st; rfl
  | cons x a ih => intro st; exact ih _

theorem pushAll_inIf (cs : List Str) : ∀ (a b : List Str) (br), CondSt.pushAll ⟨a, b, .inIf, br⟩ cs = ⟨a ++ cs, b, .inIf, br⟩ := by
  induction cs with
  | nil => intro a b br; simp [CondSt.pushAll]
  | cons c cs ih => intro a b br; simp [CondSt.pushAll, CondSt.push, ih]

theorem pushAll_inElse (cs : List Str) : ∀ (a b : List Str) (br), CondSt.pushAll ⟨a, b, .inElse, br⟩ cs = ⟨a, b ++ cs, .inElse, br⟩ := by
  induction cs with
  | nil => intro a b br; simp [CondSt.pushAll]
  | cons c cs ih => intro a b br; simp [CondSt.pushAll, CondSt.push, ih]

theorem pushAll_other (cs : List Str) : ∀ (a b u : List Str) (br),
    CondSt.pushAll ⟨a, b, .other u, br⟩ cs = ⟨a, b, .other (u ++ cs), br⟩ := by
  induction cs with
  | nil => intro a b u br; simp [CondSt.pushAll]
  | cons c cs ih => intro a b u br; simp [CondSt.pushAll, CondSt.push, ih]

/-- What the loop does from `p`, at the next delimiter of the outer conditional: all text up to that delimiter is
appended to the current buffer, then the delimiter is acted upon. -/
theorem step_top (D : CondDelims) (hD : CondDelims.WF D) (t : Str) {p : Nat} {e : CondEv} {es : List CondEv}
    (h : TopDelims D t p 1 (e :: es)) (fuel : Nat) (st : CondSt) (hf : t.length < p + fuel) :
    p ≤ e.a ∧ e.b ≤ t.length ∧
    ∃ fuel' chunks, t.length < e.b + fuel' ∧ chunks.flatten = slice t p e.a ∧
      ((e.kind = .fi ∧ es = [] ∧ condLoop D t fuel p 1 st = (st.pushAll chunks).finish e.b) ∨
       (e.kind = .els ∧ TopDelims D t e.b 1 es ∧
          condLoop D t fuel p 1 st = condLoop D t fuel' e.b 1 (st.pushAll chunks).onElse) ∨
       (e.kind = .elsif ∧ TopDelims D t e.b 1 es ∧
          condLoop D t fuel p 1 st = (match (st.pushAll chunks).onElsif e.group with
            | none => .indexError
            | some st' => condLoop D t fuel' e.b 1 st'))) := by
  obtain ⟨e', es', fuel', p', chunks, q1, q2, q3, q4, q5, q6, q7, q8⟩ := run_to_top D hD t h fuel st hf
  injection q1 with q1 q1'
  subst q1 q1'
  have hb := nextCond_bounds hD q3
  obtain ⟨hh, g1, g2, g3, g4⟩ := nextCond_hit q3
  refine ⟨by omega, hb.2.2.1, ?_⟩
  cases fuel' with
  | zero => omega
  | succ fuel' =>
    refine ⟨fuel', chunks ++ [slice t p' e.a], by omega, ?_, ?_⟩
    · rw [List.flatten_append, q7]
      simpa using slice_append t _ _ _ q2 hb.1
    · have hpush : (st.pushAll chunks).push (slice t p' e.a) = st.pushAll (chunks ++ [slice t p' e.a]) := by
        rw [pushAll_append]; rfl
      rcases q8 with ⟨k, rfl⟩ | ⟨k | k, ht⟩
      · refine .inl ⟨k, rfl, ?_⟩
        rw [q6, condLoop, if_pos ⟨hb.2.2.2, by omega⟩, g1, k]
        simp only [reduceCtorEq, ne_eq, not_false_eq_true, and_self, if_true, ← g2, ← g3, hpush, Nat.sub_self]
        cases fuel' <;> simp [condLoop]
      · refine .inr (.inl ⟨k, ht, ?_⟩)
        rw [q6, condLoop, if_pos ⟨hb.2.2.2, by omega⟩, g1, k]
        simp only [reduceCtorEq, ne_eq, not_false_eq_true, and_self, if_true, ← g2, ← g3, hpush]
      · refine .inr (.inr ⟨k, ht, ?_⟩)
        rw [q6, condLoop, if_pos ⟨hb.2.2.2, by omega⟩, g1, k]
        simp only [reduceCtorEq, ne_eq, not_false_eq_true, and_self, if_true, ← g2, ← g3, hpush, ← g4]
        rfl

end L2J
