import Verif.Props.C62d
/-! C62, continued: what is put in is shorter than what is taken, so that cleaning a formula (C53) ends. -/
namespace L2J.Fmt
open Defn Cmds L2J.Spec

theorem charRuns_groups (p : Char → Bool) (g : List (Nat × Str)) : ∀ (rest rev : Str) (st : MSt), st ∈ charRuns p g rev rest → st.groups = g
  | [], rev, st, h => by simp [charRuns] at h; rw [h]
  | y :: rest, rev, st, h => by
    unfold charRuns at h
    split at h
    · rcases List.mem_append.1 h with h | h
      · exact charRuns_groups p g rest (y :: rev) st h
      · simp at h; rw [h]
    · simp at h; rw [h]

theorem lit_inv {t : Str} {st st' : MSt} (h : st' ∈ (Re.lit t).run st) : st.rest = t ++ st'.rest ∧ st'.groups = st.groups := by
  obtain ⟨rev, rest, g⟩ := st
  rw [Re.run_lit] at h
  split at h
  · rename_i hp
    rw [List.isPrefixOf_iff_prefix] at hp
    obtain ⟨u, rfl⟩ := hp
    simp at h
    subst h
    exact ⟨rfl, rfl⟩
  · simp at h

theorem delim_inv {a b : Char} {n : Nat} {p : Char → Bool} {st st' : MSt} (h : st' ∈ (Re.seq (.lit [a]) (.seq (.group n (.star (.chr p))) (.lit [b]))).run st) :
    ∃ y, st.rest = a :: (y ++ b :: st'.rest) ∧ st'.groups = (n, y) :: st.groups := by
  have h : st' ∈ ((Re.lit [a]).run st).flatMap fun s1 => ((Re.group n (.star (.chr p))).run s1).flatMap (Re.lit [b]).run := h
  simp only [List.mem_flatMap] at h
  obtain ⟨s1, h1, s2, h2, h3⟩ := h
  obtain ⟨e1, g1⟩ := lit_inv h1
  obtain ⟨e3, g3⟩ := lit_inv h3
  have h2 : s2 ∈ ((Re.star (.chr p)).run s1).map fun st' => { st' with groups := (n, s1.rest.take (s1.rest.length - st'.rest.length)) :: st'.groups } := h2
  simp only [List.mem_map] at h2
  obtain ⟨s3, h4, rfl⟩ := h2
  rw [run_star_chr] at h4
  obtain ⟨y, e4, _⟩ := mem_charRuns _ _ _ _ _ h4
  have g4 := charRuns_groups _ _ _ _ _ h4
  refine ⟨y, ?_, ?_⟩
  · rw [e1, e4]
    simp only at e3
    rw [e3]; simp
  · rw [g3]
    simp only [g4, g1, e4]
    simp

def numTail : Re := .seq (optGroupArg 1) (Fmt.ws (.seq (.lit ['{']) (.seq (.group 2 (.star (.chr (· != '}')))) (.lit ['}']))))

theorem num_match {s : Str} {m : Match} (h : (Alt.re ⟨"\\num".toList, numTail⟩).matchAt [] s = some m) :
    ∃ o x, x.length + (bracketed o).length + 6 ≤ m.stop ∧ m.group 2 = some x ∧ m.group 1 = o := by
  rw [Re.matchAt_eq] at h
  cases hr : (Alt.re ⟨"\\num".toList, numTail⟩).run ⟨[], s, []⟩ with
  | nil => rw [hr] at h; cases h
  | cons st l =>
    rw [hr] at h
    simp only [List.head?_cons, Option.map_some, Option.some.injEq] at h
    subst h
    have hst : st ∈ (Alt.re ⟨"\\num".toList, numTail⟩).run ⟨[], s, []⟩ := by rw [hr]; simp
    have hst : st ∈ ((Re.group 0 (.lit "\\num".toList)).run ⟨[], s, []⟩).flatMap numTail.run := hst
    simp only [List.mem_flatMap] at hst
    obtain ⟨s1, h1, h2⟩ := hst
    have h1 : s1 ∈ ((Re.lit "\\num".toList).run ⟨[], s, []⟩).map fun st' => { st' with groups := (0, s.take (s.length - st'.rest.length)) :: st'.groups } := h1
    simp only [List.mem_map] at h1
    obtain ⟨s0, h0, rfl⟩ := h1
    obtain ⟨e0, g0⟩ := lit_inv h0
    simp only at e0 g0
    have h2 : st ∈ ((optGroupArg 1).run { s0 with groups := (0, s.take (s.length - s0.rest.length)) :: s0.groups }).flatMap fun s2 => ((Re.star (.chr isSpace)).run s2).flatMap
      (Re.seq (.lit ['{']) (.seq (.group 2 (.star (.chr (· != '}')))) (.lit ['}']))).run := h2
    simp only [List.mem_flatMap] at h2
    obtain ⟨s2, h2, s3, h3, h4⟩ := h2
    rw [run_star_chr] at h3
    obtain ⟨y, e3, _⟩ := mem_charRuns _ _ _ _ _ h3
    have g3 := charRuns_groups _ _ _ _ _ h3
    obtain ⟨x, e4, g4⟩ := delim_inv h4
    have hopt : ∃ o, s0.rest = bracketed o ++ s2.rest ∧ s2.groups = optGroup 1 o ++ [(0, s.take (s.length - s0.rest.length))] := by
      rcases List.mem_append.1 h2 with h | h
      · obtain ⟨o, e, g⟩ := delim_inv h
        refine ⟨some o, by simpa [bracketed] using e, ?_⟩
        rw [g]; simp [optGroup, g0]
      · simp [Re.run] at h
        refine ⟨none, by rw [h]; rfl, by rw [h]; simp [optGroup, g0]⟩
    obtain ⟨o, eo, go⟩ := hopt
    refine ⟨o, x, ?_, ?_, ?_⟩
    · have hl : s.length = 4 + ((bracketed o).length + (y.length + (x.length + 2 + st.rest.length))) := by
        rw [e0, eo, e3, e4]
        simp only [List.length_append, List.length_cons, show "\\num".toList.length = 4 by decide]
        omega
      simp only [Match.stop, List.length_nil]
      omega
    · simp [Match.group, g4]
    · simp only [Match.group, g4, g3, go]
      cases o <;> simp [optGroup]

/-- The text that is put in for a result (equation.py:81-83). -/
def outText : Out → Str
  | .nothing => []
  | .text t => t
  | .equation c => c.getD []

/-- A formatted number is shorter than the command. -/
def _root_.L2J.Spec.Modest (fmt : Str → Option Str → Str) : Prop := ∀ x o, (fmt x o).length ≤ x.length + (bracketed o).length + 5

theorem table_texts : ∀ p ∈ flat entries, (match p.1 with | .text t => decide (t.length < p.2.re.minLen) | _ => true) = true := by decide +kernel

theorem table_number_pos : ∀ i ∈ List.range (flat entries).length, ((flat entries)[i]?.any fun p => p.1 == .number) = true → i = 150 := by decide +kernel

theorem table_number {a : Alt} (h : (Act.number, a) ∈ flat entries) : a = ⟨"\\num".toList, numTail⟩ := by
  obtain ⟨i, hi, he⟩ := List.mem_iff_getElem.1 h
  have h1 : (flat entries)[i]? = some (Act.number, a) := by rw [List.getElem?_eq_getElem hi, he]
  have := table_number_pos i (by simp [hi]) (by rw [h1]; rfl)
  subst this
  have h2 : (flat entries)[150]? = some (Act.number, ⟨"\\num".toList, numTail⟩) := rfl
  rw [h2] at h1; injection h1 with h1; injection h1 with _ h1; exact h1.symm

theorem table_phantom : ∀ p ∈ flat entries, p.1 = .phantom → 8 ≤ p.2.re.minLen := by decide +kernel

theorem handleWith_short {fmt : Str → Option Str → Str} (hf : Modest fmt) {l : List Entry} (hl : ∀ e ∈ l, e ∈ entries) {s : Str} {r : Result} (h : handleWith fmt l s = .ok r) (h0 : 0 < r.stop) :
    (outText r.out).length < r.stop := by
  rw [handleWith_flat] at h
  cases hfa : firstAlt s (flat l) with
  | none => rw [hfa] at h; injection h with h; subst h; simp at h0
  | some p =>
    obtain ⟨x, m⟩ := p
    rw [hfa] at h
    obtain ⟨a, ha, hm⟩ := firstAlt_mem hfa
    have hmem : (x, a) ∈ flat entries := by
      unfold flat at ha ⊢
      simp only [List.mem_flatMap] at ha ⊢
      obtain ⟨e, h1, h2⟩ := ha
      exact ⟨e, hl e h1, h2⟩
    have hb := match_bounds hm
    have ht := table_minLen _ hmem
    have none_ : r.out = .nothing → (outText r.out).length < r.stop := by intro h; rw [h]; exact h0
    simp only at h
    cases x with
    | drop => apply none_; injection h with h; rw [← h]
    | text t =>
      have := table_texts _ hmem
      simp only [decide_eq_true_eq] at this
      injection h with h; subst h
      show t.length < m.stop
      omega
    | number =>
      have ha := table_number hmem
      subst ha
      obtain ⟨o, x, h1, h2, h3⟩ := num_match hm
      unfold Act.run at h
      rw [h2, h3] at h
      injection h with h; subst h
      have := hf x o
      show (fmt x o).length < m.stop
      omega
    | strips => apply none_; injection h with h; rw [← h]
    | lineskip => apply none_; injection h with h; rw [← h]
    | spacing =>
      have h2 : 2 ≤ a.re.minLen := ht.2 (by simp)
      injection h with h; subst h
      have h4 : 2 ≤ m.stop := Nat.le_trans h2 hb.1
      simp only
      split
      · simp [outText]; omega
      · simp [outText]; omega
    | nested => apply none_; injection h with h; rw [← h]
    | blocks n => apply none_; injection h with h; rw [← h]
    | titlecontents => apply none_; injection h with h; rw [← h]
    | declare => apply none_; injection h with h; rw [← h]
    | classSetup => unfold Act.run at h; simp only at h; split at h <;> (apply none_; injection h with h; rw [← h])
    | ensuremath =>
      unfold Act.run blockEnd at h
      simp only at h
      cases hx : extractNestedContent (s.drop (m.stop - 1)) '{' '}' with
      | none => rw [hx] at h; injection h with h; subst h; exact h0
      | some q =>
        obtain ⟨v, e⟩ := q
        rw [hx] at h
        injection h with h; subst h
        obtain ⟨_, h2, _, ws, _, h4⟩ := C01_content_balanced _ '{' '}' (by decide) v e hx
        have := congrArg List.length h4
        rw [List.length_take] at this
        simp only [List.length_append, List.length_cons, List.length_nil] at this
        simp only [Option.map_some, outText, Option.getD_some]
        omega
    | phantom =>
      have h3 := ht.2 (by simp)
      unfold Act.run at h
      simp only at h
      cases hx : extractNestedContent (s.drop (m.stop - 1)) '{' '}' with
      | none =>
        rw [hx] at h
        simp only at h
        split at h
        · cases h
        · injection h with h; subst h; simp only [outText, List.length_cons, List.length_nil]
          have : (Alt.re a).minLen ≥ 8 := by
            have := table_phantom _ hmem rfl
            exact this
          omega
      | some q =>
        obtain ⟨v, e⟩ := q
        rw [hx] at h
        injection h with h; subst h
        obtain ⟨_, h2, _, ws, _, h4⟩ := C01_content_balanced _ '{' '}' (by decide) v e hx
        have := congrArg List.length h4
        rw [List.length_take] at this
        simp only [List.length_append, List.length_cons, List.length_nil] at this
        simp only [outText]
        split
        · rw [List.length_replicate]; omega
        · simp; omega

/-- The formatting handler as formulas are cleaned with it (equation.py:77-83); where it raises, nothing is taken. -/
def mathFormatter (fmt : Str → Option Str → Str) (s : Str) : Str × Nat :=
  match handleMath fmt s with
  | .ok r => (outText r.out, r.stop)
  | .error _ => ([], 0)

/-- C62: on formulas, what is put in is shorter than what is taken. -/
theorem C62_shortens (fmt : Str → Option Str → Str) (hf : Modest fmt) : Shortens (mathFormatter fmt) := by
  intro s
  unfold mathFormatter
  cases h : handleMath fmt s with
  | error e => simp
  | ok r =>
    simp only
    intro h0
    have hl : ∀ e ∈ entries.filter (fun e => e.name != "spacing"), e ∈ entries := fun e he => (List.mem_filter.1 he).1
    have h1 := handleWith_short hf hl h h0
    have h2 := (handleWith_bounds hl h).1
    rw [List.length_append, List.length_drop]
    omega

/-- C62: so cleaning a formula ends with this handler, if no saved box is put in on the way. -/
theorem C62_formula_ends {V} (fmt : Str → Option Str → Str) (hf : Modest fmt) (env : Boxes.Env V)
    (ho : Shortens fun s => (match (env.other s).1 with | some (.text v) => v | _ => [], (env.other s).2)) (st : Boxes.State V) (s : Str) :
    (∃ N st' out, ∀ fuel, N ≤ fuel → Eqn.stripLoop (mathFormatter fmt) env fuel st [] s = some (st', out)) ∨ Inserts (mathFormatter fmt) env st s :=
  Eqn.C53_ends_partial (mathFormatter fmt) env (C62_shortens fmt hf) ho st s

example : Modest fun x _ => x := by intro x o; show x.length ≤ _; omega
example : mathFormatter (fun x _ => x) "\\ensuremath{a}b".toList = (['a'], 14) := by decide +kernel

end L2J.Fmt
