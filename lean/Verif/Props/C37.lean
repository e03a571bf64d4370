import Verif.Props.C36
/-! C37: labels attach to the element they follow. -/
namespace L2J.Parse
open Spec

variable {α : Type}

/-- A token apart from its labels. -/
def _root_.L2J.Spec.eraseLabels : Tok α → Tok α
  | .text s st _ => .text s st []
  | .other ty c _ r => .other ty c [] r

theorem addLabel_spec (t : Tok α) (l : Str) : (t.addLabel l).labels = t.labels ++ [l] ∧
    Spec.eraseLabels (t.addLabel l) = Spec.eraseLabels t := by
  cases t <;> simp [Tok.addLabel, Tok.labels, Spec.eraseLabels]

/-- C37, current environment: the label is recorded there, after the labels it already has; the token list is untouched. -/
theorem C37_current_env (l : Str) (e : Tok α) (toks : List (Tok α)) :
    ∃ e', handleLabel l (some e) toks = some (some e', toks) ∧ e'.labels = e.labels ++ [l] ∧ Spec.eraseLabels e' = Spec.eraseLabels e :=
  ⟨e.addLabel l, rfl, addLabel_spec e l⟩

/-- C37, no current environment: the label is recorded on the previous token, nothing else changes. -/
theorem C37_previous_token (l : Str) (toks : List (Tok α)) (t : Tok α) :
    ∃ t', handleLabel l none (toks ++ [t]) = some (none, toks ++ [t']) ∧ t'.labels = t.labels ++ [l] ∧
      Spec.eraseLabels t' = Spec.eraseLabels t := by
  refine ⟨t.addLabel l, ?_, addLabel_spec t l⟩
  unfold handleLabel
  simp

/-- C37, nothing to attach to: a token of its own. -/
theorem C37_own_token (l : Str) : handleLabel (α := α) l none [] = some (none, [.other "label".toList (.str l) [] []]) := by
  unfold handleLabel
  simp only [List.getLast?_nil, addToken, addDict]
  rw [if_neg (by decide)]
  rfl

/-- Operations that bring no label on a text or on an empty container. -/
def _root_.L2J.Spec.LabelSafe : Op α → Prop
  | .add (.dict t) _ => (IsPlain t → labelsOf t = []) ∧ (EmptyContainer t → labelsOf t = [])
  | _ => True

theorem count_snoc (l : Str) (toks : List (Tok α)) (t : Tok α) :
    ((toks ++ [t]).flatMap labelsOf).count l = (toks.flatMap labelsOf).count l + (labelsOf t).count l := by
  simp [List.count_append]

theorem labelsOf_addLabel (t : Tok α) (l x : Str) : (labelsOf (t.addLabel x)).count l = (labelsOf t).count l + [x].count l := by
  cases t with
  | text s st ls => simp [Tok.addLabel, labelsOf, List.count_append]
  | other ty c ls r => simp only [Tok.addLabel, labelsOf, List.count_append]; omega

theorem addDict_labels (t : Tok α) (toks out : List (Tok α)) (space : Bool) (h1 : IsPlain t → labelsOf t = [])
    (h2 : EmptyContainer t → labelsOf t = []) (ho : addDict t toks space = some out) (l : Str) :
    (out.flatMap labelsOf).count l = (toks.flatMap labelsOf).count l + (labelsOf t).count l := by
  cases t with
  | text s st ls =>
    cases st with
    | none =>
      rcases addDict_plain s ls toks space with ⟨s0, ls0, k1, k2⟩ | ⟨_, k2⟩
      · rw [k2] at ho; injection ho with ho; subst ho
        rw [h1 trivial, count_snoc]
        conv => rhs; rw [getLast_split k1]
        rw [count_snoc]
        simp [labelsOf]
      · rw [k2] at ho; injection ho with ho; subst ho
        exact count_snoc l toks _
    | some st => simp only [addDict] at ho; injection ho with ho; subst ho; exact count_snoc l toks _
  | other ty c ls r =>
    simp only [addDict] at ho
    split at ho
    · rename_i he
      split at ho
      · cases ho
      · rename_i n hn
        split at ho
        · injection ho with ho; subst ho
          rw [h2 ⟨by simpa [emptyContainer, or_assoc] using he, by rw [hn]; congr 1; omega⟩]
          simp
        · injection ho with ho; subst ho; exact count_snoc l toks _
    · injection ho with ho; subst ho; exact count_snoc l toks _

theorem step_labels (op : Op α) (st st' : St α) (hop : Spec.LabelSafe op) (hs : step op st = some st') (l : Str) :
    (allLabels st').count l = (allLabels st).count l + (opLabels op).count l := by
  obtain ⟨cur, toks⟩ := st
  have lift : ∀ (c : Option (Tok α)) (out : List (Tok α)) (n : Nat), (out.flatMap labelsOf).count l = (toks.flatMap labelsOf).count l + n →
      (allLabels (c, out)).count l = (allLabels (c, toks)).count l + n := by
    intro c out n h
    simp only [allLabels, List.count_append, h]
    omega
  cases op with
  | add t sp =>
    simp only [step, Option.map_eq_some_iff] at hs
    obtain ⟨out, ho, rfl⟩ := hs
    apply lift
    cases t with
    | none => simp only [addToken] at ho; injection ho with ho; subst ho; simp [opLabels, inTokens]
    | str s =>
      simp only [addToken] at ho
      split at ho
      · injection ho with ho; subst ho; simp [opLabels, inTokens, labelsOf]
      · have := addDict_labels _ _ _ _ (by simp [labelsOf]) (by simp [labelsOf]) ho l
        simpa [opLabels, inTokens, labelsOf] using this
    | dict t =>
      have := addDict_labels t toks out sp hop.1 hop.2 ho l
      simpa [opLabels, inTokens] using this
    | list ls =>
      simp only [addToken] at ho; injection ho with ho; subst ho
      simp [opLabels, inTokens, List.count_append]
  | label x =>
    simp only [step, handleLabel] at hs
    cases cur with
    | some e =>
      simp only at hs; injection hs with hs; subst hs
      simp only [allLabels, List.count_append, labelsOf_addLabel, opLabels]
      omega
    | none =>
      simp only at hs
      cases hl : toks.getLast? with
      | none =>
        rw [hl] at hs
        simp only [Option.map_eq_some_iff] at hs
        obtain ⟨out, ho, rfl⟩ := hs
        apply lift
        simp only [addToken] at ho
        have := addDict_labels _ _ _ _ (by simp [IsPlain]) (by intro h; exact absurd h.1 (by decide)) ho l
        simpa [opLabels, labelsOf] using this
      | some last =>
        rw [hl] at hs
        simp only at hs
        injection hs with hs; subst hs
        apply lift
        rw [count_snoc, labelsOf_addLabel]
        conv => rhs; rw [getLast_split hl]
        rw [count_snoc]
        simp only [opLabels]
        omega

/-- C37: no label is lost or duplicated. After any history each label is recorded exactly as often as it was brought
in, provided no text token and no empty container that carries labels is added. -/
theorem C37_no_label_lost_partial (ops : List (Op α)) (hops : ∀ op ∈ ops, Spec.LabelSafe op) (st st' : St α)
    (h : run ops st = some st') (l : Str) :
    (allLabels st').count l = (allLabels st).count l + (ops.flatMap opLabels).count l := by
  induction ops generalizing st with
  | nil => simp only [run] at h; injection h with h; subst h; simp
  | cons op ops ih =>
    simp only [run, Option.bind_eq_some_iff] at h
    obtain ⟨s1, h1, h2⟩ := h
    rw [ih (fun o ho => hops o (by simp [ho])) s1 h2, step_labels op st s1 (hops op (by simp)) h1 l]
    simp [List.count_append]
    omega

/-- C37 violated: a label inside braces is lost when the braces start with text and follow text. `a{b\label{l}}` is
parsed by building the tokens of `b\label{l}` on their own and adding them one by one (tex_parser.py:507-519). -/
theorem C37_violated_group (a b l : Str) (ha : a ≠ []) (hb : b ≠ []) :
    ∃ inner, run (α := α) [.add (.str b) false, .label l] (none, []) = some (none, [inner]) ∧
      inner.labels = [l] ∧
      ∃ st, run [.add (.str a) false, .add (.dict inner) false] (none, []) = some st ∧ allLabels st = [] := by
  refine ⟨.text b none [l], ?_, rfl, (none, [.text (a ++ b) none []]), ?_, rfl⟩
  · cases b with
    | nil => exact absurd rfl hb
    | cons c b => rfl
  · cases a with
    | nil => exact absurd rfl ha
    | cons c a => rfl

/-- C37 violated: an environment that contains only a label is dropped together with the label. -/
theorem C37_violated_empty_environment (l : Str) (r : List (Str × Str)) (toks : List (Tok α)) :
    ∃ env, handleLabel l (some (.other "environment".toList (.toks []) [] r)) [] = some (some env, []) ∧ env.labels = [l] ∧
      run [.add (.dict env) false] (none, toks) = some (none, toks) := by
  refine ⟨.other "environment".toList (.toks []) [l] r, rfl, rfl, rfl⟩

/-! A history: text, label, environment with label, label. -/
example : run (α := Unit) [.add (.str "a".toList) false, .label "x".toList,
      .add (.dict (.other "figure".toList (.str "f".toList) ["y".toList] [])) false, .label "z".toList] (none, []) =
    some (none, [.text "a".toList none ["x".toList], .other "figure".toList (.str "f".toList) ["y".toList, "z".toList] []]) := by
  rfl
example : Spec.LabelSafe (.add (.dict (.other "figure".toList (.str "f".toList) ["y".toList] [])) false : Op Unit) := by
  constructor
  · intro h; exact absurd h (by simp [IsPlain])
  · intro h; exact absurd h.1 (by decide)

end L2J.Parse
