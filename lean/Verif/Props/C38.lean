import Verif.Spec.Etoolbox
import Verif.Lemmas.Wrapped
/-! C38: flags. -/
namespace L2J.Etool
open Spec

theorem takeWhile_name (n r : Str) (h : '}' ∉ n) : (n ++ '}' :: r).takeWhile (· ≠ '}') = n := by
  induction n with
  | nil => simp
  | cons c n ih =>
    have hc : c ≠ '}' := fun e => h (by simp [e])
    have := ih (fun h' => h (by simp [h']))
    simp [hc] at this ⊢
    exact this

/-- The written form is recognised. -/
theorem matchKw_hit (kw n r : Str) (h : '}' ∉ n) :
    matchKw kw (kw ++ '{' :: (n ++ '}' :: r)) = some (n, kw.length + n.length + 2) := by
  unfold matchKw startsWith
  rw [if_pos (by simp)]
  simp only [List.drop_left]
  have h1 : ('{' :: (n ++ '}' :: r)).takeWhile isSpace = [] := by
    rw [List.takeWhile_cons, if_neg (by decide)]
  have h2 : ('{' :: (n ++ '}' :: r)).dropWhile isSpace = '{' :: (n ++ '}' :: r) := by
    rw [List.dropWhile_cons, if_neg (by decide)]
  rw [h1, h2]
  simp only [takeWhile_name n r h, List.drop_left]
  simp
  omega

theorem matchKw_miss (kw s : Str) (h : ¬ kw <+: s) : matchKw kw s = none := by
  unfold matchKw startsWith
  rw [if_neg (by simpa using h)]

/-- `k` is no prefix of a text that starts with `p` if they differ somewhere. -/
def differ : Str → Str → Bool
  | a :: k, b :: p => a != b || differ k p
  | _, _ => false

theorem differ_spec : ∀ (k p r : Str), differ k p = true → ¬ k <+: p ++ r := by
  intro k
  induction k with
  | nil => intro p r h; simp [differ] at h
  | cons a k ih =>
    intro p r h
    cases p with
    | nil => simp [differ] at h
    | cons b p =>
      simp only [differ, Bool.or_eq_true, bne_iff_ne, ne_eq] at h
      rw [List.cons_append, List.cons_prefix_cons]
      rintro ⟨h1, h2⟩
      rcases h with h | h
      · exact h h1
      · exact ih p r h h2

theorem miss (kw p r : Str) (h : differ kw p = true) : matchKw kw (p ++ r) = none :=
  matchKw_miss _ _ (differ_spec _ _ _ h)

/-- What a command does to the flags. -/
def effect (flags : Dict Bool) : BoolCmd → Dict Bool
  | .new n => Dict.set flags n false
  | .provide n => if Dict.has flags n then flags else Dict.set flags n false
  | c => if Dict.has flags c.flag then Dict.set flags c.flag (c.assigns.getD false) else flags

theorem handle_new (flags : Dict Bool) (n r : Str) (h : '}' ∉ n) :
    handle flags ("\\newbool".toList ++ '{' :: (n ++ '}' :: r)) =
      ⟨Dict.set flags n false, some (.definition n "newbool".toList), n.length + 10⟩ := by
  unfold handle
  rw [miss _ "\\newbool".toList _ (by decide), miss _ "\\newbool".toList _ (by decide)]
  simp only [matchKw_hit _ _ _ h]
  simp
  omega

theorem handle_provide (flags : Dict Bool) (n r : Str) (h : '}' ∉ n) :
    handle flags ("\\providebool".toList ++ '{' :: (n ++ '}' :: r)) =
      ⟨if Dict.has flags n then flags else Dict.set flags n false, some (.definition n "providebool".toList), n.length + 14⟩ := by
  unfold handle
  rw [miss _ "\\providebool".toList _ (by decide), miss _ "\\providebool".toList _ (by decide),
    miss _ "\\providebool".toList _ (by decide)]
  simp only [matchKw_hit _ _ _ h]
  simp
  omega

theorem handle_true (flags : Dict Bool) (n r : Str) (h : '}' ∉ n) :
    handle flags ("\\booltrue".toList ++ '{' :: (n ++ '}' :: r)) = handleValue flags (n, n.length + 11) true := by
  unfold handle
  rw [miss _ "\\booltrue".toList _ (by decide), miss _ "\\booltrue".toList _ (by decide),
    miss _ "\\booltrue".toList _ (by decide), miss _ "\\booltrue".toList _ (by decide), miss _ "\\booltrue".toList _ (by decide)]
  simp only [matchKw_hit _ _ _ h]
  rw [show "\\booltrue".toList.length + n.length + 2 = n.length + 11 by simp; omega]

theorem handle_false (flags : Dict Bool) (n r : Str) (h : '}' ∉ n) :
    handle flags ("\\boolfalse".toList ++ '{' :: (n ++ '}' :: r)) = handleValue flags (n, n.length + 12) false := by
  unfold handle
  rw [miss _ "\\boolfalse".toList _ (by decide), miss _ "\\boolfalse".toList _ (by decide),
    miss _ "\\boolfalse".toList _ (by decide), miss _ "\\boolfalse".toList _ (by decide), miss _ "\\boolfalse".toList _ (by decide),
    miss _ "\\boolfalse".toList _ (by decide)]
  simp only [matchKw_hit _ _ _ h]
  rw [show "\\boolfalse".toList.length + n.length + 2 = n.length + 12 by simp; omega]

theorem wrappable_plain (a : Str) (h : ∀ c ∈ a, c ≠ '{' ∧ c ≠ '}' ∧ c ≠ '\\') : Wrappable '{' '}' a := by
  have hlev : ∀ j, level a '{' '}' j = 0 := by
    intro j
    induction j with
    | zero => rfl
    | succ j ih =>
      simp only [level, ih]
      have h1 : liveAt a '{' j = false := by
        unfold liveAt
        cases hj : a[j]? with
        | none => rfl
        | some c => have := (h c (List.mem_of_getElem? hj)).1; simp [this]
      have h2 : liveAt a '}' j = false := by
        unfold liveAt
        cases hj : a[j]? with
        | none => rfl
        | some c => have := (h c (List.mem_of_getElem? hj)).2.1; simp [this]
      simp [h1, h2]
  refine ⟨⟨fun j _ => by rw [hlev]; exact Int.le_refl 0, hlev _⟩, ?_⟩
  cases hn : a.length with
  | zero => rfl
  | succ k =>
    unfold escapedAt
    cases hj : a[k]? with
    | none => rfl
    | some c => have := (h c (List.mem_of_getElem? hj)).2.2; simp [this]

theorem handle_set (flags : Dict Bool) (n v r : Str) (h : '}' ∉ n) (hv : Wrappable '{' '}' v) :
    (handle flags ("\\setbool".toList ++ '{' :: (n ++ '}' :: ('{' :: (v ++ '}' :: r))))) =
      ⟨if Dict.has flags n then Dict.set flags n (lower v == "true".toList) else flags,
       some (.setting n (lower v == "true".toList)), n.length + v.length + 12⟩ := by
  unfold handle
  rw [miss _ "\\setbool".toList _ (by decide), miss _ "\\setbool".toList _ (by decide),
    miss _ "\\setbool".toList _ (by decide), miss _ "\\setbool".toList _ (by decide)]
  simp only [matchKw_hit _ _ _ h]
  have hd : ("\\setbool".toList ++ '{' :: (n ++ '}' :: ('{' :: (v ++ '}' :: r)))).drop ("\\setbool".toList.length + n.length + 2) =
      '{' :: (v ++ '}' :: r) := by
    rw [show "\\setbool".toList ++ '{' :: (n ++ '}' :: ('{' :: (v ++ '}' :: r))) =
      ("\\setbool".toList ++ '{' :: (n ++ ['}'])) ++ ('{' :: (v ++ '}' :: r)) by simp]
    rw [show "\\setbool".toList.length + n.length + 2 = ("\\setbool".toList ++ '{' :: (n ++ ['}'])).length by simp; omega]
    exact List.drop_left
  have hs := seqBlocks_wrap '{' '}' (by decide) (by decide) (by decide) [([], v)] r (by
    intro e he; simp at he; subst he; exact ⟨by simp, hv⟩)
  simp only [wrapAll, List.nil_append, List.length_cons, List.length_nil, Nat.zero_add, List.map_cons, List.map_nil,
    List.append_assoc, List.cons_append] at hs
  unfold handleSet
  simp only [hd, hs]
  congr 1
  simp
  omega

theorem render_braced (k n r : Str) : (k ++ braced n) ++ r = k ++ '{' :: (n ++ '}' :: r) := by simp [braced]

/-- A command, whatever follows it, has its effect. -/
theorem handle_cmd (flags : Dict Bool) (c : BoolCmd) (r : Str) (h : '}' ∉ c.flag) :
    (handle flags (c.render ++ r)).flags = effect flags c := by
  cases c with
  | new n =>
    have e : (BoolCmd.new n).render ++ r = "\\newbool".toList ++ '{' :: (n ++ '}' :: r) := render_braced _ n r
    rw [e, handle_new flags n r h]
    rfl
  | provide n =>
    have e : (BoolCmd.provide n).render ++ r = "\\providebool".toList ++ '{' :: (n ++ '}' :: r) := render_braced _ n r
    rw [e, handle_provide flags n r h]
    rfl
  | setTrue n =>
    have e : (BoolCmd.setTrue n).render ++ r = "\\booltrue".toList ++ '{' :: (n ++ '}' :: r) := render_braced _ n r
    rw [e, handle_true flags n r h]
    rfl
  | setFalse n =>
    have e : (BoolCmd.setFalse n).render ++ r = "\\boolfalse".toList ++ '{' :: (n ++ '}' :: r) := render_braced _ n r
    rw [e, handle_false flags n r h]
    rfl
  | set n v =>
    have hw : Wrappable '{' '}' (if v then "true".toList else "false".toList) := by
      apply wrappable_plain
      cases v <;> decide
    have e : (BoolCmd.set n v).render ++ r =
        "\\setbool".toList ++ '{' :: (n ++ '}' :: ('{' :: ((if v then "true".toList else "false".toList) ++ '}' :: r))) := by
      show ("\\setbool".toList ++ (braced n ++ braced _)) ++ r = _
      rw [← List.append_assoc "\\setbool".toList, List.append_assoc _ _ r, render_braced]
      simp only [braced, List.append_assoc, List.cons_append, List.nil_append]
    have hl : (lower (if v then "true".toList else "false".toList) == "true".toList) = v := by cases v <;> decide
    rw [e, handle_set flags n _ r h hw, hl]
    rfl

theorem effect_other (flags : Dict Bool) (c : BoolCmd) (n : Str) (h : c.flag ≠ n) :
    Dict.get? (effect flags c) n = Dict.get? flags n := by
  have key : ∀ v, Dict.get? (Dict.set flags c.flag v) n = Dict.get? flags n := by
    intro v; rw [Dict.get?_set, if_neg h]
  cases c <;> simp only [effect] <;> (try split) <;> first | rfl | exact key _

theorem effect_has (flags : Dict Bool) (c : BoolCmd) (n : Str) :
    Dict.has (effect flags c) n = (Dict.has flags n || (c.declares && decide (c.flag = n))) := by
  have key : ∀ (m : Str) (v : Bool), Dict.has (Dict.set flags m v) n = (decide (m = n) || Dict.has flags n) := by
    intro m v
    unfold Dict.has
    rw [Dict.get?_set]
    by_cases h : m = n <;> simp [h]
  have cond : ∀ (m : Str) (v : Bool), Dict.has (if Dict.has flags m then Dict.set flags m v else flags) n = Dict.has flags n := by
    intro m v
    split
    · rename_i hm
      rw [key]
      by_cases h : m = n
      · subst h; simp [hm]
      · simp [h]
    · rfl
  cases c with
  | new m => simp only [effect, key, BoolCmd.declares, BoolCmd.flag, Bool.true_and]; by_cases h : m = n <;> simp [h]
  | provide m =>
    simp only [effect, BoolCmd.declares, BoolCmd.flag, Bool.true_and]
    split
    · rename_i hm
      by_cases h : m = n
      · subst h; simp [hm]
      · simp [h]
    · rw [key]; by_cases h : m = n <;> simp [h]
  | set m v => simp only [effect, BoolCmd.declares, Bool.false_and, Bool.or_false, cond]
  | setTrue m => simp only [effect, BoolCmd.declares, Bool.false_and, Bool.or_false, cond]
  | setFalse m => simp only [effect, BoolCmd.declares, Bool.false_and, Bool.or_false, cond]

/-- The texts of some commands, each followed by anything. -/
def written (h : List (BoolCmd × Str)) : List Str := h.map fun e => e.1.render ++ e.2

/-- All names can be written. -/
def NamesOk (h : List (BoolCmd × Str)) : Prop := ∀ e ∈ h, '}' ∉ e.1.flag

theorem flagsAfter_eq (h : List (BoolCmd × Str)) (hok : NamesOk h) (flags : Dict Bool) :
    flagsAfter flags (written h) = (h.map (·.1)).foldl effect flags := by
  induction h generalizing flags with
  | nil => rfl
  | cons e h ih =>
    obtain ⟨c, r⟩ := e
    simp only [written, flagsAfter, List.map_cons, List.foldl_cons]
    rw [handle_cmd flags c r (hok (c, r) (by simp))]
    exact ih (fun e he => hok e (by simp [he])) _

theorem fold_has (cs : List BoolCmd) (flags : Dict Bool) (n : Str) :
    Dict.has (cs.foldl effect flags) n = (Dict.has flags n || cs.any fun c => c.declares && decide (c.flag = n)) := by
  induction cs generalizing flags with
  | nil => simp
  | cons c cs ih => simp [ih, effect_has, Bool.or_assoc]

theorem fold_leaves (cs : List BoolCmd) (flags : Dict Bool) (n : Str) (v : Bool) (hl : ∀ c ∈ cs, c.Leaves n)
    (h : Dict.get? flags n = some v) : Dict.get? (cs.foldl effect flags) n = some v := by
  induction cs generalizing flags with
  | nil => exact h
  | cons c cs ih =>
    rw [List.foldl_cons]
    apply ih _ (fun c hc => hl c (by simp [hc]))
    by_cases hf : c.flag = n
    · obtain ⟨m, rfl⟩ := hl c (by simp) hf
      simp only [BoolCmd.flag] at hf
      subst hf
      have : Dict.has flags m = true := by unfold Dict.has; rw [h]; rfl
      simp only [effect, this, if_true, h]
    · rw [effect_other _ _ _ hf, h]

/-- C38: a flag is known exactly if it has been declared. -/
theorem C38_declared (h : List (BoolCmd × Str)) (hok : NamesOk h) (n : Str) :
    (Dict.get? (flagsAfter [] (written h)) n).isSome = true ↔ ∃ e ∈ h, e.1.declares = true ∧ e.1.flag = n := by
  rw [flagsAfter_eq h hok]
  have := fold_has (h.map (·.1)) [] n
  unfold Dict.has at this
  rw [this]
  simp [Dict.get?]

/-- C38: after the last `\newbool` or assignment of a declared flag it has the value given there (false for `\newbool`),
whatever happened before and whatever else happens later. -/
theorem C38_last_assignment (h1 h2 : List (BoolCmd × Str)) (c : BoolCmd) (r : Str) (hok : NamesOk (h1 ++ (c, r) :: h2))
    (hl : ∀ e ∈ h2, e.1.Leaves c.flag) :
    (∀ v, c.assigns = some v → (∃ e ∈ h1, e.1.declares = true ∧ e.1.flag = c.flag) →
      Dict.get? (flagsAfter [] (written (h1 ++ (c, r) :: h2))) c.flag = some v) ∧
    (∀ n, c = .new n → Dict.get? (flagsAfter [] (written (h1 ++ (c, r) :: h2))) n = some false) := by
  rw [flagsAfter_eq _ hok]
  simp only [List.map_append, List.map_cons, List.foldl_append, List.foldl_cons]
  constructor
  · intro v hv hd
    apply fold_leaves _ _ _ _ (by intro c' hc'; obtain ⟨e, he, rfl⟩ := List.mem_map.1 hc'; exact hl e he)
    have hh : Dict.has ((h1.map (·.1)).foldl effect []) c.flag = true := by
      rw [fold_has]
      simp only [Bool.or_eq_true]
      right
      obtain ⟨e, he, h3, h4⟩ := hd
      simp only [List.any_map, List.any_eq_true]
      exact ⟨e, he, by simp [h3, h4]⟩
    cases c with
    | new n => simp [BoolCmd.assigns] at hv
    | provide n => simp [BoolCmd.assigns] at hv
    | set n w => simp only [effect, hh, if_true, Dict.get?_set, hv, Option.getD_some]
    | setTrue n => simp only [effect, hh, if_true, Dict.get?_set, hv, Option.getD_some]
    | setFalse n => simp only [effect, hh, if_true, Dict.get?_set, hv, Option.getD_some]
  · rintro n rfl
    apply fold_leaves _ _ _ _ (by intro c' hc'; obtain ⟨e, he, rfl⟩ := List.mem_map.1 hc'; exact hl e he)
    simp [effect, Dict.get?_set]

/-- C38: a flag that has only been declared is false. -/
theorem C38_only_declared (h : List (BoolCmd × Str)) (hok : NamesOk h) (n : Str)
    (hd : ∃ e ∈ h, e.1.declares = true ∧ e.1.flag = n) (hno : ∀ e ∈ h, e.1.flag = n → e.1.declares = true) :
    Dict.get? (flagsAfter [] (written h)) n = some false := by
  have hsome := (C38_declared h hok n).2 hd
  rw [flagsAfter_eq h hok] at hsome ⊢
  have key : ∀ (cs : List BoolCmd) (flags : Dict Bool), (∀ c ∈ cs, c.flag = n → c.declares = true) →
      (Dict.get? flags n ≠ some true) → Dict.get? (cs.foldl effect flags) n ≠ some true := by
    intro cs
    induction cs with
    | nil => intro flags _ h; exact h
    | cons c cs ih =>
      intro flags hc hf
      rw [List.foldl_cons]
      apply ih _ (fun c' h' => hc c' (by simp [h']))
      by_cases hcn : c.flag = n
      · have hdec := hc c (by simp) hcn
        cases c with
        | new m => simp only [BoolCmd.flag] at hcn; subst hcn; simp [effect, Dict.get?_set]
        | provide m =>
          simp only [BoolCmd.flag] at hcn; subst hcn
          simp only [effect]
          split
          · exact hf
          · simp [Dict.get?_set]
        | set m v => simp [BoolCmd.declares] at hdec
        | setTrue m => simp [BoolCmd.declares] at hdec
        | setFalse m => simp [BoolCmd.declares] at hdec
      · rw [effect_other _ _ _ hcn]; exact hf
  have := key (h.map (·.1)) [] (by intro c hc; obtain ⟨e, he, rfl⟩ := List.mem_map.1 hc; exact hno e he) (by simp [Dict.get?])
  cases hg : Dict.get? ((h.map (·.1)).foldl effect []) n with
  | none => rw [hg] at hsome; simp at hsome
  | some v => cases v with
    | false => rfl
    | true => exact absurd hg this

/-- The code to run for a value of the flag. -/
def _root_.L2J.Spec.pick : Token → Bool → Option Str
  | .conditional _ a b _, v => some (if v then a else b)
  | _, _ => none

/-- C38: the conditional offers for each value of the flag the branch LaTeX would take. -/
theorem C38_branches (flags : Dict Bool) (isNot : Bool) (n a b r : Str) (hn : '}' ∉ n) (ha : Wrappable '{' '}' a)
    (hb : Wrappable '{' '}' b) :
    ∃ t p, handle flags ((if isNot then "\\notbool".toList else "\\ifbool".toList) ++ (braced n ++ (braced a ++ (braced b ++ r)))) =
        ⟨flags, some t, p⟩ ∧ (∀ v, pick t v = some (if v = isNot then b else a)) ∧
      ((if isNot then "\\notbool".toList else "\\ifbool".toList) ++ (braced n ++ (braced a ++ (braced b ++ r)))).drop p = r := by
  have hs := seqBlocks_wrap '{' '}' (by decide) (by decide) (by decide) [([], a), ([], b)] r (by
    intro e he; simp at he; rcases he with rfl | rfl
    · exact ⟨by simp, ha⟩
    · exact ⟨by simp, hb⟩)
  simp only [wrapAll, List.nil_append, List.length_cons, List.length_nil, Nat.zero_add, List.map_cons, List.map_nil,
    List.append_assoc, List.cons_append] at hs
  have main : ∀ kw : Str, ∀ isNot : Bool,
      handleIf flags (kw ++ '{' :: (n ++ '}' :: '{' :: (a ++ '}' :: '{' :: (b ++ '}' :: r)))) isNot (n, kw.length + n.length + 2) =
        ⟨flags, some (.conditional n (if isNot then b else a) (if isNot then a else b) isNot),
          kw.length + n.length + 2 + (a.length + b.length + 4)⟩ ∧
      (kw ++ '{' :: (n ++ '}' :: '{' :: (a ++ '}' :: '{' :: (b ++ '}' :: r)))).drop (kw.length + n.length + 2 + (a.length + b.length + 4)) = r := by
    intro kw isNot
    have hd : (kw ++ '{' :: (n ++ '}' :: '{' :: (a ++ '}' :: '{' :: (b ++ '}' :: r)))).drop (kw.length + n.length + 2) =
        '{' :: (a ++ '}' :: '{' :: (b ++ '}' :: r)) := by
      rw [show kw ++ '{' :: (n ++ '}' :: '{' :: (a ++ '}' :: '{' :: (b ++ '}' :: r))) =
        (kw ++ '{' :: (n ++ ['}'])) ++ ('{' :: (a ++ '}' :: '{' :: (b ++ '}' :: r))) by simp]
      rw [show kw.length + n.length + 2 = (kw ++ '{' :: (n ++ ['}'])).length by simp; omega]
      exact List.drop_left
    constructor
    · unfold handleIf
      simp only [hd, hs]
      congr 1
      simp
      omega
    · rw [← List.drop_drop, hd]
      rw [show '{' :: (a ++ '}' :: '{' :: (b ++ '}' :: r)) = ('{' :: (a ++ '}' :: '{' :: (b ++ ['}']))) ++ r by simp]
      rw [show a.length + b.length + 4 = ('{' :: (a ++ '}' :: '{' :: (b ++ ['}']))).length by simp; omega]
      exact List.drop_left
  have htail : braced n ++ (braced a ++ (braced b ++ r)) =
      '{' :: (n ++ '}' :: '{' :: (a ++ '}' :: '{' :: (b ++ '}' :: r))) := by simp [braced]
  rw [htail]
  cases isNot with
  | false =>
    obtain ⟨h1, h2⟩ := main "\\ifbool".toList false
    refine ⟨.conditional n a b false, "\\ifbool".toList.length + n.length + 2 + (a.length + b.length + 4), ?_, ?_, h2⟩
    · simp only [Bool.false_eq_true, if_false]
      unfold handle
      rw [matchKw_hit _ _ _ hn]
      exact h1
    · intro v; cases v <;> rfl
  | true =>
    obtain ⟨h1, h2⟩ := main "\\notbool".toList true
    refine ⟨.conditional n b a true, "\\notbool".toList.length + n.length + 2 + (a.length + b.length + 4), ?_, ?_, h2⟩
    · simp only [if_true]
      unfold handle
      rw [miss _ "\\notbool".toList _ (by decide), matchKw_hit _ _ _ hn]
      exact h1
    · intro v; cases v <;> rfl

/-- C38 violated: no branch is selected. What a conditional is turned into does not depend on the flags, so the same
token (with both branches, of a type that is not part of the output) results whether the flag is true or false. -/
theorem C38_violated_no_selection (flags flags' : Dict Bool) (isNot : Bool) (n a b r : Str) (hn : '}' ∉ n) :
    (handle flags ((if isNot then "\\notbool".toList else "\\ifbool".toList) ++ (braced n ++ (braced a ++ (braced b ++ r))))).token =
    (handle flags' ((if isNot then "\\notbool".toList else "\\ifbool".toList) ++ (braced n ++ (braced a ++ (braced b ++ r))))).token := by
  have key : ∀ (s : Str) (m : Str × Nat) (i : Bool), (handleIf flags s i m).token = (handleIf flags' s i m).token := by
    intro s m i
    unfold handleIf
    simp only
    split <;> rfl
  have htail : braced n ++ (braced a ++ (braced b ++ r)) =
      '{' :: (n ++ '}' :: '{' :: (a ++ '}' :: '{' :: (b ++ '}' :: r))) := by simp [braced]
  rw [htail]
  cases isNot with
  | false =>
    simp only [Bool.false_eq_true, if_false]
    unfold handle
    rw [matchKw_hit _ _ _ hn]
    exact key _ _ _
  | true =>
    simp only [if_true]
    unfold handle
    rw [miss _ "\\notbool".toList _ (by decide), matchKw_hit _ _ _ hn]
    exact key _ _ _

/-! A history. -/
example : flagsAfter [] ["\\newbool{draft} x".toList, "\\setbool{draft}{true}".toList, "\\providebool{draft}".toList, "\\booltrue{other}".toList] =
    [("draft".toList, true)] := by decide
example : NamesOk [(.new "draft".toList, []), (.set "draft".toList true, " x".toList)] := by
  intro e he; simp at he; rcases he with rfl | rfl <;> decide

end L2J.Etool
