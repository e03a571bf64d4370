import Verif.Model.Equation
import Verif.Props.C03
import Verif.Props.C04
import Verif.Props.C44
import Verif.Props.C49
import Verif.Props.C54
/-! C52: a formula becomes an equation token with its text, its labels and its numbering. -/
namespace L2J.Eqn
open L2J Spec

/-- A formula as written: in `$`, `$$`, `\[ \]`, `\( \)` or in an environment (blanks behind `\begin` and `\end`, stars). -/
inductive _root_.L2J.Spec.Formula
  | inline (b : Str)
  | display (b : Str)
  | brackets (b : Str)
  | parens (b : Str)
  | env (name : Str) (w1 : Str) (star1 : Bool) (b : Str) (w2 : Str) (star2 : Bool)

/-- `\begin{name}` or `\end{name}`, possibly with blanks and a star. -/
def _root_.L2J.Spec.tag (kw w name : Str) (star : Bool) : Str := kw ++ (w ++ '{' :: (name ++ ((if star then ['*'] else []) ++ ['}'])))

/-- The text between the delimiters. -/
def _root_.L2J.Spec.Formula.body : Formula → Str
  | .inline b | .display b | .brackets b | .parens b | .env _ _ _ b _ _ => b

/-- The formula with its delimiters. -/
def _root_.L2J.Spec.Formula.render : Formula → Str
  | .inline b => "$".toList ++ b ++ "$".toList
  | .display b => "$$".toList ++ b ++ "$$".toList
  | .brackets b => "\\[".toList ++ b ++ "\\]".toList
  | .parens b => "\\(".toList ++ b ++ "\\)".toList
  | .env n w1 s1 b w2 s2 => tag "\\begin".toList w1 n s1 ++ b ++ tag "\\end".toList w2 n s2

/-- The environments for formulas. -/
def _root_.L2J.Spec.formulaEnvs : List String := ["equation", "align", "aligned", "gather", "multline", "eqnarray", "flalign", "alignat", "dmath"]

/-- The closing delimiter occurs only at the end; for `\( \)` the formula is on one line. -/
def _root_.L2J.Spec.Formula.Ok : Formula → Prop
  | .inline b => '$' ∉ b
  | .display b => ¬ Contains b "$$".toList ∧ b.getLast? ≠ some '$'
  | .brackets b => ¬ Contains b "\\]".toList
  | .parens b => ¬ Contains b "\\)".toList ∧ '\n' ∉ b
  | .env n w1 _ b w2 _ => (∃ x ∈ formulaEnvs, n = x.toList) ∧ (∀ c ∈ w1, isSpace c = true) ∧ (∀ c ∈ w2, isSpace c = true) ∧
      ∀ w s, (∀ c ∈ w, isSpace c = true) → ¬ Contains b (tag "\\end".toList w n s)

/-- Set apart from the text. -/
def _root_.L2J.Spec.Formula.isDisplay : Formula → Bool
  | .inline _ | .parens _ => false
  | _ => true

/-- Numbered: an environment without a star. -/
def _root_.L2J.Spec.Formula.isNumbered : Formula → Bool
  | .env _ _ _ _ _ star => !star
  | _ => false

/-- Aligned at `&`. -/
def _root_.L2J.Spec.Formula.isAligned : Formula → Bool
  | .env n _ _ _ _ _ => ["align", "aligned", "eqnarray", "flalign", "alignat"].any (·.toList == n)
  | _ => false

/-- The handler's name for it. -/
def kindOf : Formula → Kind
  | .inline _ => .dollar
  | .display _ => .dollars
  | .brackets _ => .brackets
  | .parens _ => .parens
  | .env n _ _ _ _ _ => .env n

/-! Tags. -/

theorem spaces_brace (w r : Str) (hw : ∀ c ∈ w, isSpace c = true) : spacesBrace (w ++ '{' :: r) = some (w.length + 1) := by
  unfold spacesBrace
  have h : (w ++ '{' :: r).takeWhile isSpace = w := by
    rw [List.takeWhile_append_of_pos hw]
    simp [show isSpace '{' = false by decide]
  simp [h]

theorem dropWhile_eq_drop (p : Char → Bool) : ∀ s : Str, s.dropWhile p = s.drop (s.takeWhile p).length
  | [] => rfl
  | c :: s => by
    by_cases h : p c = true
    · simp [h, dropWhile_eq_drop p s]
    · simp [h]

theorem spaces_brace_inv {s : Str} {n : Nat} (h : spacesBrace s = some n) :
    ∃ w r, s = w ++ '{' :: r ∧ n = w.length + 1 ∧ ∀ c ∈ w, isSpace c = true := by
  unfold spacesBrace at h
  simp only at h
  split at h
  · rename_i hh
    cases h
    have e : s.takeWhile isSpace ++ s.drop (s.takeWhile isSpace).length = s := by
      conv => rhs; rw [← List.takeWhile_append_dropWhile (p := isSpace) (l := s)]
      congr 1
      exact (dropWhile_eq_drop isSpace s).symm
    cases hd : s.drop (s.takeWhile isSpace).length with
    | nil => rw [hd] at hh; simp at hh
    | cons c r =>
      rw [hd] at hh e
      simp at hh
      exact ⟨s.takeWhile isSpace, r, by rw [← hh]; exact e.symm, rfl, fun c hc => by
        have := List.all_takeWhile (p := isSpace) (l := s); rw [List.all_eq_true] at this; exact this c hc⟩
  · cases h

theorem tag_length (kw w name : Str) (star : Bool) : (tag kw w name star).length = kw.length + (w.length + 1) + name.length + (if star then 2 else 1) := by
  cases star <;> simp [tag] <;> omega

theorem tag_hit (kw w name r : Str) (star : Bool) (hw : ∀ c ∈ w, isSpace c = true) :
    matchTag kw name (tag kw w name star ++ r) = some (tag kw w name star).length := by
  have e : tag kw w name star ++ r = kw ++ (w ++ '{' :: (name ++ ((if star then ['*'] else []) ++ '}' :: r))) := by
    cases star <;> simp [tag]
  rw [e, tag_length]
  unfold matchTag
  rw [if_pos (show startsWith _ kw = true by unfold startsWith; rw [List.isPrefixOf_iff_prefix]; exact ⟨_, rfl⟩)]
  simp only [List.drop_left, spaces_brace w _ hw]
  have d1 : (w ++ '{' :: (name ++ ((if star then ['*'] else []) ++ '}' :: r))).drop (w.length + 1) = name ++ ((if star then ['*'] else []) ++ '}' :: r) := by
    rw [show w.length + 1 = (w ++ ['{']).length by simp, show w ++ '{' :: (name ++ ((if star then ['*'] else []) ++ '}' :: r)) =
      (w ++ ['{']) ++ (name ++ ((if star then ['*'] else []) ++ '}' :: r)) by simp, List.drop_left]
  have d2 := congrArg (List.drop name.length) d1
  rw [List.drop_drop, List.drop_left] at d2
  rw [d1, d2, if_pos (show startsWith _ name = true by unfold startsWith; rw [List.isPrefixOf_iff_prefix]; exact ⟨_, rfl⟩)]
  cases star <;> simp <;> omega

theorem tag_inv {kw name s : Str} {e : Nat} (h : matchTag kw name s = some e) :
    ∃ w star r, s = tag kw w name star ++ r ∧ (∀ c ∈ w, isSpace c = true) ∧ e = (tag kw w name star).length := by
  unfold matchTag at h
  split at h
  · rename_i hk
    unfold startsWith at hk
    rw [List.isPrefixOf_iff_prefix] at hk
    obtain ⟨s1, rfl⟩ := hk
    simp only [List.drop_left] at h
    split at h
    · cases h
    · rename_i a ha
      obtain ⟨w, r1, rfl, rfl, hw⟩ := spaces_brace_inv ha
      have d1 : (w ++ '{' :: r1).drop (w.length + 1) = r1 := by
        rw [show w.length + 1 = (w ++ ['{']).length by simp, show w ++ '{' :: r1 = (w ++ ['{']) ++ r1 by simp, List.drop_left]
      have d2 := congrArg (List.drop name.length) d1
      rw [List.drop_drop] at d2
      rw [d1, d2] at h
      split at h
      · rename_i hn
        unfold startsWith at hn
        rw [List.isPrefixOf_iff_prefix] at hn
        obtain ⟨r2, rfl⟩ := hn
        rw [List.drop_left] at h
        split at h
        · rename_i r3
          cases h
          exact ⟨w, false, r3, by simp [tag], hw, by rw [tag_length]; simp⟩
        · rename_i r3
          cases h
          exact ⟨w, true, r3, by simp [tag], hw, by rw [tag_length]; simp⟩
        · cases h
      · cases h
  · cases h

/-- Behind its first character a tag has no backslash. -/
theorem tag_nobs {w name : Str} {star : Bool} (hw : ∀ c ∈ w, isSpace c = true) (hn : '\\' ∉ name) : ∃ t, tag "\\end".toList w name star = '\\' :: t ∧ '\\' ∉ t := by
  refine ⟨"end".toList ++ (w ++ '{' :: (name ++ ((if star then ['*'] else []) ++ ['}']))), rfl, ?_⟩
  have : '\\' ∉ w := fun h => by have := hw _ h; revert this; decide
  cases star <;> simp [this, hn]

/-- A tag found in `b ++ q`, where `q` begins with a backslash, before `q` is in `b`. -/
theorem tag_within {w name b q r : Str} {star : Bool} (hw : ∀ c ∈ w, isSpace c = true) (hn : '\\' ∉ name) (k : Nat) (hk : k < b.length)
    (h : (b ++ '\\' :: q).drop k = tag "\\end".toList w name star ++ r) : Contains b (tag "\\end".toList w name star) := by
  rw [List.drop_append_of_le_length (by omega)] at h
  rcases List.append_eq_append_iff.1 h with ⟨u, h1, h2⟩ | ⟨u, h1, h2⟩
  · obtain ⟨t, ht, hbs⟩ := tag_nobs (w := w) (name := name) (star := star) hw hn
    rw [ht] at h1
    cases hd : b.drop k with
    | nil => have : (b.drop k).length = 0 := by rw [hd]; rfl
             rw [List.length_drop] at this; omega
    | cons c d =>
      rw [hd] at h1
      injection h1 with h3 h4
      cases u with
      | nil => replace h4 : t = d := by simpa using h4
               exact ⟨b.take k, [], by rw [ht, h3, h4, ← hd]; simp⟩
      | cons x u => injection h2 with h5 h6; exact absurd (by rw [h4, h5]; simp) hbs
  · exact ⟨b.take k, u, by rw [List.append_assoc, ← h1, List.take_append_drop]⟩

/-! Which pattern matches. -/

theorem env_names_plain : ∀ x ∈ formulaEnvs, '\\' ∉ x.toList ∧ '*' ∉ x.toList ∧ '}' ∉ x.toList := by decide +kernel

theorem findSub_body (d b r : Str) (hd : d ≠ []) (h : ∀ k < b.length, ¬ d <+: (b ++ (d ++ r)).drop k) : findSub d (b ++ (d ++ r)) = some b.length :=
  Flat.findSub_spec d hd _ _ (by rw [List.drop_left]; exact ⟨r, rfl⟩) h

theorem dollars_body (b r : Str) (h1 : ¬ Contains b "$$".toList) (h2 : b.getLast? ≠ some '$') : findSub "$$".toList (b ++ ("$$".toList ++ r)) = some b.length := by
  refine findSub_body _ _ _ (by decide) (fun k hk hp => ?_)
  obtain ⟨t, ht⟩ := hp
  rw [List.drop_append_of_le_length (by omega)] at ht
  cases hd : b.drop k with
  | nil => have : (b.drop k).length = 0 := by rw [hd]; rfl
           rw [List.length_drop] at this; omega
  | cons c d =>
    rw [hd] at ht
    have e : ('$' :: '$' :: t : Str) = c :: (d ++ ('$' :: '$' :: r)) := ht
    injection e with e1 e2
    cases d with
    | nil =>
      apply h2
      have : b = b.take k ++ [c] := by rw [← hd, List.take_append_drop]
      rw [this, List.getLast?_append]; simp [← e1]
    | cons c2 d =>
      injection e2 with e3 e4
      refine h1 ⟨b.take k, d, ?_⟩
      rw [← e1, ← e3] at hd
      rw [List.append_assoc, show "$$".toList ++ d = '$' :: '$' :: d from rfl, ← hd, List.take_append_drop]

theorem pair_body (c1 c2 : Char) (b r : Str) (hc : c1 ≠ c2) (h1 : ¬ Contains b [c1, c2]) : findSub [c1, c2] (b ++ ([c1, c2] ++ r)) = some b.length := by
  refine findSub_body _ _ _ (by simp) (fun k hk hp => ?_)
  obtain ⟨t, ht⟩ := hp
  rw [List.drop_append_of_le_length (by omega)] at ht
  cases hd : b.drop k with
  | nil => have : (b.drop k).length = 0 := by rw [hd]; rfl
           rw [List.length_drop] at this; omega
  | cons c d =>
    rw [hd] at ht
    injection ht with e1 e2
    cases d with
    | nil => injection e2 with e3 e4; exact hc e3.symm
    | cons c2' d =>
      injection e2 with e3 e4
      refine h1 ⟨b.take k, d, ?_⟩
      rw [← e1, ← e3] at hd
      rw [List.append_assoc, show [c1, c2] ++ d = c1 :: c2 :: d from rfl, ← hd, List.take_append_drop]

/-- The pattern of its kind matches the formula, exactly. -/
theorem kind_hit (w : Formula) (hw : w.Ok) (rest : Str) : matchKind (kindOf w) (w.render ++ rest) = some (w.body, w.render.length) := by
  cases w with
  | inline b =>
    replace hw : '$' ∉ b := hw
    have e : Formula.render (.inline b) ++ rest = '$' :: (b ++ '$' :: rest) := by simp [Formula.render]
    rw [e]
    have ht : (b ++ '$' :: rest).takeWhile (· != '$') = b := by
      rw [List.takeWhile_append_of_pos (by intro c hc; simp; rintro rfl; exact hw hc)]; simp
    simp [kindOf, matchKind, startsWith, ht, Formula.body, Formula.render]
  | display b =>
    have e : Formula.render (.display b) ++ rest = '$' :: '$' :: (b ++ ("$$".toList ++ rest)) := by simp [Formula.render]
    rw [e]
    have := dollars_body b rest hw.1 hw.2
    unfold kindOf matchKind
    rw [show ("$$".toList : Str) = ['$', '$'] from rfl] at this ⊢
    simp only [startsWith, List.isPrefixOf, BEq.rfl, Bool.and_true, if_true, List.drop_succ_cons, List.drop_zero, this, Option.map_some, List.take_left,
      Formula.body, Formula.render]
    simp
  | brackets b =>
    have e : Formula.render (.brackets b) ++ rest = '\\' :: '[' :: (b ++ (['\\', ']'] ++ rest)) := by simp [Formula.render]
    rw [e]
    have := pair_body '\\' ']' b rest (by decide) hw
    unfold kindOf matchKind
    simp only [show ("\\]".toList : Str) = ['\\', ']'] from rfl, show ("\\[".toList : Str) = ['\\', '['] from rfl,
      startsWith, List.isPrefixOf, BEq.rfl, Bool.and_true, if_true, List.drop_succ_cons, List.drop_zero, this, Option.map_some, List.take_left,
      Formula.body, Formula.render]
    simp
  | parens b =>
    have e : Formula.render (.parens b) ++ rest = '\\' :: '(' :: (b ++ (['\\', ')'] ++ rest)) := by simp [Formula.render]
    rw [e]
    have := pair_body '\\' ')' b rest (by decide) hw.1
    have hn : b.contains '\n' = false := by
      have := hw.2
      simpa using this
    unfold kindOf matchKind
    simp only [show ("\\)".toList : Str) = ['\\', ')'] from rfl, show ("\\(".toList : Str) = ['\\', '('] from rfl,
      startsWith, List.isPrefixOf, BEq.rfl, Bool.and_true, if_true, List.drop_succ_cons, List.drop_zero, this, Option.bind_some, List.take_left, hn,
      Formula.body, Formula.render]
    simp
  | env n w1 s1 b w2 s2 =>
    obtain ⟨⟨x, hx, rfl⟩, h1, h2, h3⟩ := hw
    have hp := env_names_plain x hx
    have e : Formula.render (.env x.toList w1 s1 b w2 s2) ++ rest = tag "\\begin".toList w1 x.toList s1 ++ (b ++ (tag "\\end".toList w2 x.toList s2 ++ rest)) := by
      simp [Formula.render]
    rw [e]
    unfold kindOf matchKind
    simp only [tag_hit _ _ _ _ _ h1, List.drop_left]
    have hs : searchWith (matchTag "\\end".toList x.toList) (b ++ (tag "\\end".toList w2 x.toList s2 ++ rest)) =
        some (b.length, b.length + (tag "\\end".toList w2 x.toList s2).length) := by
      refine Tab.searchWith_first b _ _ (fun k hk => ?_) (tag_hit _ _ _ _ _ h2) (by simp [tag])
      cases hm : matchTag "\\end".toList x.toList ((b ++ (tag "\\end".toList w2 x.toList s2 ++ rest)).drop k) with
      | none => rfl
      | some e =>
        exfalso
        obtain ⟨w, star, r, hr, hw, _⟩ := tag_inv hm
        obtain ⟨t, ht, _⟩ := tag_nobs (star := s2) h2 hp.1
        exact h3 w star hw (tag_within hw hp.1 k hk (by rw [← hr, ht]; rfl))
    rw [hs]
    simp [Formula.body, Formula.render]

theorem tag_unique {kw w1 w2 n1 n2 r1 r2 : Str} {s1 s2 : Bool} (hw1 : ∀ c ∈ w1, isSpace c = true) (hw2 : ∀ c ∈ w2, isSpace c = true)
    (hn1 : '*' ∉ n1 ∧ '}' ∉ n1) (hn2 : '*' ∉ n2 ∧ '}' ∉ n2) (h : tag kw w1 n1 s1 ++ r1 = tag kw w2 n2 s2 ++ r2) : n1 = n2 := by
  have e : ∀ (w n r : Str) (s : Bool), tag kw w n s ++ r = kw ++ (w ++ '{' :: (n ++ ((if s then ['*'] else []) ++ '}' :: r))) := by
    intro w n r s; cases s <;> simp [tag]
  rw [e, e] at h
  have h := List.append_cancel_left h
  have nb : ∀ w : Str, (∀ c ∈ w, isSpace c = true) → '{' ∉ w := fun w hw hx => by have := hw _ hx; revert this; decide
  have hw := Flat.split_at w1 w2 _ _ (nb w1 hw1) (nb w2 hw2) h
  rw [hw] at h
  have h := (List.cons.inj (List.append_cancel_left h)).2
  have tw : ∀ (n r : Str) (s : Bool), ('*' ∉ n ∧ '}' ∉ n) → (n ++ ((if s then ['*'] else []) ++ '}' :: r)).takeWhile (fun c => c != '*' && c != '}') = n := by
    intro n r s hn
    rw [List.takeWhile_append_of_pos (by intro c hc; simp; constructor <;> rintro rfl; exact hn.1 hc; exact hn.2 hc)]
    cases s <;> simp
  rw [← tw n1 r1 s1 hn1, h, tw n2 r2 s2 hn2]

/-- The pattern of another environment does not match. -/
theorem env_miss {n : String} (hn : n ∈ formulaEnvs) (w : Formula) (hw : w.Ok) (hne : kindOf w ≠ .env n.toList) (rest : Str) :
    matchKind (.env n.toList) (w.render ++ rest) = none := by
  cases hm : matchTag "\\begin".toList n.toList (w.render ++ rest) with
  | none => unfold matchKind; simp only [hm]
  | some e =>
    exfalso
    obtain ⟨w', star, r, hr, hw', _⟩ := tag_inv hm
    have second : (w.render ++ rest)[1]? = some 'b' := by rw [hr]; rfl
    have first : (w.render ++ rest)[0]? = some '\\' := by rw [hr]; rfl
    cases w with
    | inline b => simp [Formula.render] at first
    | display b => simp [Formula.render] at first
    | brackets b => simp [Formula.render] at second
    | parens b => simp [Formula.render] at second
    | env n' w1 s1 b w2 s2 =>
      obtain ⟨⟨x, hx, rfl⟩, h1, h2, h3⟩ := hw
      have e : Formula.render (.env x.toList w1 s1 b w2 s2) ++ rest = tag "\\begin".toList w1 x.toList s1 ++ (b ++ (tag "\\end".toList w2 x.toList s2 ++ rest)) := by
        simp [Formula.render]
      rw [e] at hr
      have := tag_unique h1 hw' (env_names_plain x hx).2 (env_names_plain n hn).2 hr
      exact hne (by rw [← this]; rfl)

theorem firstKind_env {s : Str} {m : Str × Nat} {n : Str} (tail : List Kind) : ∀ (order : List Str), n ∈ order → matchKind (.env n) s = some m →
    (∀ x ∈ order, x ≠ n → matchKind (.env x) s = none) → firstKind s (order.map .env ++ tail) = some (.env n, m)
  | [], hn, _, _ => by simp at hn
  | x :: order, hn, hm, ho => by
    rw [List.map_cons, List.cons_append]
    unfold firstKind
    by_cases hx : x = n
    · rw [hx, hm]
    · rw [ho x (by simp) hx]
      exact firstKind_env tail order (by simp at hn; exact hn.resolve_left (fun h => hx h.symm)) hm (fun y hy => ho y (by simp [hy]))

theorem firstKind_skip {s : Str} (tail : List Kind) : ∀ (order : List Str), (∀ x ∈ order, matchKind (.env x) s = none) →
    firstKind s (order.map .env ++ tail) = firstKind s tail
  | [], _ => rfl
  | x :: order, ho => by
    rw [List.map_cons, List.cons_append]
    conv => lhs; unfold firstKind
    rw [ho x (by simp)]
    exact firstKind_skip tail order (fun y hy => ho y (by simp [hy]))

/-- An order in which the environments may be tried: the set in any order. -/
def _root_.L2J.Spec.SomeOrder (order : List Str) : Prop := ∀ n, n ∈ order ↔ ∃ x ∈ formulaEnvs, n = x.toList

/-- The formula is found, whatever the order of the environments. -/
theorem first_formula (order : List Str) (ho : SomeOrder order) (w : Formula) (hw : w.Ok) (hb : w ≠ .inline []) (rest : Str) :
    firstKind (w.render ++ rest) (kinds order) = some (kindOf w, w.body, w.render.length) := by
  have hit := kind_hit w hw rest
  have miss : ∀ n ∈ order, kindOf w ≠ .env n → matchKind (.env n) (w.render ++ rest) = none := by
    intro n hn hne
    obtain ⟨x, hx, rfl⟩ := (ho n).1 hn
    exact env_miss hx w hw hne rest
  unfold kinds
  cases w with
  | env n w1 s1 b w2 s2 =>
    exact firstKind_env _ order ((ho n).2 hw.1) hit (fun x hx hne => miss x hx (by intro e; injection e with e; exact hne e.symm))
  | inline b =>
    rw [firstKind_skip _ order (fun x hx => miss x hx (by intro e; cases e))]
    have hb0 : ∃ c t, b = c :: t ∧ c ≠ '$' := by
      cases b with
      | nil => exact absurd (by rfl) hb
      | cons c t => exact ⟨c, t, rfl, by rintro rfl; exact hw (by simp)⟩
    obtain ⟨c, t, rfl, hc⟩ := hb0
    have hm : matchKind .dollars (Formula.render (.inline (c :: t)) ++ rest) = none := by
      simp [matchKind, startsWith, Formula.render, List.isPrefixOf, Ne.symm hc]
    unfold firstKind firstKind
    rw [hm]
    simp only [kindOf] at hit
    simp only [hit]
    rfl
  | display b =>
    rw [firstKind_skip _ order (fun x hx => miss x hx (by intro e; cases e))]
    unfold firstKind
    simp only [kindOf] at hit
    rw [hit]; rfl
  | brackets b =>
    rw [firstKind_skip _ order (fun x hx => miss x hx (by intro e; cases e))]
    have h1 : matchKind .dollars (Formula.render (.brackets b) ++ rest) = none := by simp [matchKind, startsWith, Formula.render, List.isPrefixOf]
    have h2 : matchKind .dollar (Formula.render (.brackets b) ++ rest) = none := by simp [matchKind, startsWith, Formula.render, List.isPrefixOf]
    unfold firstKind firstKind firstKind
    simp only [kindOf] at hit
    rw [h1, h2, hit]; rfl
  | parens b =>
    rw [firstKind_skip _ order (fun x hx => miss x hx (by intro e; cases e))]
    have h1 : matchKind .dollars (Formula.render (.parens b) ++ rest) = none := by simp [matchKind, startsWith, Formula.render, List.isPrefixOf]
    have h2 : matchKind .dollar (Formula.render (.parens b) ++ rest) = none := by simp [matchKind, startsWith, Formula.render, List.isPrefixOf]
    have h3 : matchKind .brackets (Formula.render (.parens b) ++ rest) = none := by simp [matchKind, startsWith, Formula.render, List.isPrefixOf]
    unfold firstKind firstKind firstKind firstKind
    simp only [kindOf] at hit
    rw [h1, h2, h3, hit]; rfl

/-! The order of the environments. -/

theorem env_alone {n1 n2 : String} (h1 : n1 ∈ formulaEnvs) (h2 : n2 ∈ formulaEnvs) {s : Str} (m1 : matchKind (.env n1.toList) s ≠ none)
    (m2 : matchKind (.env n2.toList) s ≠ none) : n1.toList = n2.toList := by
  have key : ∀ n : Str, matchKind (.env n) s ≠ none → ∃ w star r, s = tag "\\begin".toList w n star ++ r ∧ ∀ c ∈ w, isSpace c = true := by
    intro n h
    unfold matchKind at h
    cases hm : matchTag "\\begin".toList n s with
    | none => simp only [hm] at h; exact absurd rfl h
    | some e => obtain ⟨w, star, r, hr, hw, _⟩ := tag_inv hm; exact ⟨w, star, r, hr, hw⟩
  obtain ⟨w1, s1, r1, e1, k1⟩ := key _ m1
  obtain ⟨w2, s2, r2, e2, k2⟩ := key _ m2
  exact tag_unique k1 k2 (env_names_plain n1 h1).2 (env_names_plain n2 h2).2 (e1.symm.trans e2)

/-- C52: the order in which the set of environments is visited (it depends on the hash seed of the process) makes no difference. -/
theorem C52_order {V} (o1 o2 : List Str) (h1 : SomeOrder o1) (h2 : SomeOrder o2) (process : Str → Str) (fmt : Str → Str × Nat) (env : Boxes.Env V)
    (fuel : Nat) (st : State V) (s : Str) : handle o1 process fmt env fuel st s = handle o2 process fmt env fuel st s := by
  have key : firstKind s (kinds o1) = firstKind s (kinds o2) := by
    by_cases hx : ∃ x ∈ formulaEnvs, matchKind (.env x.toList) s ≠ none
    · obtain ⟨x, hx, hm⟩ := hx
      obtain ⟨m, hm'⟩ := Option.ne_none_iff_exists'.1 hm
      have one : ∀ o : List Str, SomeOrder o → firstKind s (kinds o) = some (.env x.toList, m) := by
        intro o ho
        refine firstKind_env _ o ((ho _).2 ⟨x, hx, rfl⟩) hm' (fun y hy hne => ?_)
        obtain ⟨y', hy', rfl⟩ := (ho y).1 hy
        by_cases h : matchKind (.env y'.toList) s = none
        · exact h
        · exact absurd (env_alone hy' hx h hm) hne
      rw [one o1 h1, one o2 h2]
    · have none_ : ∀ o : List Str, SomeOrder o → ∀ y ∈ o, matchKind (.env y) s = none := by
        intro o ho y hy
        obtain ⟨y', hy', rfl⟩ := (ho y).1 hy
        by_cases h : matchKind (.env y'.toList) s = none
        · exact h
        · exact absurd ⟨y', hy', h⟩ hx
      unfold kinds
      rw [firstKind_skip _ o1 (none_ o1 h1), firstKind_skip _ o2 (none_ o2 h2)]
  unfold handle
  rw [key]

/-! Labels. -/

/-- A text with labels: `t`, then each `\label`, blanks, the label in braces and the text behind it. -/
def _root_.L2J.Spec.withLabels : Str → List (Str × Str × Str) → Str
  | t, [] => t
  | t, (w, l, u) :: r => t ++ ("\\label".toList ++ (w ++ '{' :: (l ++ '}' :: withLabels u r)))

/-- The text without them. -/
def _root_.L2J.Spec.withoutLabels : Str → List (Str × Str × Str) → Str
  | t, [] => t
  | t, (_, _, u) :: r => t ++ withoutLabels u r

/-- There is no `\label{` (with or without blanks before the brace). -/
def _root_.L2J.Spec.NoLabel (t : Str) : Prop := ∀ w, (∀ c ∈ w, isSpace c = true) → ¬ Contains t ("\\label".toList ++ w ++ ['{'])

/-- The labels are not empty, their braces match, and there is no label in them or elsewhere. -/
def _root_.L2J.Spec.LabelsOk (t : Str) (r : List (Str × Str × Str)) : Prop :=
  NoLabel t ∧ ∀ e ∈ r, (∀ c ∈ e.1, isSpace c = true) ∧ e.2.1 ≠ [] ∧ Wrappable '{' '}' e.2.1 ∧ NoLabel e.2.1 ∧ NoLabel e.2.2

theorem label_hit (w r : Str) (hw : ∀ c ∈ w, isSpace c = true) : matchLabel ("\\label".toList ++ (w ++ '{' :: r)) = some (w.length + 7) := by
  unfold matchLabel
  rw [if_pos (show startsWith _ _ = true by unfold startsWith; rw [List.isPrefixOf_iff_prefix]; exact ⟨_, rfl⟩)]
  rw [show ("\\label".toList ++ (w ++ '{' :: r)).drop 6 = w ++ '{' :: r from rfl, spaces_brace w r hw]
  rfl

theorem label_inv {s : Str} {e : Nat} (h : matchLabel s = some e) :
    ∃ w r, s = ("\\label".toList ++ w ++ ['{']) ++ r ∧ ∀ c ∈ w, isSpace c = true := by
  unfold matchLabel at h
  split at h
  · rename_i hk
    unfold startsWith at hk
    rw [List.isPrefixOf_iff_prefix] at hk
    obtain ⟨s1, rfl⟩ := hk
    rw [show ("\\label".toList ++ s1).drop 6 = s1 from rfl] at h
    cases hb : spacesBrace s1 with
    | none => rw [hb] at h; cases h
    | some n =>
      obtain ⟨w, r, rfl, _, hw⟩ := spaces_brace_inv hb
      exact ⟨w, r, by simp, hw⟩
  · cases h

/-- Nothing matches in a text without labels, if what follows begins with a character that cannot go on a match. -/
theorem label_pass {t q : Str} (ht : NoLabel t) (hq : ∀ c ∈ q.head?, c = '\\' ∨ c = '}') (k : Nat) (hk : k < t.length) : matchLabel ((t ++ q).drop k) = none := by
  cases hm : matchLabel ((t ++ q).drop k) with
  | none => rfl
  | some e =>
    exfalso
    obtain ⟨w, r, hr, hw⟩ := label_inv hm
    rw [List.drop_append_of_le_length (by omega)] at hr
    rcases List.append_eq_append_iff.1 hr with ⟨u, h1, h2⟩ | ⟨u, h1, h2⟩
    · cases u with
      | nil => exact ht w hw ⟨t.take k, [], by rw [show "\\label".toList ++ w ++ ['{'] = t.drop k by simpa using h1]; simp⟩
      | cons x u =>
        have hx := hq x (by rw [h2]; simp)
        cases hd : t.drop k with
        | nil => have : (t.drop k).length = 0 := by rw [hd]; rfl
                 rw [List.length_drop] at this; omega
        | cons c d =>
          rw [hd] at h1
          have h3 : "label".toList ++ w ++ ['{'] = d ++ x :: u := (List.cons.inj h1).2
          have hm : x ∈ "label".toList ++ w ++ ['{'] := by rw [h3]; simp
          have nb : ∀ y, y = '\\' ∨ y = '}' → y ∉ w := by
            rintro y (rfl | rfl) hy <;> (have := hw _ hy; revert this; decide)
          rw [List.mem_append, List.mem_append] at hm
          rcases hm with (hm | hm) | hm
          · rcases hx with rfl | rfl <;> revert hm <;> decide
          · exact nb x hx hm
          · rcases hx with rfl | rfl <;> simp at hm
    · exact ht w hw ⟨t.take k, u, by rw [List.append_assoc, ← h1, List.take_append_drop]⟩

theorem iter_pass : ∀ (t q : Str) (pos : Nat), (∀ k < t.length, matchLabel ((t ++ q).drop k) = none) → labelIter 0 pos (t ++ q) = labelIter 0 (pos + t.length) q
  | [], _, _, _ => rfl
  | c :: t, q, pos, h => by
    rw [List.cons_append]
    conv => lhs; unfold labelIter
    have h0 := h 0 (by simp)
    simp only [List.drop_zero, List.cons_append] at h0
    rw [h0]
    simp only
    rw [iter_pass t q (pos + 1) (fun k hk => by have := h (k + 1) (by simp; omega); simpa using this),
      show pos + 1 + t.length = pos + (c :: t).length by simp only [List.length_cons]; omega]

theorem iter_skip : ∀ (x q : Str) (pos : Nat), labelIter x.length pos (x ++ q) = labelIter 0 (pos + x.length) q
  | [], _, _ => rfl
  | c :: x, q, pos => by
    rw [List.cons_append, List.length_cons]
    conv => lhs; unfold labelIter
    rw [iter_skip x q (pos + 1), show pos + 1 + x.length = pos + (x.length + 1) by omega]

theorem iter_labels (t w l q : Str) (pos : Nat) (ht : NoLabel t) (hw : ∀ c ∈ w, isSpace c = true) (hl : NoLabel l) :
    labelIter 0 pos (t ++ ("\\label".toList ++ (w ++ '{' :: (l ++ '}' :: q)))) =
      (pos + t.length, pos + t.length + (w.length + 7)) :: labelIter 0 (pos + t.length + (w.length + 7) + l.length + 1) q := by
  rw [iter_pass t _ pos (fun k hk => label_pass ht (by intro c hc; simp at hc; exact .inl hc.symm) k hk)]
  have hm := label_hit w (l ++ '}' :: q) hw
  rw [show "\\label".toList ++ (w ++ '{' :: (l ++ '}' :: q)) = '\\' :: ("label".toList ++ (w ++ '{' :: (l ++ '}' :: q))) from rfl] at hm ⊢
  conv => lhs; unfold labelIter
  rw [hm]
  simp only
  have e1 : ("label".toList ++ (w ++ '{' :: (l ++ '}' :: q)) : Str) = ("label".toList ++ (w ++ ['{'])) ++ (l ++ '}' :: q) := by simp
  rw [e1, show w.length + 7 - 1 = ("label".toList ++ (w ++ ['{'])).length by simp, iter_skip,
    iter_pass l _ _ (fun k hk => label_pass hl (by intro c hc; simp at hc; exact .inr hc.symm) k hk),
    show ('}' :: q : Str) = ['}'] ++ q from rfl, iter_pass ['}'] q _ (by
      intro k hk
      have : k = 0 := by simp at hk; exact hk
      subst this
      simp [matchLabel, startsWith, List.isPrefixOf])]
  have e2 : pos + t.length + 1 + ("label".toList ++ (w ++ ['{'])).length + l.length + ['}'].length = pos + t.length + (w.length + 7) + l.length + 1 := by
    simp only [List.length_append, List.length_cons, List.length_nil, show "label".toList.length = 5 from rfl]; omega
  rw [e2]

theorem fold_labels : ∀ (r : List (Str × Str × Str)) (p t : Str), LabelsOk t r →
    (labelIter 0 p.length (withLabels t r)).foldr takeLabel (p ++ withLabels t r, []) = (p ++ withoutLabels t r, r.map (·.2.1))
  | [], p, t, h => by
    have : labelIter 0 p.length (withLabels t []) = [] := by
      have := iter_pass t [] p.length (fun k hk => label_pass h.1 (by simp) k hk)
      simp only [List.append_nil] at this
      rw [withLabels, this]; rfl
    rw [this]; rfl
  | (w, l, u) :: r, p, t, h => by
    obtain ⟨h1, h2⟩ := h
    obtain ⟨hw, hne, hwr, hl, hu⟩ := h2 (w, l, u) (by simp)
    rw [withLabels, iter_labels t w l (withLabels u r) p.length h1 hw hl, List.foldr_cons]
    have ih := fold_labels r (p ++ (t ++ ("\\label".toList ++ (w ++ '{' :: (l ++ ['}']))))) u ⟨hu, fun e he => h2 e (by simp [he])⟩
    have e1 : (p ++ (t ++ ("\\label".toList ++ (w ++ '{' :: (l ++ ['}']))))).length = p.length + t.length + (w.length + 7) + l.length + 1 := by
      simp only [List.length_append, List.length_cons, List.length_nil, show "\\label".toList.length = 6 from rfl]; omega
    have e2 : p ++ (t ++ ("\\label".toList ++ (w ++ '{' :: (l ++ '}' :: withLabels u r)))) =
        p ++ (t ++ ("\\label".toList ++ (w ++ '{' :: (l ++ ['}'])))) ++ withLabels u r := by simp
    rw [e1] at ih
    rw [e2, ih]
    unfold takeLabel
    simp only
    have e3 : p ++ (t ++ ("\\label".toList ++ (w ++ '{' :: (l ++ ['}'])))) ++ withoutLabels u r =
        (p ++ (t ++ ("\\label".toList ++ w))) ++ ('{' :: (l ++ '}' :: withoutLabels u r)) := by simp
    have e4 : p.length + t.length + (w.length + 7) - 1 = (p ++ (t ++ ("\\label".toList ++ w))).length := by
      simp only [List.length_append, show "\\label".toList.length = 6 from rfl]; omega
    have hx := C01_round_trip [] l (withoutLabels u r) '{' '}' (by simp) (by decide) (by decide) (by decide) hwr.1 hwr.2
    simp only [List.nil_append, List.length_nil, Nat.zero_add] at hx
    rw [e3, e4, List.drop_left, hx]
    simp only
    rw [if_neg (by simp [hne])]
    have e5 : (p ++ (t ++ ("\\label".toList ++ w)) ++ '{' :: (l ++ '}' :: withoutLabels u r)).take (p.length + t.length) = p ++ t := by
      rw [← List.length_append, show p ++ (t ++ ("\\label".toList ++ w)) ++ '{' :: (l ++ '}' :: withoutLabels u r) =
        (p ++ t) ++ (("\\label".toList ++ w) ++ '{' :: (l ++ '}' :: withoutLabels u r)) by simp, List.take_left]
    have e6 : (p ++ (t ++ ("\\label".toList ++ w)) ++ '{' :: (l ++ '}' :: withoutLabels u r)).drop ((p ++ (t ++ ("\\label".toList ++ w))).length + (l.length + 2)) =
        withoutLabels u r := by
      rw [← List.drop_drop, List.drop_left, show '{' :: (l ++ '}' :: withoutLabels u r) = ('{' :: (l ++ ['}'])) ++ withoutLabels u r by simp,
        show l.length + 2 = ('{' :: (l ++ ['}'])).length by simp, List.drop_left]
    rw [e5, e6]
    simp [withoutLabels]

/-- C52, labels: the labels of a formula are found in order, and the formula without them is left. -/
theorem C52_labels (t : Str) (r : List (Str × Str × Str)) (h : LabelsOk t r) :
    handleLabels (withLabels t r) = (if r = [] then t else strip (withoutLabels t r), r.map (·.2.1)) := by
  have hf := fold_labels r [] t h
  simp only [List.nil_append, List.length_nil] at hf
  unfold handleLabels
  cases r with
  | nil =>
    have : labelIter 0 0 (withLabels t []) = [] := by
      have := iter_pass t [] 0 (fun k hk => label_pass h.1 (by simp) k hk)
      simp only [List.append_nil] at this
      rw [withLabels, this]; rfl
    rw [this]; rfl
  | cons e r =>
    obtain ⟨w, l, u⟩ := e
    obtain ⟨h1, h2⟩ := h
    obtain ⟨hw, hne, hwr, hl, hu⟩ := h2 (w, l, u) (by simp)
    have hi := iter_labels t w l (withLabels u r) 0 h1 hw hl
    rw [← withLabels.eq_2 t w l u r] at hi
    generalize labelIter 0 0 (withLabels t ((w, l, u) :: r)) = ms at hi hf
    subst hi
    simp only [hf]
    rfl

/-! The text of a formula. -/

/-- The text of the formula: what is between the delimiters, for `alignat` without its argument. Braces must match if the formula is
not an environment. -/
def _root_.L2J.Spec.Formula.Text (w : Formula) (t : Str) : Prop :=
  match w with
  | .env n _ _ b _ _ =>
    if n = "alignat".toList then ∃ a u, strip b = '{' :: (a ++ '}' :: u) ∧ Wrappable '{' '}' a ∧ t = strip u else t = strip b
  | w => t = strip w.body ∧ Balanced t '{' '}'

theorem body_text (w : Formula) (t s : Str) (n : Nat) (ht : w.Text t) : Eqn.body (kindOf w) (w.body, n) s = (t, n) := by
  cases w with
  | env nm w1 s1 b w2 s2 =>
    unfold Formula.Text at ht
    simp only at ht
    unfold Eqn.body kindOf Formula.body
    simp only
    split at ht
    · rename_i hn
      obtain ⟨a, u, h1, h2, h3⟩ := ht
      rw [if_pos hn, h1]
      have := seqBlocks_wrap '{' '}' (by decide) (by decide) (by decide) [([], a)] u (by intro e he; simp at he; subst he; exact ⟨by simp, h2⟩)
      simp only [wrapAll, List.nil_append, List.length_cons, List.length_nil, List.cons_append, List.append_assoc] at this
      unfold extractArgs
      simp only [gt_iff_lt, Nat.lt_irrefl, if_false, Nat.zero_lt_one, if_true]
      rw [show (0 + 1 : Nat) = 1 from rfl] at this
      rw [this, h3]
      simp only
      rw [show List.length (a ++ ['}']) + 1 = ('{' :: (a ++ ['}'])).length from rfl,
        show '{' :: (a ++ '}' :: u) = ('{' :: (a ++ ['}'])) ++ u by simp, List.drop_left]
    · rename_i hn
      rw [if_neg hn, ht]
  | inline b =>
    unfold Eqn.body kindOf Formula.body
    obtain ⟨rfl, h2⟩ := ht
    replace h2 : Balanced (strip b) '{' '}' := h2
    simp only
    rw [if_pos ((C03_balance_iff _ _ _).2 h2)]
    rfl
  | display b =>
    unfold Eqn.body kindOf Formula.body
    obtain ⟨rfl, h2⟩ := ht
    replace h2 : Balanced (strip b) '{' '}' := h2
    simp only
    rw [if_pos ((C03_balance_iff _ _ _).2 h2)]
    rfl
  | brackets b =>
    unfold Eqn.body kindOf Formula.body
    obtain ⟨rfl, h2⟩ := ht
    replace h2 : Balanced (strip b) '{' '}' := h2
    simp only
    rw [if_pos ((C03_balance_iff _ _ _).2 h2)]
    rfl
  | parens b =>
    unfold Eqn.body kindOf Formula.body
    obtain ⟨rfl, h2⟩ := ht
    replace h2 : Balanced (strip b) '{' '}' := h2
    simp only
    rw [if_pos ((C03_balance_iff _ _ _).2 h2)]
    rfl

theorem strip_last (a : Str) (c : Char) (hc : isSpace c = false) : ∃ b, strip (a ++ [c]) = b ++ [c] ∧ ∃ p, a ++ [c] = p ++ (b ++ [c]) := by
  obtain ⟨p, q, hp, hq, h⟩ := strip_decomp (a ++ [c])
  rcases List.eq_nil_or_concat q with rfl | ⟨q', x, rfl⟩
  · rw [List.append_nil] at h
    rcases List.eq_nil_or_concat (strip (a ++ [c])) with hs | ⟨b, x, hs⟩
    · exfalso
      rw [hs, List.append_nil] at h
      have := hp c (by rw [← h]; simp)
      rw [hc] at this; cases this
    · rw [hs] at h
      have : c = x := by
        have := congrArg List.getLast? h
        simpa using this
      subst this
      exact ⟨b, by rw [hs]; simp, p, by rw [h]; simp⟩
  · exfalso
    have : c = x := by
      have := congrArg List.getLast? h
      simpa using this
    subst this
    have := hq c (by simp)
    rw [hc] at this; cases this

theorem numbered_spec (w : Formula) (hw : w.Ok) (rest : Str) : Eqn.isNumbered (kindOf w) ((w.render ++ rest).take w.render.length) = w.isNumbered := by
  rw [List.take_left]
  cases w with
  | env nm w1 s1 b w2 s2 =>
    obtain ⟨⟨x, hx, rfl⟩, h1, h2, h3⟩ := hw
    have hp := env_names_plain x hx
    unfold kindOf Eqn.isNumbered Formula.isNumbered
    simp only
    congr 1
    generalize hA : tag "\\begin".toList w1 x.toList s1 ++ b ++ "\\end".toList ++ w2 ++ ['{'] = A
    have hr : Formula.render (.env x.toList w1 s1 b w2 s2) = (A ++ x.toList ++ (if s2 then ['*'] else [])) ++ ['}'] := by
      rw [← hA]; simp [Formula.render, tag]
    rw [hr]
    obtain ⟨bb, e1, p, e2⟩ := strip_last (A ++ x.toList ++ (if s2 then ['*'] else [])) '}' (by decide)
    rw [e1]
    have e3 : A ++ x.toList ++ (if s2 then ['*'] else []) = p ++ bb := by
      have : (A ++ x.toList ++ (if s2 then ['*'] else [])) ++ ['}'] = (p ++ bb) ++ ['}'] := by rw [e2]; simp
      exact List.append_cancel_right this
    have key : endsWith (bb ++ ['}']) "*}".toList = (bb.getLast? == some '*') := by
      unfold endsWith
      rw [Bool.eq_iff_iff, List.isSuffixOf_iff_suffix, beq_iff_eq]
      constructor
      · rintro ⟨t, ht⟩
        have : t ++ ['*'] = bb := by
          have : (t ++ ['*']) ++ ['}'] = bb ++ ['}'] := by rw [← ht]; simp
          exact List.append_cancel_right this
        rw [← this]; simp
      · intro h
        rcases List.eq_nil_or_concat bb with rfl | ⟨q, y, rfl⟩
        · simp at h
        · simp at h; subst h; exact ⟨q, by simp⟩
    rw [key]
    have hxl : ∃ z y, x.toList = z ++ [y] ∧ y ≠ '*' ∧ isSpace y = false := by
      have : ∀ x ∈ formulaEnvs, ∃ y, x.toList.getLast? = some y ∧ y ≠ '*' ∧ isSpace y = false := by
        intro x hx
        simp only [formulaEnvs, List.mem_cons, List.not_mem_nil, or_false] at hx
        rcases hx with rfl | rfl | rfl | rfl | rfl | rfl | rfl | rfl | rfl <;> exact ⟨_, rfl, by decide, by decide⟩
      obtain ⟨y, hy, h1, h2⟩ := this x hx
      rcases List.eq_nil_or_concat x.toList with hn | ⟨z, y', hn⟩
      · rw [hn] at hy; cases hy
      · rw [hn] at hy
        simp at hy
        subst hy
        exact ⟨z, y', by rw [hn]; simp, h1, h2⟩
    obtain ⟨z, y, hz, hy, hys⟩ := hxl
    -- the last character of `bb`
    have hne : bb ≠ [] := by
      rintro rfl
      have h4 := e1
      simp only [List.nil_append] at h4
      obtain ⟨p', q', dp, dq, d⟩ := strip_decomp (A ++ x.toList ++ (if s2 then ['*'] else []) ++ ['}'])
      rw [h4] at d
      have hb : '\\' ∈ A ++ x.toList ++ (if s2 then ['*'] else []) ++ ['}'] := by rw [← hA]; simp [tag]
      rw [d] at hb
      simp only [List.mem_append, List.mem_cons, List.not_mem_nil, or_false] at hb
      rcases hb with hb | hb | hb
      · have := dp _ hb; revert this; decide
      · revert hb; decide
      · have := dq _ hb; revert this; decide
    have last : bb.getLast? = (A ++ x.toList ++ (if s2 then ['*'] else [])).getLast? := by
      rw [e3, List.getLast?_append]
      rcases List.eq_nil_or_concat bb with h | ⟨z, y, h⟩
      · exact absurd h hne
      · rw [h]; simp
    rw [last, hz]
    cases s2 <;> simp [hy]
  | inline b => rfl
  | display b => rfl
  | brackets b => rfl
  | parens b => rfl

theorem align_table : ∀ x ∈ formulaEnvs, ((findSub "align".toList x.toList).isSome || (findSub "eqnarray".toList x.toList).isSome) =
    (["align", "aligned", "eqnarray", "flalign", "alignat"].any (·.toList == x.toList)) := by decide +kernel

theorem aligned_spec (w : Formula) (hw : w.Ok) : (kindOf w).isAlign = w.isAligned := by
  cases w with
  | env nm w1 s1 b w2 s2 =>
    obtain ⟨⟨x, hx, rfl⟩, _⟩ := hw
    exact align_table x hx
  | inline b => rfl
  | display b => rfl
  | brackets b => rfl
  | parens b => rfl

theorem display_spec (w : Formula) : (kindOf w).isBlock = w.isDisplay := by cases w <;> rfl

/-! Pairs `\name … \endname`. -/

/-- There is no `\name` with `\endname` behind it. -/
def _root_.L2J.Spec.NoPair (t : Str) : Prop :=
  ∀ a n b c : Str, n ≠ [] → (∀ x ∈ n, isWord x = true ∨ x = '@') → t ≠ a ++ '\\' :: (n ++ b ++ "\\end".toList ++ n ++ c)

theorem pairPrefix_inv {run after : Str} : ∀ {n : Nat} {name : Str}, pairPrefix run after n = some name →
    ∃ k, 0 < k ∧ k ≤ n ∧ name = run.take k ∧ (findSub ("\\end".toList ++ name) (run.drop k ++ after)).isSome = true
  | 0, name, h => by cases h
  | n + 1, name, h => by
    unfold pairPrefix at h
    simp only at h
    split at h
    · rename_i hc
      cases h
      rw [Bool.and_eq_true] at hc
      exact ⟨n + 1, by omega, by omega, rfl, hc.2⟩
    · obtain ⟨k, h1, h2, h3⟩ := pairPrefix_inv h
      exact ⟨k, h1, by omega, h3⟩

theorem matchPair_inv {s name : Str} (h : matchPair s = some name) :
    ∃ b c, name ≠ [] ∧ (∀ x ∈ name, isWord x = true ∨ x = '@') ∧ s = '\\' :: (name ++ b ++ "\\end".toList ++ name ++ c) := by
  unfold matchPair at h
  split at h
  · rename_i s
    obtain ⟨k, h1, h2, h3, h4⟩ := pairPrefix_inv h
    rw [findSub_contains _ (by simp)] at h4
    obtain ⟨b, c, h5⟩ := h4
    have e : s = s.takeWhile pairChar ++ s.dropWhile pairChar := (List.takeWhile_append_dropWhile ..).symm
    refine ⟨b, c, ?_, ?_, ?_⟩
    · intro h
      rw [h] at h5
      rw [h3, List.take_eq_nil_iff] at h
      rcases h with h | h
      · omega
      · rw [h] at h2; simp at h2; omega
    · intro x hx
      rw [h3] at hx
      have hm := List.mem_of_mem_take hx
      have := List.all_takeWhile (p := pairChar) (l := s)
      rw [List.all_eq_true] at this
      have := this x hm
      simp only [pairChar, Bool.or_eq_true, beq_iff_eq] at this
      exact this
    · congr 1
      rw [List.append_assoc, List.append_assoc, List.append_assoc] at *
      rw [e]
      conv => lhs; rw [← List.take_append_drop k (s.takeWhile pairChar), List.append_assoc, h5, ← h3]
  · cases h

theorem searchPair_none : ∀ {t : Str}, NoPair t → searchPair t = none
  | [], _ => rfl
  | c :: t, h => by
    unfold searchPair
    cases hm : matchPair (c :: t) with
    | some n =>
      obtain ⟨b, c', h1, h2, h3⟩ := matchPair_inv hm
      exact absurd h3 (h [] n b c' h1 h2)
    | none =>
      refine searchPair_none (fun a n b c' h1 h2 h3 => h (c :: a) n b c' h1 h2 (by rw [h3]; rfl))

theorem convert_none {t : Str} (h : NoPair t) (n : Nat) : convertPairs (n + 1) t = some t := by
  unfold convertPairs
  rw [searchPair_none h]

/-! Cleaning up. -/

/-- Neither the formatting handler nor the box handler takes anything at the start of the text. -/
def _root_.L2J.Spec.Unclaimed {V} (fmt : Str → Str × Nat) (env : Boxes.Env V) (st : Boxes.State V) (s : Str) : Prop :=
  (fmt s).2 = 0 ∧ (Boxes.handle env st s).2.2 = 0

/-- One of them takes a command at the start of the text, and something comes in its place. -/
inductive _root_.L2J.Spec.Replaced {V} (fmt : Str → Str × Nat) (env : Boxes.Env V) (st : Boxes.State V) (s : Str) : Boxes.State V → Str → Prop
  /-- formatting -/
  | fmt (v : Str) (n : Nat) : fmt s = (v, n) → 0 < n → Replaced fmt env st s st (v ++ s.drop n)
  /-- a box that has a text: the text without dollars around it -/
  | text (st' : Boxes.State V) (v : Str) (n : Nat) : (fmt s).2 = 0 → Boxes.handle env st s = (st', some (.text v), n) → 0 < n →
      Replaced fmt env st s st' (stripDollars (strip v) ++ s.drop n)
  /-- another box -/
  | box (st' : Boxes.State V) (val : Option (Boxes.Value V)) (n : Nat) : (fmt s).2 = 0 → Boxes.handle env st s = (st', val, n) → 0 < n →
      (∀ v, val ≠ some (.text v)) → Replaced fmt env st s st' (s.drop n)

/-- Cleaning up a text: its commands are looked at from left to right, and what comes in the place of one is looked at again. -/
inductive _root_.L2J.Spec.Cleans {V} (fmt : Str → Str × Nat) (env : Boxes.Env V) : Boxes.State V → Str → Boxes.State V → Str → Prop
  | done (st s) : '\\' ∉ s → Cleans fmt env st s st s
  | keep (st t s st' out) : '\\' ∉ t → Unclaimed fmt env st ('\\' :: s) → Cleans fmt env st s st' out →
      Cleans fmt env st (t ++ '\\' :: s) st' (t ++ '\\' :: out)
  | take (st t s st1 s1 st' out) : '\\' ∉ t → Replaced fmt env st ('\\' :: s) st1 s1 → Cleans fmt env st1 s1 st' out →
      Cleans fmt env st (t ++ '\\' :: s) st' (t ++ out)

theorem box_zero {V} {env : Boxes.Env V} {st : Boxes.State V} {s : Str} (h : (Boxes.handle env st s).2.2 = 0) : (Boxes.handle env st s).1 = st := by
  unfold Boxes.handle at h ⊢
  cases hs : Boxes.matchSet s with
  | some m =>
    exfalso
    rw [hs] at h
    have hm : 0 < m.2 := by
      unfold Boxes.matchSet at hs
      split at hs
      · simp only at hs
        obtain ⟨n, _, hn⟩ := List.exists_of_findSome?_eq_some hs
        cases he : Boxes.matchEq ((List.drop 7 s |>.dropWhile isSpace).drop n.length) with
        | none => rw [he] at hn; cases hn
        | some e => rw [he] at hn; cases hn; simp only; omega
      · cases hs
    unfold Boxes.handleSetbox at h
    simp only at h
    repeat' split at h
    all_goals (simp only at h; omega)
  | none =>
    rw [hs] at h
    cases hv : Boxes.matchSaved s with
    | some m =>
      exfalso
      rw [hv] at h
      have hm : 0 < m.2.2 := by
        unfold Boxes.matchSaved at hv
        split at hv
        · split at hv
          · cases hv
          · simp only at hv
            split at hv
            · cases hv
            · cases hv; simp only; omega
        · cases hv
      unfold Boxes.handleSaved at h
      simp only at h
      repeat' split at h
      all_goals (simp only at h; omega)
    | none => rfl

theorem find_bs (t s : Str) (ht : '\\' ∉ t) : findSub ['\\'] (t ++ '\\' :: s) = some t.length := by
  refine Flat.findSub_spec _ (by simp) _ _ (by rw [List.drop_left]; exact ⟨s, rfl⟩) (fun k hk hp => ?_)
  obtain ⟨u, hu⟩ := hp
  rw [List.drop_append_of_le_length (by omega)] at hu
  cases hd : t.drop k with
  | nil => have : (t.drop k).length = 0 := by rw [hd]; rfl
           rw [List.length_drop] at this; omega
  | cons c d =>
    rw [hd] at hu
    have : '\\' = c := (List.cons.inj hu).1
    exact ht (List.mem_of_mem_drop (i := k) (by rw [hd, this]; simp))

theorem find_bs_none {s : Str} (h : '\\' ∉ s) : findSub ['\\'] s = none := by
  cases hf : findSub ['\\'] s with
  | none => rfl
  | some i =>
    have := (findSub_contains ['\\'] (by simp) s).1 (by rw [hf]; rfl)
    obtain ⟨a, b, rfl⟩ := this
    exact absurd (by simp) h

/-- The loop does what `Cleans` says. -/
theorem strip_cleans {V} {fmt : Str → Str × Nat} {env : Boxes.Env V} {st : Boxes.State V} {s : Str} {st' : Boxes.State V} {out : Str}
    (h : Cleans fmt env st s st' out) : ∃ N, ∀ fuel, N ≤ fuel → ∀ done, stripLoop fmt env fuel st done s = some (st', strip (done ++ out)) := by
  induction h with
  | done st s hs =>
    refine ⟨1, fun fuel hf dn => ?_⟩
    obtain ⟨n, rfl⟩ : ∃ n, fuel = n + 1 := ⟨fuel - 1, by omega⟩
    unfold stripLoop
    rw [find_bs_none hs]
  | keep st t s st' out ht hu _ ih =>
    obtain ⟨N, ih⟩ := ih
    refine ⟨N + 1, fun fuel hf dn => ?_⟩
    obtain ⟨n, rfl⟩ : ∃ n, fuel = n + 1 := ⟨fuel - 1, by omega⟩
    have e : (t ++ '\\' :: s : Str) = (t ++ ['\\']) ++ s := by simp
    have d1 : (t ++ '\\' :: s).drop (t.length + 1) = s := by rw [e, show t.length + 1 = (t ++ ['\\']).length by simp, List.drop_left]
    have d2 : (t ++ '\\' :: s).take (t.length + 1) = t ++ ['\\'] := by rw [e, show t.length + 1 = (t ++ ['\\']).length by simp, List.take_left]
    unfold stripLoop
    rw [find_bs t s ht]
    simp only [List.drop_left]
    rw [if_neg (by rw [hu.1]; omega), if_neg (by rw [hu.2]; omega), box_zero hu.2, d1, d2, ih n (by omega)]
    simp
  | take st t s st1 s1 st' out ht hr _ ih =>
    obtain ⟨N, ih⟩ := ih
    refine ⟨N + 1, fun fuel hf dn => ?_⟩
    obtain ⟨n, rfl⟩ : ∃ n, fuel = n + 1 := ⟨fuel - 1, by omega⟩
    unfold stripLoop
    rw [find_bs t s ht]
    simp only [List.drop_left, List.take_left]
    cases hr with
    | fmt v k hf' hk =>
      rw [hf', if_pos hk]
      simp only
      rw [ih n (by omega)]; simp
    | text _ v k hf' hb hk =>
      rw [if_neg (by omega), hb, if_pos hk]
      simp only [boxText]
      rw [ih n (by omega)]; simp
    | box _ val k hf' hb hk hv =>
      rw [if_neg (by omega), hb, if_pos hk]
      have : boxText val = [] := by
        unfold boxText
        split
        · exact absurd rfl (hv _)
        · rfl
      simp only [this, List.nil_append]
      rw [ih n (by omega)]; simp

theorem bs_split {s : Str} {i : Nat} (h : findSub ['\\'] s = some i) : ∃ t q, s = t ++ '\\' :: q ∧ '\\' ∉ t ∧ i = t.length := by
  have hm : '\\' ∈ s := by
    obtain ⟨a, b, e⟩ := (findSub_contains ['\\'] (by simp) s).1 (by rw [h]; rfl)
    rw [e]; simp
  have : ∀ s : Str, '\\' ∈ s → ∃ t q, s = t ++ '\\' :: q ∧ '\\' ∉ t := by
    intro s
    induction s with
    | nil => simp
    | cons c s ih =>
      intro hc
      by_cases h : c = '\\'
      · exact ⟨[], s, by rw [h]; rfl, by simp⟩
      · obtain ⟨t, q, e, ht⟩ := ih ((List.mem_cons.1 hc).resolve_left (fun e => h e.symm))
        exact ⟨c :: t, q, by rw [e]; rfl, by simp [ht, Ne.symm h]⟩
  obtain ⟨t, q, e, ht⟩ := this s hm
  subst e
  rw [find_bs t q ht] at h
  exact ⟨t, q, rfl, ht, by cases h; rfl⟩

/-- … and nothing else. -/
theorem cleans_strip {V} {fmt : Str → Str × Nat} {env : Boxes.Env V} : ∀ (fuel : Nat) {st : Boxes.State V} {dn s : Str} {st' : Boxes.State V} {o : Str},
    stripLoop fmt env fuel st dn s = some (st', o) → ∃ out, Cleans fmt env st s st' out ∧ o = strip (dn ++ out)
  | 0, _, _, _, _, _, h => by cases h
  | n + 1, st, dn, s, st', o, h => by
    unfold stripLoop at h
    cases hf : findSub ['\\'] s with
    | none =>
      rw [hf] at h
      cases h
      refine ⟨s, .done _ _ (fun hm => ?_), rfl⟩
      have := (findSub_contains ['\\'] (by simp) s).2 (by
        obtain ⟨a, b, e⟩ := List.append_of_mem hm
        exact ⟨a, b, by rw [e]; simp⟩)
      rw [hf] at this; cases this
    | some i =>
      obtain ⟨t, q, rfl, ht, rfl⟩ := bs_split hf
      rw [hf] at h
      simp only [List.drop_left, List.take_left] at h
      split at h
      · rename_i hp
        obtain ⟨out, h1, h2⟩ := cleans_strip n h
        exact ⟨t ++ out, .take _ t q _ _ _ _ ht (.fmt _ _ rfl hp) h1, by rw [h2]; simp⟩
      · rename_i hp
        split at h
        · rename_i hb
          obtain ⟨out, h1, h2⟩ := cleans_strip n h
          refine ⟨t ++ out, .take _ t q _ _ _ _ ht ?_ h1, by rw [h2]; simp⟩
          unfold boxText
          split
          · rename_i v hv
            exact .text _ v _ (by omega) (by rw [← hv]) hb
          · rename_i hv
            exact .box _ _ _ (by omega) rfl hb (fun v hv' => hv v hv')
        · rename_i hb
          rw [box_zero (by omega)] at h
          have e : (t ++ '\\' :: q : Str) = (t ++ ['\\']) ++ q := by simp
          rw [show (t ++ '\\' :: q).drop (t.length + 1) = q by rw [e, show t.length + 1 = (t ++ ['\\']).length by simp, List.drop_left],
            show (t ++ '\\' :: q).take (t.length + 1) = t ++ ['\\'] by rw [e, show t.length + 1 = (t ++ ['\\']).length by simp, List.take_left]] at h
          obtain ⟨out, h1, h2⟩ := cleans_strip n h
          exact ⟨t ++ '\\' :: out, .keep _ t q _ _ ht ⟨by omega, by omega⟩ h1, by rw [h2]; simp⟩

/-! Commands for content. -/

/-- No command for content (a reference, a citation, a picture, …) is at a place in the text, whatever follows it. -/
def _root_.L2J.Spec.Contentless (t : Str) : Prop := ∀ k < t.length, ∀ q : Str, (q = [] ∨ q.head? = some '\\') → Content.canHandle ((t ++ q).drop k) = false

/-- The tokens of a result. -/
def _root_.L2J.Spec.outTokens : Content.Out → List Content.CTok
  | .none => []
  | .tok t => [t]
  | .toks l => l

/-- The command `c` gives these tokens (none, for a bookmark), whatever follows it. It is a backslash and letters, then no letter, digit or
`_`. -/
def _root_.L2J.Spec.Gives (c : Str) (toks : List Content.CTok) : Prop :=
  (∃ n d, c = '\\' :: (n ++ d) ∧ n ≠ [] ∧ (∀ x ∈ n, Cmds.isLetter x = true) ∧ ∃ y ∈ d.head?, isWord y = false) ∧
    ∀ al rest, ∃ out, Content.handle id al (c ++ rest) = .ok al out c.length ∧ outTokens out = toks

/-- A text with commands: `t`, then each command and the text behind it. -/
def _root_.L2J.Spec.withCommands : Str → List (Str × List Content.CTok × Str) → Str
  | t, [] => t
  | t, (c, _, u) :: r => t ++ (c ++ withCommands u r)

/-- The text with marks in place of the commands with tokens, counted from `n`; the commands without are gone. -/
def _root_.L2J.Spec.withMarks : Nat → Str → List (Str × List Content.CTok × Str) → Str
  | _, t, [] => t
  | n, t, (_, [], u) :: r => t ++ withMarks n u r
  | n, t, (_, _ :: _, u) :: r => t ++ ("___PLACEHOLDER_".toList ++ natStr n ++ "___".toList) ++ withMarks (n + 1) u r

/-- The marks with the tokens. -/
def _root_.L2J.Spec.marks : Nat → List (Str × List Content.CTok × Str) → List (Str × List Content.CTok)
  | _, [] => []
  | n, (_, [], _) :: r => marks n r
  | n, (_, tok :: toks, _) :: r => ("___PLACEHOLDER_".toList ++ natStr n ++ "___".toList, tok :: toks) :: marks (n + 1) r

theorem generic_inv {s : Str} {e : Nat} (h : matchGeneric s = some e) : ∃ n r, s = '\\' :: (n ++ r) ∧ n ≠ [] ∧ (∀ x ∈ n, Cmds.isLetter x = true) ∧ e = n.length + 1 := by
  unfold matchGeneric at h
  split at h
  · rename_i s
    simp only at h
    split at h
    · cases h
    · rename_i hn
      split at h
      · cases h
        refine ⟨s.takeWhile Cmds.isLetter, s.dropWhile Cmds.isLetter, by rw [List.takeWhile_append_dropWhile], by simpa using hn, fun x hx => ?_, rfl⟩
        have := List.all_takeWhile (p := Cmds.isLetter) (l := s)
        rw [List.all_eq_true] at this
        exact this x hx
      · cases h
  · cases h

theorem searchWith_inv {m : Str → Option Nat} : ∀ {s : Str} {a e : Nat}, searchWith m s = some (a, e) →
    a ≤ s.length ∧ (∃ l, m (s.drop a) = some l ∧ e = a + l) ∧ ∀ k < a, m (s.drop k) = none
  | [], a, e, h => by
    unfold searchWith at h
    cases hm : m [] with
    | none => rw [hm] at h; cases h
    | some l => rw [hm] at h; cases h; exact ⟨by simp, ⟨_, by simpa using hm, by simp⟩, by simp⟩
  | c :: s, a, e, h => by
    unfold searchWith at h
    cases hm : m (c :: s) with
    | some l => rw [hm] at h; cases h; exact ⟨by simp, ⟨_, by simpa using hm, by simp⟩, by simp⟩
    | none =>
      rw [hm] at h
      simp only at h
      cases hs : searchWith m s with
      | none => rw [hs] at h; cases h
      | some p =>
        rw [hs] at h
        cases h
        obtain ⟨h1, ⟨l, h2, h3⟩, h4⟩ := searchWith_inv (a := p.1) (e := p.2) hs
        refine ⟨by simp; omega, ⟨l, by simpa using h2, by omega⟩, fun k hk => ?_⟩
        cases k with
        | zero => simpa using hm
        | succ k => simp only [List.drop_succ_cons]; exact h4 k (by omega)

theorem search_none : ∀ (fuel : Nat) {s : Str}, (∀ k < s.length, Content.canHandle (s.drop k) = false) → searchContent fuel s = none
  | 0, _, _ => rfl
  | fuel + 1, s, h => by
    unfold searchContent
    cases hs : searchWith matchGeneric s with
    | none => rfl
    | some p =>
      obtain ⟨a, e⟩ := p
      obtain ⟨h1, ⟨l, h2, h3⟩, _⟩ := searchWith_inv hs
      obtain ⟨n, r, h4, _⟩ := generic_inv h2
      have ha : a < s.length := by
        have := congrArg List.length h4
        rw [List.length_drop] at this
        simp at this; omega
      simp only
      rw [h a ha, if_neg (by simp), search_none fuel (s := s.drop e) (fun k hk => by
        rw [List.drop_drop]; exact h (e + k) (by rw [List.length_drop] at hk; omega))]
      rfl

theorem search_hit : ∀ (fuel : Nat) (t q : Str), t.length < fuel → (∀ k < t.length, Content.canHandle ((t ++ '\\' :: q).drop k) = false) →
    (∃ e, matchGeneric ('\\' :: q) = some e) → Content.canHandle ('\\' :: q) = true → searchContent fuel (t ++ '\\' :: q) = some t.length
  | 0, t, _, h, _, _, _ => by omega
  | fuel + 1, t, q, hf, hq, ⟨e0, hg⟩, hc => by
    unfold searchContent
    cases hs : searchWith matchGeneric (t ++ '\\' :: q) with
    | none =>
      exfalso
      have : ∀ (t : Str), searchWith matchGeneric (t ++ '\\' :: q) ≠ none := by
        intro t
        induction t with
        | nil => simp [searchWith, hg]
        | cons x t ih =>
          rw [List.cons_append]
          unfold searchWith
          split
          · simp
          · cases hx : searchWith matchGeneric (t ++ '\\' :: q) with
            | none => exact absurd hx ih
            | some p => simp
      exact this t hs
    | some p =>
      obtain ⟨a, e⟩ := p
      obtain ⟨h1, ⟨l, h2, h3⟩, h4⟩ := searchWith_inv hs
      have ha : a ≤ t.length := by
        by_cases h : t.length < a
        · have := h4 _ h; rw [List.drop_left, hg] at this; cases this
        · omega
      simp only
      by_cases hat : a = t.length
      · rw [hat, List.drop_left, hc, if_pos rfl]
      · rw [hq a (by omega), if_neg (by simp)]
        obtain ⟨n, r, h5, hne, hlet, rfl⟩ := generic_inv h2
        rw [List.drop_append_of_le_length ha] at h5
        have hn : a + (n.length + 1) ≤ t.length := by
          have h6 : ('\\' :: n) ++ r = t.drop a ++ '\\' :: q := by rw [h5]; rfl
          rcases List.append_eq_append_iff.1 h6 with ⟨u, g1, g2⟩ | ⟨u, g1, g2⟩
          · have := congrArg List.length g1
            rw [List.length_drop, List.length_append] at this; simp only [List.length_cons] at this; omega
          · cases u with
            | nil =>
              have := congrArg List.length g1
              rw [List.length_append, List.length_drop] at this; simp only [List.length_cons, List.length_nil] at this; omega
            | cons x u =>
              exfalso
              have hx : '\\' = x := (List.cons.inj g2).1
              cases hd : t.drop a with
              | nil => have := congrArg List.length hd; rw [List.length_drop] at this; simp at this; omega
              | cons y d =>
                rw [hd] at g1
                have : n = d ++ x :: u := (List.cons.inj g1).2
                have := hlet x (by rw [this]; simp)
                rw [← hx] at this
                revert this; decide
        subst h3
        rw [List.drop_append_of_le_length hn]
        rw [search_hit fuel (t.drop (a + (n.length + 1))) q (by rw [List.length_drop]; omega) (fun k hk => by
          have := hq (a + (n.length + 1) + k) (by rw [List.length_drop] at hk; omega)
          rw [← List.drop_drop, List.drop_append_of_le_length hn] at this
          exact this) ⟨e0, hg⟩ hc]
        simp only [Option.map_some, List.length_drop]
        congr 1; omega

theorem canHandle_gives {c : Str} {tok : List Content.CTok} (h : Gives c tok) (rest : Str) : Content.canHandle (c ++ rest) = true := by
  obtain ⟨out, this, _⟩ := h.2 [] rest
  unfold Content.handle at this
  unfold Content.canHandle
  cases hp : Content.firstPattern (c ++ rest) Content.patterns with
  | none =>
    rw [hp] at this
    obtain ⟨⟨n, d, rfl, _⟩, _⟩ := h
    simp at this
  | some p => rfl

theorem letter_word {c : Char} (h : Cmds.isLetter c = true) : isWord c = true := by
  simp only [Cmds.isLetter, Bool.or_eq_true] at h
  simp only [isWord, Bool.or_eq_true]
  rcases h with h | h
  · exact .inl (.inl (.inl h))
  · exact .inl (.inl (.inr h))

theorem generic_gives {c : Str} {tok : List Content.CTok} (h : Gives c tok) (rest : Str) : ∃ q, c ++ rest = '\\' :: q ∧ ∃ e, matchGeneric ('\\' :: q) = some e := by
  obtain ⟨⟨n, d, rfl, hn, hl, y, hy, hyw⟩, _⟩ := h
  refine ⟨n ++ d ++ rest, rfl, n.length + 1, ?_⟩
  cases d with
  | nil => simp at hy
  | cons z d =>
    simp at hy
    subst hy
    have hz : Cmds.isLetter z = false := by
      by_cases h : Cmds.isLetter z = true
      · rw [letter_word h] at hyw; cases hyw
      · simpa using h
    have tw : (n ++ z :: d ++ rest).takeWhile Cmds.isLetter = n := by
      rw [List.append_assoc, List.takeWhile_append_of_pos hl]; simp [hz]
    unfold matchGeneric
    simp only [tw]
    rw [if_neg (by simpa using hn), List.append_assoc, List.drop_left, if_pos]
    unfold boundary
    obtain ⟨z', x, rfl⟩ := List.eq_nil_or_concat n |>.resolve_left hn
    simp [letter_word (hl x (by simp)), hyw]

theorem place_step {fuel n a e : Nat} {al : Dict Str} {s : Str} {out : Content.Out} {toks : List Content.CTok} (hs : searchContent (s.length + 1) s = some a)
    (hh : Content.handle id al (s.drop a) = .ok al out e) (ho : outTokens out = toks) (he : 0 < e) :
    placeLoop (fuel + 1) al n s = match toks with
      | [] => (placeLoop fuel al n (s.drop (a + e))).prepend (s.take a) []
      | t :: ts => (placeLoop fuel al (n + 1) (s.drop (a + e))).prepend (s.take a ++ placeholder n) [(placeholder n, t :: ts)] := by
  have ht : tokensOf out = toks := by rw [← ho]; cases out <;> rfl
  conv => lhs; unfold placeLoop
  rw [hs]
  simp only [hh, ht, he, if_true]
  cases toks <;> rfl

theorem place_pieces : ∀ (r : List (Str × List Content.CTok × Str)) (fuel n : Nat) (al : Dict Str) (t : Str), r.length < fuel → Contentless t →
    (∀ e ∈ r, Gives e.1 e.2.1 ∧ Contentless e.2.2) → placeLoop fuel al n (withCommands t r) = .ok al (withMarks n t r) (marks n r)
  | [], fuel, n, al, t, hf, ht, _ => by
    obtain ⟨f, rfl⟩ : ∃ f, fuel = f + 1 := ⟨fuel - 1, by simp at hf; omega⟩
    unfold placeLoop withCommands
    rw [search_none _ (fun k hk => by simpa using ht k hk [] (.inl rfl))]
    rfl
  | (c, tok, u) :: r, fuel, n, al, t, hf, ht, hr => by
    obtain ⟨f, rfl⟩ : ∃ f, fuel = f + 1 := ⟨fuel - 1, by simp at hf; omega⟩
    obtain ⟨hg, hu⟩ := hr (c, tok, u) (by simp)
    obtain ⟨q, hq, he⟩ := generic_gives hg (withCommands u r)
    have hs : searchContent ((t ++ (c ++ withCommands u r)).length + 1) (t ++ (c ++ withCommands u r)) = some t.length := by
      simp only [hq]
      exact search_hit _ t q (by simp; omega) (fun k hk => ht k hk _ (.inr rfl)) he (by rw [← hq]; exact canHandle_gives hg _)
    have hc : 0 < c.length := by
      obtain ⟨⟨n, d, rfl, _⟩, _⟩ := hg; simp
    obtain ⟨out, h1, h2⟩ := hg.2 al (withCommands u r)
    rw [withCommands, place_step hs (by rw [List.drop_left]; exact h1) h2 hc, List.take_left, show (t ++ (c ++ withCommands u r)).drop (t.length + c.length) = withCommands u r by
      rw [← List.append_assoc, ← List.length_append, List.drop_left],
      place_pieces r f (n + 1) al u (by simp at hf; omega) hu (fun e he => hr e (by simp [he])),
      place_pieces r f n al u (by simp at hf; omega) hu (fun e he => hr e (by simp [he]))]
    cases tok <;> rfl

theorem place_spec (r : List (Str × List Content.CTok × Str)) (al : Dict Str) (t : Str) (ht : Contentless t) (hr : ∀ e ∈ r, Gives e.1 e.2.1 ∧ Contentless e.2.2) :
    place al (withCommands t r) = .ok al (withMarks 0 t r) (marks 0 r) := by
  refine place_pieces r _ 0 al t ?_ ht hr
  have : ∀ (r : List (Str × List Content.CTok × Str)) (t : Str), (∀ e ∈ r, Gives e.1 e.2.1) → r.length ≤ (withCommands t r).length := by
    intro r
    induction r with
    | nil => intro t _; simp
    | cons e r ih =>
      intro t h
      obtain ⟨c, tok, u⟩ := e
      have := ih u (fun e he => h e (by simp [he]))
      obtain ⟨⟨n, d, hc, _⟩, _⟩ := h (c, tok, u) (by simp)
      simp only at hc
      simp only [withCommands, List.length_append, List.length_cons, hc]; omega
  have := this r t (fun e he => (hr e he).1)
  omega

/-- The steps of the handler behind the recognition of the formula. -/
theorem handle_steps {V} {order : List Str} {process : Str → Str} {fmt : Str → Str × Nat} {env : Boxes.Env V} {st : State V} {s : Str} {k : Kind} {m : Str × Nat}
    (hm : firstKind s (kinds order) = some (k, m)) (hb : strip m.1 ≠ [])
    {t : Str} {ls : List (Str × Str × Str)} {e : Nat} (hbody : Eqn.body k m s = (withLabels t ls, e)) (hl : LabelsOk t ls)
    {core : Str} (hcore : core = if ls = [] then t else strip (withoutLabels t ls)) (hp : NoPair core)
    {boxes : Boxes.State V} {clean : Str} (hcl : Cleans fmt env st.boxes (process core) boxes clean)
    {u : Str} {cs : List (Str × List Content.CTok × Str)} (hu : strip clean = withCommands u cs) (hq : Contentless u) (hcs : ∀ e ∈ cs, Gives e.1 e.2.1 ∧ Contentless e.2.2) :
    ∃ N, ∀ fuel, N ≤ fuel → handle order process fmt env fuel st s =
      .ok ⟨boxes, st.aliases⟩ (some ⟨withMarks 0 u cs, k.isBlock, k.isAlign, Eqn.isNumbered k (s.take m.2), ls.map (·.2.1), marks 0 cs⟩) e := by
  obtain ⟨N, hN⟩ := strip_cleans hcl
  refine ⟨N + 1, fun fuel hf => ?_⟩
  obtain ⟨n, rfl⟩ : ∃ n, fuel = n + 1 := ⟨fuel - 1, by omega⟩
  unfold handle
  rw [hm]
  simp only
  rw [if_neg (by simpa using hb), hbody]
  simp only
  rw [C52_labels t ls hl, ← hcore]
  simp only
  rw [convert_none hp n]
  simp only
  rw [hN (n + 1) (by omega) []]
  simp only [List.nil_append]
  rw [hu, place_spec cs st.aliases u hq hcs]

/-- C52: a formula gives one token. Its text is what is between the delimiters, without the labels, expanded by `process`, cleaned up, and
with marks in place of its references, citations and pictures; whether it is displayed, aligned and numbered and its labels are kept;
nothing behind the formula is used. -/
theorem C52_formula_partial {V} (order : List Str) (ho : SomeOrder order) (process : Str → Str) (fmt : Str → Str × Nat) (env : Boxes.Env V) (st : State V)
    (w : Formula) (hw : w.Ok) (hb : strip w.body ≠ []) (rest : Str)
    (t : Str) (ls : List (Str × Str × Str)) (ht : w.Text (withLabels t ls)) (hl : LabelsOk t ls)
    (core : Str) (hcore : core = if ls = [] then t else strip (withoutLabels t ls)) (hp : NoPair core)
    (boxes : Boxes.State V) (clean : Str) (hcl : Cleans fmt env st.boxes (process core) boxes clean)
    (u : Str) (cs : List (Str × List Content.CTok × Str)) (hu : strip clean = withCommands u cs) (hq : Contentless u) (hcs : ∀ e ∈ cs, Gives e.1 e.2.1 ∧ Contentless e.2.2) :
    ∃ N, ∀ fuel, N ≤ fuel → handle order process fmt env fuel st (w.render ++ rest) =
      .ok ⟨boxes, st.aliases⟩ (some ⟨withMarks 0 u cs, w.isDisplay, w.isAligned, w.isNumbered, ls.map (·.2.1), marks 0 cs⟩) w.render.length := by
  have := handle_steps (first_formula order ho w hw (by rintro rfl; exact hb rfl) rest) hb (body_text w _ _ _ ht) hl hcore hp hcl hu hq hcs
  rw [display_spec, aligned_spec w hw, numbered_spec w hw rest] at this
  exact this

/-- C52: an inline formula with other formulas in braces (as in `$x \text{ if $a$}$`) goes on to the first dollar that is in no braces.
`p` is the part before the first dollar. -/
theorem C52_nested_partial {V} (order : List Str) (ho : SomeOrder order) (process : Str → Str) (fmt : Str → Str × Nat) (env : Boxes.Env V) (st : State V)
    (p q b rest : Str) (hpq : b = p ++ '$' :: q) (hd : '$' ∉ p) (hun : ¬ Balanced (strip p) '{' '}')
    (htop : TopDelimAt ('$' :: (b ++ '$' :: rest)) ['$'] 1 (1 + b.length)) (hmin : ∀ j < 1 + b.length, ¬ TopDelimAt ('$' :: (b ++ '$' :: rest)) ['$'] 1 j)
    (t : Str) (ls : List (Str × Str × Str)) (ht : strip b = withLabels t ls) (hl : LabelsOk t ls)
    (core : Str) (hcore : core = if ls = [] then t else strip (withoutLabels t ls)) (hp : NoPair core)
    (boxes : Boxes.State V) (clean : Str) (hcl : Cleans fmt env st.boxes (process core) boxes clean)
    (u : Str) (cs : List (Str × List Content.CTok × Str)) (hu : strip clean = withCommands u cs) (hq : Contentless u) (hcs : ∀ e ∈ cs, Gives e.1 e.2.1 ∧ Contentless e.2.2) :
    ∃ N, ∀ fuel, N ≤ fuel → handle order process fmt env fuel st ('$' :: (b ++ '$' :: rest)) =
      .ok ⟨boxes, st.aliases⟩ (some ⟨withMarks 0 u cs, false, false, false, ls.map (·.2.1), marks 0 cs⟩) (b.length + 2) := by
  have hne : strip p ≠ [] := by
    intro h; rw [h] at hun; exact hun ((C03_balance_iff _ _ _).1 (by decide))
  have h0 : Formula.render (.inline p) ++ (q ++ '$' :: rest) = '$' :: (b ++ '$' :: rest) := by
    rw [hpq]; simp [Formula.render]
  have hf := first_formula order ho (.inline p) hd (by intro h; injection h with h; rw [h] at hne; exact hne rfl) (q ++ '$' :: rest)
  rw [h0] at hf
  have hb : Eqn.body (kindOf (.inline p)) (Formula.body (.inline p), (Formula.render (.inline p)).length) ('$' :: (b ++ '$' :: rest)) =
      (withLabels t ls, b.length + 2) := by
    unfold Eqn.body kindOf Formula.body
    simp only
    rw [if_neg (by rw [C03_balance_iff]; exact hun)]
    have := (C04_equation_iff ('$' :: (b ++ '$' :: rest)) ['$'] (by simp) (by simp) (by simp) (strip b) (b.length + 2)).2
      ⟨⟨_, rfl⟩, 1 + b.length, htop, hmin, by simp; omega, by
        unfold slice
        congr 1
        rw [List.drop_take, show ['$'].length = 1 from rfl, Nat.add_sub_cancel_left]
        simp⟩
    unfold Kind.delimiter
    simp only [show "$".toList = ['$'] from rfl, this, ht]
    rw [if_pos (by omega)]
  exact handle_steps hf hne hb hl hcore hp hcl hu hq hcs

/-- A text without a backslash has no command. -/
theorem contentless_plain {t : Str} (h : '\\' ∉ t) : Contentless t := by
  intro k hk q _
  rw [List.drop_append_of_le_length (by omega)]
  cases hd : t.drop k with
  | nil => have := congrArg List.length hd; rw [List.length_drop] at this; simp at this; omega
  | cons c d =>
    have hc : c ≠ '\\' := by rintro rfl; exact h (List.mem_of_mem_drop (i := k) (by rw [hd]; simp))
    unfold Content.canHandle
    rw [List.cons_append]
    have : ∀ ps, Content.firstPattern (c :: (d ++ q)) ps = none := by
      intro ps
      induction ps with
      | nil => rfl
      | cons p ps ih =>
        unfold Content.firstPattern
        have hm : (Content.patternRe p).matchAt [] (c :: (d ++ q)) = none := by
          unfold Re.matchAt Content.patternRe
          have : (Re.seq (.lit ['\\']) (.seq p.2.1.re p.2.2)).run ⟨[], c :: (d ++ q), []⟩ = [] := by
            simp [Re.run, Re.lit, hc]
          rw [this]
        rw [hm]
        exact ih
    rw [this]; rfl

theorem noPair_plain {t : Str} (h : '\\' ∉ t) : NoPair t := by
  intro a n b c _ _ e
  exact h (by rw [e]; simp)

/-- C52, the plain case: a formula without any command has exactly its text. -/
theorem C52_plain {V} (order : List Str) (ho : SomeOrder order) (fmt : Str → Str × Nat) (env : Boxes.Env V) (st : State V)
    (w : Formula) (hw : w.Ok) (hb : strip w.body ≠ []) (hbs : '\\' ∉ w.body) (ht : w.Text (strip w.body)) (rest : Str) :
    ∃ N, ∀ fuel, N ≤ fuel → handle order id fmt env fuel st (w.render ++ rest) =
      .ok st (some ⟨strip w.body, w.isDisplay, w.isAligned, w.isNumbered, [], []⟩) w.render.length := by
  have hs : '\\' ∉ strip w.body := fun h => hbs (by
    obtain ⟨p, q, _, _, e⟩ := strip_decomp w.body
    rw [e]; simp [h])
  have := C52_formula_partial order ho id fmt env st w hw hb rest (strip w.body) [] ht
    ⟨fun x _ ⟨a, b, e⟩ => hs (by rw [e]; simp), by simp⟩ (strip w.body) rfl (noPair_plain hs) st.boxes (strip w.body) (.done _ _ hs)
    (strip w.body) [] (by rw [strip_strip]; rfl) (contentless_plain hs) (by simp)
  simpa [withMarks, marks] using this

/-- C52: nothing but blanks between the delimiters gives no token, and the delimiters are passed. -/
theorem C52_empty {V} (order : List Str) (ho : SomeOrder order) (process : Str → Str) (fmt : Str → Str × Nat) (env : Boxes.Env V) (fuel : Nat) (st : State V)
    (w : Formula) (hw : w.Ok) (hb : strip w.body = []) (hne : w ≠ .inline []) (rest : Str) :
    handle order process fmt env fuel st (w.render ++ rest) = .ok st none w.render.length := by
  unfold handle
  rw [first_formula order ho w hw hne rest]
  simp only
  rw [if_pos (by rw [hb]; rfl)]

/-- A formula that is opened and not closed (for `\( … \)`: on the same line). -/
inductive _root_.L2J.Spec.Unclosed : Str → Prop
  | inline (t : Str) : '$' ∉ t → Unclosed ('$' :: t)
  | brackets (t : Str) : ¬ Contains t "\\]".toList → Unclosed ("\\[".toList ++ t)
  | parens (t : Str) : (∀ a b, t = a ++ ("\\)".toList ++ b) → '\n' ∈ a) → Unclosed ("\\(".toList ++ t)
  | env (n : String) (w t : Str) (star : Bool) : n ∈ formulaEnvs → (∀ c ∈ w, isSpace c = true) →
      (∀ w' s, (∀ c ∈ w', isSpace c = true) → ¬ Contains t (tag "\\end".toList w' n.toList s)) → Unclosed (tag "\\begin".toList w n.toList star ++ t)

theorem searchTag_none {n t : Str} (h : ∀ w s, (∀ c ∈ w, isSpace c = true) → ¬ Contains t (tag "\\end".toList w n s)) :
    searchWith (matchTag "\\end".toList n) t = none := by
  cases hs : searchWith (matchTag "\\end".toList n) t with
  | none => rfl
  | some p =>
    obtain ⟨a, e⟩ := p
    obtain ⟨_, ⟨l, hl, _⟩, _⟩ := searchWith_inv hs
    obtain ⟨w, star, r, hr, hw, _⟩ := tag_inv hl
    exact absurd ⟨t.take a, r, by rw [List.append_assoc, ← hr, List.take_append_drop]⟩ (h w star hw)

theorem findSub_split {d : Str} : ∀ {s : Str} {i : Nat}, findSub d s = some i → ∃ b, s = s.take i ++ (d ++ b)
  | [], i, h => by
    unfold findSub at h
    split at h
    · rename_i hd; cases h; exact ⟨[], by simp_all⟩
    · cases h
  | c :: s, i, h => by
    unfold findSub at h
    split at h
    · rename_i hd
      cases h
      obtain ⟨b, hb⟩ := List.isPrefixOf_iff_prefix.1 hd
      exact ⟨b, by rw [List.take_zero, List.nil_append, hb]⟩
    · cases hs : findSub d s with
      | none => rw [hs] at h; cases h
      | some k =>
        rw [hs] at h
        cases h
        obtain ⟨b, hb⟩ := findSub_split hs
        refine ⟨b, ?_⟩
        rw [List.take_succ_cons, List.cons_append, ← hb]

/-- C52: a formula that is not closed is left alone: no token, nothing is consumed. -/
theorem C52_unclosed {V} (order : List Str) (ho : SomeOrder order) (process : Str → Str) (fmt : Str → Str × Nat) (env : Boxes.Env V) (fuel : Nat) (st : State V)
    (s : Str) (hs : Unclosed s) : handle order process fmt env fuel st s = .ok st none 0 := by
  suffices hk : firstKind s (kinds order) = none by unfold handle; rw [hk]
  have rest : ∀ s, (∀ x ∈ order, matchKind (.env x) s = none) → matchKind .dollars s = none → matchKind .dollar s = none → matchKind .brackets s = none →
      matchKind .parens s = none → firstKind s (kinds order) = none := by
    intro s h0 h1 h2 h3 h4
    unfold kinds
    rw [firstKind_skip _ order h0]
    simp only [firstKind, h1, h2, h3, h4]
  cases hs with
  | inline t ht =>
    refine rest _ (fun x _ => rfl) ?_ ?_ rfl rfl
    · cases t with
      | nil => rfl
      | cons c t =>
        have : c ≠ '$' := fun h => ht (by simp [h])
        unfold matchKind
        rw [if_neg]
        simp only [startsWith]
        rw [show "$$".toList = ['$', '$'] from rfl]
        simp [List.isPrefixOf, Ne.symm this]
    · have e : t.takeWhile (· != '$') = t := by
        have := List.takeWhile_append_of_pos (p := (· != '$')) (l₁ := t) (l₂ := []) (fun x hx => by simpa using fun h : x = '$' => ht (h ▸ hx))
        simpa using this
      unfold matchKind
      simp only [List.drop_one, List.tail_cons, e, List.drop_length, List.head?_nil]
      simp
  | brackets t ht =>
    refine rest _ (fun x _ => rfl) rfl rfl ?_ rfl
    have : findSub "\\]".toList t = none := by
      cases h : findSub "\\]".toList t with
      | none => rfl
      | some i => exact absurd ((findSub_contains _ (by decide) t).1 (by rw [h]; rfl)) ht
    show (findSub "\\]".toList t).map _ = none
    rw [this]
    rfl
  | parens t ht =>
    refine rest _ (fun x _ => rfl) rfl rfl rfl ?_
    show (findSub "\\)".toList t).bind _ = none
    cases h : findSub "\\)".toList t with
    | none => rfl
    | some i =>
      obtain ⟨b, hb⟩ := findSub_split h
      have hn := ht (t.take i) b hb
      show (if (t.take i).contains '\n' then none else _) = none
      rw [if_pos (by simpa using hn)]
  | env n w t star hn hw ht =>
    refine rest _ (fun x hx => ?_) rfl rfl rfl rfl
    obtain ⟨y, hy, rfl⟩ := (ho x).1 hx
    by_cases hxy : y.toList = n.toList
    · unfold matchKind
      simp only [hxy, tag_hit _ w n.toList t star hw, List.drop_left]
      rw [searchTag_none ht]
      rfl
    · unfold matchKind
      cases hm : matchTag "\\begin".toList y.toList (tag "\\begin".toList w n.toList star ++ t) with
      | none => simp only [hm]
      | some e =>
        obtain ⟨w', s', r, hr, hw', _⟩ := tag_inv hm
        exact absurd (tag_unique hw hw' (env_names_plain n hn).2 (env_names_plain y hy).2 hr).symm hxy

/-- C52 does not hold for `\[ … \]` and `\( … \)` with unbalanced braces: the closing delimiter is looked for at the start, where the
opening one is, and the text of the formula is lost. -/
theorem C52_violated_brackets {V} (order : List Str) (ho : SomeOrder order) (process : Str → Str) (hpr : process [] = []) (fmt : Str → Str × Nat) (env : Boxes.Env V)
    (fuel : Nat) (st : State V) (b rest : Str) (round : Bool) (w : Formula) (hround : w = if round then .parens b else .brackets b) (hw : w.Ok)
    (hun : ¬ Balanced (strip b) '{' '}') :
    handle order process fmt env (fuel + 1) st (w.render ++ rest) = .ok st (some ⟨[], !round, false, false, [], []⟩) w.render.length := by
  have hne : strip b ≠ [] := by
    intro h; rw [h] at hun; exact hun ((C03_balance_iff _ _ _).1 (by decide))
  have hf := first_formula order ho w hw (by rintro rfl; cases round <;> cases hround) rest
  unfold handle
  rw [hf]
  have hbody : w.body = b := by rw [hround]; cases round <;> rfl
  simp only [hbody]
  rw [if_neg (by simpa using hne)]
  have hb : Eqn.body (kindOf w) (b, w.render.length) (w.render ++ rest) = ([], w.render.length) := by
    have hx : ∀ (c1 c2 : Char) (r : Str), c1 ≠ c2 → extractEquationContent ('\\' :: c1 :: r) ['\\', c2] = none := by
      intro c1 c2 r h
      unfold extractEquationContent
      rw [if_pos (by simp [startsWith, List.isPrefixOf, Ne.symm h])]
    rw [hround]
    cases round
    · unfold Eqn.body kindOf
      simp only [Bool.false_eq_true, if_false]
      rw [if_neg (by rw [C03_balance_iff]; exact hun)]
      have := hx '[' ']' (b ++ "\\]".toList ++ rest) (by decide)
      simp only [Formula.render, Kind.delimiter, show "\\]".toList = ['\\', ']'] from rfl, show "\\[".toList = ['\\', '['] from rfl, List.cons_append, List.nil_append] at this ⊢
      rw [this]
    · unfold Eqn.body kindOf
      simp only [if_true]
      rw [if_neg (by rw [C03_balance_iff]; exact hun)]
      have := hx '(' ')' (b ++ "\\)".toList ++ rest) (by decide)
      simp only [Formula.render, Kind.delimiter, show "\\)".toList = ['\\', ')'] from rfl, show "\\(".toList = ['\\', '('] from rfl, List.cons_append, List.nil_append] at this ⊢
      rw [this]
  rw [hb]
  have h1 : handleLabels [] = ([], []) := rfl
  simp only [h1]
  rw [convert_none (noPair_plain (by simp)) fuel]
  simp only [hpr]
  have h2 : stripLoop fmt env (fuel + 1) st.boxes [] [] = some (st.boxes, []) := rfl
  rw [h2]
  have h3 : place st.aliases [] = .ok st.aliases [] [] := rfl
  simp only [h3]
  rw [hround]
  cases round <;> rfl

/-- C52 does not hold for an escaped dollar: the formula ends there. -/
theorem C52_violated_dollar {V} (order : List Str) (ho : SomeOrder order) (process : Str → Str) (fmt : Str → Str × Nat) (env : Boxes.Env V) (st : State V)
    (a rest : Str) (ha : '$' ∉ a) (hbal : Balanced (strip (a ++ ['\\'])) '{' '}') (hl : LabelsOk (strip (a ++ ['\\'])) []) (hp : NoPair (strip (a ++ ['\\'])))
    (boxes : Boxes.State V) (clean : Str) (hcl : Cleans fmt env st.boxes (process (strip (a ++ ['\\']))) boxes clean) (hq : Contentless (strip clean)) :
    ∃ N, ∀ fuel, N ≤ fuel → handle order process fmt env fuel st ('$' :: (a ++ '\\' :: '$' :: rest)) =
      .ok ⟨boxes, st.aliases⟩ (some ⟨strip clean, false, false, false, [], []⟩) (a.length + 3) := by
  have hne : strip (a ++ ['\\']) ≠ [] := by
    obtain ⟨b, hb, _⟩ := strip_last a '\\' (by decide)
    rw [hb]; simp
  have := C52_formula_partial order ho process fmt env st (.inline (a ++ ['\\'])) (by show '$' ∉ _; simp [ha]) hne rest (strip (a ++ ['\\'])) [] ⟨rfl, hbal⟩ hl _ rfl hp
    boxes clean hcl (strip clean) [] rfl hq (by simp)
  simpa [Formula.render, Formula.isDisplay, Formula.isAligned, Formula.isNumbered, withMarks, marks] using this

/-! Examples. -/

/-- Nothing is taken. -/
def quietFmt : Str → Str × Nat := fun _ => ([], 0)
/-- Boxes: no other box. -/
def quietBox : Boxes.Env Unit := ⟨none, fun _ => false, fun _ => (none, 0)⟩

/-- The token and the end. -/
def shown {V} : Res V → Option (Option Tok × Nat)
  | .ok _ t n => some (t, n)
  | _ => none

/-- The environments in the order they are written. -/
theorem some_order : SomeOrder envNames := by
  intro n
  unfold envNames formulaEnvs
  simp

example : Formula.Ok (.env "align".toList [] true "a &= b \\\\ \\label{eq}c".toList " ".toList true) := by
  refine ⟨⟨"align", by decide, rfl⟩, by simp, by decide, fun w s hw hc => ?_⟩
  have : ¬ Contains "a &= b \\\\ \\label{eq}c".toList "\\end".toList := by
    intro h
    have := (findSub_contains "\\end".toList (by decide) _).2 h
    revert this; decide
  obtain ⟨p, q, e⟩ := hc
  exact this ⟨p, w ++ '{' :: ("align".toList ++ ((if s then ['*'] else []) ++ ['}'])) ++ q, by rw [e]; simp [tag]⟩

example : shown (handle envNames id quietFmt quietBox 50 ⟨Boxes.empty, []⟩ "\\begin{align}a &= b \\\\ \\label{eq}c\\end {align} x".toList) =
    some (some ⟨"a &= b \\\\ c".toList, true, true, true, ["eq".toList], []⟩, 46) := by decide +kernel

example : Gives "\\eqref{eq:a}".toList [⟨"ref".toList, .keys ["eq:a".toList], none, none, none, none, none⟩] := by
  refine ⟨⟨"eqref".toList, "{eq:a}".toList, rfl, by decide, by decide, '{', by decide, by decide⟩, fun al rest => ?_⟩
  refine ⟨.tok _, ?_, rfl⟩
  exact Content.C47_ref al "eqref".toList (by decide) (by decide) false [] "eq:a".toList rest (by simp) (Boxes.wrappable_nobrace _ (by decide) (by decide))

/-- A command without a token. -/
example : Gives "\\graphicspath{p}".toList [] := by
  refine ⟨⟨"graphicspath".toList, "{p}".toList, rfl, by decide, by decide, '{', by decide, by decide⟩, fun al rest => ⟨.none, ?_, rfl⟩⟩
  exact Content.C54_argument al "graphicspath".toList none (by decide) [] "p".toList rest (by simp) (Boxes.wrappable_nobrace _ (by decide) (by decide))

example : shown (handle envNames id quietFmt quietBox 50 ⟨Boxes.empty, []⟩ "$a \\graphicspath{p} b$".toList) =
    some (some ⟨"a  b".toList, false, false, false, [], []⟩, 22) := by decide +kernel

example : Unclosed "$5 for a\\n book".toList := .inline _ (by decide)

example : Unclosed "\\(a\n\\)".toList := by
  have h0 : ∀ a b : Str, ['a', '\n', '\\', ')'] = a ++ (['\\', ')'] ++ b) → '\n' ∈ a := by
    intro a b h
    match a, h with
    | [], h => injection h with h _; cases h
    | [_], h => injection h with _ h; injection h with h _; cases h
    | _ :: y :: _, h => injection h with _ h; injection h with h _; simp [← h]
  exact .parens "a\n\\)".toList h0

example : shown (handle envNames id quietFmt quietBox 50 ⟨Boxes.empty, []⟩ "$a \\mbox{see \\eqref{k}} b$".toList) =
    some (some ⟨"a \\mbox{see ___PLACEHOLDER_0___} b".toList, false, false, false, [],
      [("___PLACEHOLDER_0___".toList, [⟨"ref".toList, .keys ["k".toList], none, none, none, none, none⟩])]⟩, 26) := by decide +kernel
