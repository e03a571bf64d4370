import Verif.Props.C63c
import Verif.Props.C62d
import Verif.Props.C61e
/-! C63: conditionals whose branches are in braces, where a conditional ends, and what goes wrong. -/
namespace L2J.Cond
open Spec Defn Cmds Fmt

theorem firstIf_skip {s : Str} : ∀ (l l2 : List (Str × Re × Re)), (∀ x ∈ l, Dead x.2.1 s) → firstIf s (l ++ l2) = firstIf s l2
  | [], _, _ => rfl
  | x :: l, l2, h => by rw [List.cons_append, firstIf, (h x (by simp)).matchAt, firstIf_skip l l2 fun y hy => h y (by simp [hy])]

/-- A command `w` that needs a group. -/
theorem first_brace {ns : List Str} {name w ws X : Str} {i : Nat} (hns : ∀ m ∈ ns, ¬ ("\\if".toList ++ m) <+: w ++ (ws ++ ['{'] ++ X)) (hws : Blank ws)
    (hi : defaults[i]? = some (name, .seq (.lit w) wsOpen, .seq (.lit w) wsOpen)) (hd : ∀ x ∈ defaults.take i, Dead x.2.1 (w ++ (ws ++ ['{'] ++ X))) :
    firstIf (w ++ (ws ++ ['{'] ++ X)) (allIfs ns) = some (name, ⟨[], w ++ (ws ++ ['{'] ++ X), w.length + (ws ++ ['{']).length, []⟩) := by
  unfold allIfs
  rw [firstIf_skip _ _ (by
    intro x hx
    obtain ⟨m, hm, rfl⟩ := List.mem_map.1 hx
    exact Dead.seq (Dead.lit (hns m hm)))]
  obtain ⟨hlt, hget⟩ := List.getElem?_eq_some_iff.1 hi
  rw [← List.take_append_drop i defaults, firstIf_skip _ _ hd, List.drop_eq_getElem_cons hlt, hget, firstIf]
  have he : Eats (.seq (.lit w) wsOpen) (w ++ (ws ++ ['{'])) X [] [] := Eats.seq (Eats.lit _ _ _) (open_eats hws)
  have := he.matchAt []
  rw [show w ++ (ws ++ ['{']) ++ X = w ++ (ws ++ ['{'] ++ X) by simp] at this
  simp only [this, List.length_append]

/-- The groups behind the command. -/
theorem blocks_here {w ws a rest : Str} {l : List (Str × Str)} (hl : WellWrapped '{' '}' ((ws, a) :: l)) :
    seqBlocks ((w ++ (wrapAll '{' '}' ((ws, a) :: l) ++ rest)).drop (w.length + (ws ++ ['{']).length - 1)) '{' '}' (some (l.length + 1)) =
      (a :: l.map (·.2), (wrapAll '{' '}' (([], a) :: l)).length) := by
  have hl' : WellWrapped '{' '}' (([], a) :: l) := by
    intro e he
    rcases List.mem_cons.1 he with rfl | he
    · exact ⟨by simp, (hl (ws, a) (by simp)).2⟩
    · exact hl e (by simp [he])
  rw [show w ++ (wrapAll '{' '}' ((ws, a) :: l) ++ rest) = (w ++ ws) ++ (wrapAll '{' '}' (([], a) :: l) ++ rest) by simp [wrapAll],
    show w.length + (ws ++ ['{']).length - 1 = (w ++ ws).length by simp, List.drop_left,
    show l.length + 1 = (([], a) :: l : List (Str × Str)).length by simp, seqBlocks_wrap '{' '}' (by decide) (by decide) (by decide) _ rest hl']
  simp

theorem wrap_cons (w ws a : Str) (l : List (Str × Str)) (rest : Str) : w ++ (wrapAll '{' '}' ((ws, a) :: l) ++ rest) = w ++ (ws ++ ['{'] ++ (a ++ '}' :: (wrapAll '{' '}' l ++ rest))) := by
  simp [wrapAll]

theorem end_sum (w ws a : Str) (l : List (Str × Str)) : w.length + (ws ++ ['{']).length - 1 + (wrapAll '{' '}' (([], a) :: l)).length = (w ++ wrapAll '{' '}' ((ws, a) :: l)).length := by
  simp [wrapAll]; omega

/-- C63: `\ifthenelse{condition}{then}{else}`. -/
theorem C63_ifthenelse (ns : List Str) (hns : ∀ m ∈ ns, IfName m ∧ ¬ m <+: "thenelse".toList) (w1 c w2 a w3 b rest : Str)
    (hl : WellWrapped '{' '}' [(w1, c), (w2, a), (w3, b)]) :
    handle ns ("\\ifthenelse".toList ++ (wrapAll '{' '}' [(w1, c), (w2, a), (w3, b)] ++ rest)) =
      .token "conditional-ifthenelse".toList c a b ("\\ifthenelse".toList ++ wrapAll '{' '}' [(w1, c), (w2, a), (w3, b)]).length := by
  have hw1 : Blank w1 := (hl (w1, c) (by simp)).1
  have hf := first_brace (ns := ns) (name := "ifthenelse".toList) (w := "\\ifthenelse".toList) (ws := w1) (X := c ++ '}' :: (wrapAll '{' '}' [(w2, a), (w3, b)] ++ rest)) (i := 0) ?_ hw1 rfl (by simp)
  · have hb := blocks_here (w := "\\ifthenelse".toList) (rest := rest) hl
    rw [wrap_cons] at hb ⊢
    unfold handle
    rw [hf]
    simp only
    unfold runIf
    simp only [Match.stop, List.length_nil, Nat.zero_add]
    rw [if_pos trivial]
    simp only [List.length_cons, List.length_nil, Nat.zero_add, Nat.reduceAdd] at hb
    rw [hb]
    simp only [List.map_cons, List.map_nil]
    rw [end_sum]
  · intro m hm hp
    rw [show "\\ifthenelse".toList = "\\if".toList ++ "thenelse".toList by decide, List.append_assoc, List.prefix_append_right_inj] at hp
    refine (hns m hm).2 (word_prefix (hns m hm).1.2 ?_ hp)
    rw [List.append_assoc]
    exact head_blank hw1 space_name (by simp; decide)

/-- The commands with `@` and what they are called. -/
def _root_.L2J.Spec.atIfs : List String := ["@ifclassloaded", "@ifpackageloaded", "@ifundefined"]

theorem at_dead {w : Str} {X : Str} (hw : "\\@if".toList <+: w) : ∀ x ∈ defaults.take 8, Dead x.2.1 (w ++ X) := by
  obtain ⟨v, rfl⟩ := hw
  have hO : ∀ {u : Str} {b : Re}, (¬ u <+: "\\@if".toList ∧ ¬ "\\@if".toList <+: u) → Dead (.seq (.lit u) b) ("\\@if".toList ++ v ++ X) := by
    intro u b h; rw [List.append_assoc]; exact Dead.seq (Dead.lit (word_other h))
  intro x hx
  simp only [defaults, List.take, List.mem_cons, List.not_mem_nil, or_false] at hx
  rcases hx with rfl | rfl | rfl | rfl | rfl | rfl | rfl | rfl <;> exact hO (by decide)

theorem at_dead2 {u w X : Str} {b : Re} (h : ¬ u <+: w ∧ ¬ w <+: u) : Dead (.seq (.lit u) b) (w ++ X) := Dead.seq (Dead.lit (word_other h))

/-- C63: `\@ifundefined{name}{then}{else}` and the tests for a class and a package. -/
theorem C63_atif (ns : List Str) (n : String) (hn : n ∈ atIfs) (w1 c w2 a w3 b rest : Str) (hl : WellWrapped '{' '}' [(w1, c), (w2, a), (w3, b)]) :
    handle ns ('\\' :: n.toList ++ (wrapAll '{' '}' [(w1, c), (w2, a), (w3, b)] ++ rest)) =
      .token ("conditional-".toList ++ n.toList) c a b ('\\' :: n.toList ++ wrapAll '{' '}' [(w1, c), (w2, a), (w3, b)]).length := by
  have hw1 : Blank w1 := (hl (w1, c) (by simp)).1
  have hp : "\\@if".toList <+: '\\' :: n.toList := (show ∀ n ∈ atIfs, "\\@if".toList <+: '\\' :: n.toList by decide) n hn
  have hf : firstIf ('\\' :: n.toList ++ (w1 ++ ['{'] ++ (c ++ '}' :: (wrapAll '{' '}' [(w2, a), (w3, b)] ++ rest)))) (allIfs ns) =
      some (n.toList, ⟨[], '\\' :: n.toList ++ (w1 ++ ['{'] ++ (c ++ '}' :: (wrapAll '{' '}' [(w2, a), (w3, b)] ++ rest))), ('\\' :: n.toList).length + (w1 ++ ['{']).length, []⟩) := by
    have hnif : ∀ m ∈ ns, ¬ ("\\if".toList ++ m) <+: '\\' :: n.toList ++ (w1 ++ ['{'] ++ (c ++ '}' :: (wrapAll '{' '}' [(w2, a), (w3, b)] ++ rest))) := by
      intro m _ h
      obtain ⟨v, hv⟩ := hp
      rw [← hv, List.append_assoc] at h
      exact word_other (w := "\\if".toList) (w' := "\\@if".toList) (by decide) ((List.prefix_append _ _).trans h)
    simp only [atIfs, List.mem_cons, List.not_mem_nil, or_false] at hn
    rcases hn with rfl | rfl | rfl
    · exact first_brace (i := 8) hnif hw1 rfl (at_dead hp)
    · refine first_brace (i := 9) hnif hw1 rfl ?_
      intro x hx
      rw [show defaults.take 9 = defaults.take 8 ++ (defaults.drop 8).take 1 from rfl, List.mem_append] at hx
      rcases hx with hx | hx
      · exact at_dead hp x hx
      · simp only [defaults, List.drop, List.take, List.mem_cons, List.not_mem_nil, or_false] at hx
        subst hx
        exact at_dead2 (by decide)
    · refine first_brace (i := 10) hnif hw1 rfl ?_
      intro x hx
      rw [show defaults.take 10 = defaults.take 8 ++ (defaults.drop 8).take 2 from rfl, List.mem_append] at hx
      rcases hx with hx | hx
      · exact at_dead hp x hx
      · simp only [defaults, List.drop, List.take, List.mem_cons, List.not_mem_nil, or_false] at hx
        rcases hx with rfl | rfl <;> exact at_dead2 (by decide)
  have hb := blocks_here (w := '\\' :: n.toList) (rest := rest) hl
  rw [wrap_cons] at hb ⊢
  unfold handle
  rw [hf]
  simp only
  unfold runIf
  simp only [Match.stop, List.length_nil, Nat.zero_add]
  have h1 : n.toList ≠ "ifthenelse".toList := (show ∀ n ∈ atIfs, n.toList ≠ "ifthenelse".toList by decide) n hn
  have h2 : n.toList = "@ifclassloaded".toList ∨ n.toList = "@ifpackageloaded".toList ∨ n.toList = "@ifundefined".toList :=
    (show ∀ n ∈ atIfs, n.toList = "@ifclassloaded".toList ∨ n.toList = "@ifpackageloaded".toList ∨ n.toList = "@ifundefined".toList by decide) n hn
  rw [if_neg h1, if_pos h2]
  simp only [List.length_cons, List.length_nil, Nat.zero_add, Nat.reduceAdd] at hb ⊢
  rw [hb]
  simp only [List.map_cons, List.map_nil, List.getElem?_cons_zero, List.getElem?_cons_succ, Option.getD_some]
  have := end_sum ('\\' :: n.toList) w1 c [(w2, a), (w3, b)]
  simp only [List.length_cons] at this
  rw [this]

/-- C63: `\@ifstar{then}{else}`. -/
theorem C63_ifstar (ns : List Str) (w1 a w2 b rest : Str) (hl : WellWrapped '{' '}' [(w1, a), (w2, b)]) :
    handle ns ("\\@ifstar".toList ++ (wrapAll '{' '}' [(w1, a), (w2, b)] ++ rest)) =
      .token "conditional-ifstar".toList "@ifstar".toList a b ("\\@ifstar".toList ++ wrapAll '{' '}' [(w1, a), (w2, b)]).length := by
  have hw1 : Blank w1 := (hl (w1, a) (by simp)).1
  have hf := first_brace (ns := ns) (name := "@ifstar".toList) (w := "\\@ifstar".toList) (ws := w1) (X := a ++ '}' :: (wrapAll '{' '}' [(w2, b)] ++ rest)) (i := 11) ?_ hw1 rfl ?_
  · have hb := blocks_here (w := "\\@ifstar".toList) (rest := rest) hl
    rw [wrap_cons] at hb ⊢
    unfold handle
    rw [hf]
    simp only
    unfold runIf
    simp only [Match.stop, List.length_nil, Nat.zero_add]
    rw [if_neg (by decide), if_neg (by decide), if_pos trivial]
    simp only [List.length_cons, List.length_nil, Nat.zero_add, Nat.reduceAdd] at hb
    rw [hb]
    simp only [List.map_cons, List.map_nil, List.getElem?_cons_zero, Option.getD_some]
    rw [end_sum]
  · intro m _ h
    exact word_other (w := "\\if".toList) (w' := "\\@ifstar".toList) (by decide) ((List.prefix_append _ _).trans h)
  · intro x hx
    rw [show defaults.take 11 = defaults.take 8 ++ (defaults.drop 8).take 3 from rfl, List.mem_append] at hx
    rcases hx with hx | hx
    · exact at_dead (by decide) x hx
    · simp only [defaults, List.drop, List.take, List.mem_cons, List.not_mem_nil, or_false] at hx
      rcases hx with rfl | rfl | rfl <;> exact at_dead2 (by decide)

/-! Where it ends. -/

theorem minMatch_mem {l : List (CondKind × Hit)} {x} (h : minMatch l = some x) : x ∈ l := by
  rcases minMatch_spec l with ⟨h1, _⟩ | ⟨y, a, b, h1, h2, _⟩
  · rw [h1] at h; cases h
  · rw [h1] at h
    injection h with h
    subst h
    rw [h2]; simp

theorem valid_bounds {D : CondDelims} (hD : CondDelims.WF D) {level : Nat} {s : Str} {x : CondKind × Hit} (h : x ∈ validMatches D level s) : x.2.start < x.2.stop ∧ x.2.stop ≤ s.length := by
  obtain ⟨k, h'⟩ := x
  unfold validMatches at h
  simp only [List.mem_append, Option.mem_toList, Option.map_eq_some_iff] at h
  have hite : ∀ {o : Option Hit} {kk : CondKind}, (k, h') ∈ (if level = 1 then (o.map (kk, ·)).toList else []) → o = some h' := by
    intro o kk h
    split at h
    · simp only [Option.mem_toList, Option.map_eq_some_iff] at h
      obtain ⟨a, h1, h2⟩ := h
      rw [h1]; simp at h2; rw [h2.2]
    · cases h
  apply hD
  rcases h with ((⟨a, h1, h2⟩ | ⟨a, h1, h2⟩) | h) | h
  · simp at h2; left; rw [h1, h2.2]
  · simp at h2; right; left; rw [h1, h2.2]
  · right; right; left; exact hite h
  · right; right; right; exact hite h

theorem condLoop_bounds {D : CondDelims} (hD : CondDelims.WF D) (t : Str) : ∀ (fuel pos level : Nat) (st : CondSt) (a b : Str) (bs) (p : Nat), pos ≤ t.length →
    condLoop D t fuel pos level st = .ok a b bs p → pos ≤ p ∧ p ≤ t.length ∧ (0 < fuel → pos < t.length → 0 < level → pos < p) := by
  intro fuel
  induction fuel with
  | zero =>
    intro pos level st a b bs p hp h
    simp only [condLoop, CondSt.finish, CondRes.ok.injEq] at h
    omega
  | succ fuel ih =>
    intro pos level st a b bs p hp h
    rw [condLoop] at h
    split at h
    · rename_i hc
      split at h
      · cases h
      · rename_i k hh hm
        have hv := valid_bounds hD (minMatch_mem hm)
        rw [List.length_drop] at hv
        simp only at hv
        have hb : pos + hh.stop ≤ t.length := by omega
        simp only at h
        generalize st.push _ = st' at h
        cases k with
        | start => have := ih _ _ _ _ _ _ _ hb h; omega
        | fi => have := ih _ _ _ _ _ _ _ hb h; omega
        | els => have := ih _ _ _ _ _ _ _ hb h; omega
        | elsif =>
          simp only at h
          split at h
          · cases h
          · have := ih _ _ _ _ _ _ _ hb h; omega
    · rename_i hc
      simp only [CondSt.finish, CondRes.ok.injEq] at h
      have : ¬ (pos < t.length ∧ 0 < level) := hc
      omega

theorem firstIf_mem {s : Str} {name : Str} {m : Match} : ∀ {l : List (Str × Re × Re)}, firstIf s l = some (name, m) → ∃ x ∈ l, x.1 = name ∧ x.2.1.matchAt [] s = some m
  | [], h => by cases h
  | x :: l, h => by
    rw [firstIf] at h
    split at h
    · rename_i m' hm
      simp only [Option.some.injEq, Prod.mk.injEq] at h
      exact ⟨x, by simp, h.1, by rw [hm, h.2]⟩
    · obtain ⟨y, hy, h1, h2⟩ := firstIf_mem h
      exact ⟨y, by simp [hy], h1, h2⟩

theorem allIfs_minLen (ns : List Str) : ∀ x ∈ allIfs ns, 3 ≤ x.2.1.minLen := by
  intro x hx
  rcases List.mem_append.1 hx with hx | hx
  · obtain ⟨n, _, rfl⟩ := List.mem_map.1 hx
    show 3 ≤ (newifRe n).minLen
    unfold newifRe
    simp only [Re.minLen, minLen_lit, List.length_append]
    have : ("\\if".toList : Str).length = 3 := by decide
    omega
  · have : ∀ x ∈ defaults, 3 ≤ x.2.1.minLen := by
      intro x hx
      simp only [defaults, List.mem_cons, List.not_mem_nil, or_false] at hx
      rcases hx with rfl | rfl | rfl | rfl | rfl | rfl | rfl | rfl | rfl | rfl | rfl | rfl | rfl <;> decide
    exact this x hx

/-- C63: a conditional that is taken has at least one character and ends inside the text. -/
theorem C63_bounds (ns : List Str) (s type cond a b : Str) (e : Nat) (h : handle ns s = .token type cond a b e) : 0 < e ∧ e ≤ s.length := by
  unfold handle at h
  split at h
  · cases h
  rename_i name m hf
  obtain ⟨x, hx, -, hm⟩ := firstIf_mem hf
  have hmb := match_bounds hm
  have hml := allIfs_minLen ns x hx
  have hbl : ∀ n, m.stop - 1 + (seqBlocks (s.drop (m.stop - 1)) '{' '}' (some n)).2 ≤ s.length := fun n => blocks_le s _ '{' '}' (by decide) n (by omega)
  unfold runIf at h
  simp only at h
  split at h
  · have := hbl 3
    split at h
    · rename_i hb
      simp only [Res.token.injEq] at h
      rw [hb] at this; simp only at this; omega
    · cases h
  split at h
  · have := hbl 3
    split at h
    · cases h
    · rename_i hb
      simp only [Res.token.injEq] at h
      rw [hb] at this; simp only at this; omega
  split at h
  · have := hbl 2
    split at h
    · cases h
    · rename_i hb
      simp only [Res.token.injEq] at h
      rw [hb] at this; simp only at this; omega
  have hcb : (condition name s m).2 ≤ s.length := by
    unfold condition
    simp only
    split
    · rename_i i hi
      split
      · rename_i inner e' hc
        have := concat_bounds hc
        rw [List.length_drop] at this
        split
        · simp
        · simp only; omega
      · simp
    · split
      · exact hmb.2
      · exact hmb.2
  have key : ∀ cond a b bs e, handleCond (delims ns) s (condition name s m).2 (condition name s m).1 = .token cond a b bs e → 0 < e ∧ e ≤ s.length := by
    intro cond a b bs e h
    unfold handleCond at h
    split at h
    · cases h
    · cases h
    · rename_i i e' bs' p hx
      have := condLoop_bounds (delims_wf ns) _ _ 0 1 {} _ _ _ _ (by omega) hx
      rw [List.length_drop] at this
      have he : e = (condition name s m).2 + p := by
        split at h <;> (simp only [CondHandled.token.injEq] at h; omega)
      by_cases h0 : (condition name s m).2 = 0
      · have := this.2.2 (by omega) (by omega) (by omega); omega
      · omega
  split at h
  · cases h
  · cases h
  · rename_i cond' a' b' bs' e' hh
    simp only [Res.token.injEq] at h
    have := key _ _ _ _ _ hh
    omega

end L2J.Cond
