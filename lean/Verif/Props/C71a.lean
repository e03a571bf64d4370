import Verif.Model.TabularHandler
import Verif.Spec.TabularEnv
import Verif.Lemmas.Wrapped
import Verif.Lemmas.EnvBlock
import Verif.Props.C01
import Verif.Props.C09
import Verif.Props.C23
import Verif.Props.C47
import Verif.Props.C33
/-! The head of a table. -/
namespace L2J.Tab
open L2J.Spec

/-- The part of the pattern behind the blanks after `\begin`. -/
def tailRe : Re :=
  .seq (.lit ['{']) (.seq (.alt (.lit "tabular".toList) (.alt (.lit "longtable".toList)
    (.alt (.lit "tabularx".toList) (.lit "tabulary".toList)))) (.seq (.opt (.lit ['*'])) (.lit ['}'])))

theorem lit_tabular : "tabular".toList = ['t', 'a', 'b', 'u', 'l', 'a', 'r'] := rfl
theorem lit_longtable : "longtable".toList = ['l', 'o', 'n', 'g', 't', 'a', 'b', 'l', 'e'] := rfl
theorem lit_tabularx : "tabularx".toList = ['t', 'a', 'b', 'u', 'l', 'a', 'r', 'x'] := rfl
theorem lit_tabulary : "tabulary".toList = ['t', 'a', 'b', 'u', 'l', 'a', 'r', 'y'] := rfl

theorem tailRe_run (kind : Str) (hk : kind ∈ tableKinds) (star : Bool) (rev rest : Str) (g : List (Nat × Str)) :
    ((tailRe.run ⟨rev, '{' :: ((kind ++ (if star then ['*'] else [])) ++ ('}' :: rest)), g⟩).head?).map MSt.rest = some rest := by
  simp only [tableKinds, List.mem_cons, List.not_mem_nil, or_false] at hk
  rcases hk with rfl | rfl | rfl | rfl <;> cases star <;>
    simp [tailRe, Re.run, Re.run_lit, Re.opt, List.isPrefixOf, lit_tabular, lit_longtable, lit_tabularx, lit_tabulary]

theorem tailRe_dead (rev rest : Str) (x : Char) (hx : isSpace x = true) (g : List (Nat × Str)) : tailRe.run ⟨rev, x :: rest, g⟩ = [] := by
  have : x ≠ '{' := by rintro rfl; simp [brace_not_space] at hx
  have h' : ¬ '{' = x := fun e => this e.symm
  unfold tailRe
  conv => lhs; unfold Re.run
  rw [Re.run_lit]
  simp [h']

theorem tableRe_match (gap kind : Str) (star : Bool) (tail : Str) (hg : ∀ x ∈ gap, isSpace x = true) (hk : kind ∈ tableKinds) :
    ∃ m, tableRe.matchAt [] (("\\begin".toList ++ gap ++ '{' :: ((kind ++ (if star then ['*'] else [])) ++ ['}'])) ++ tail) = some m ∧
      m.len = ("\\begin".toList ++ gap ++ '{' :: ((kind ++ (if star then ['*'] else [])) ++ ['}'])).length := by
  have hs : ("\\begin".toList ++ gap ++ '{' :: ((kind ++ (if star then ['*'] else [])) ++ ['}'])) ++ tail =
      "\\begin".toList ++ (gap ++ '{' :: ((kind ++ (if star then ['*'] else [])) ++ ('}' :: tail))) := by simp
  have h1 := tailRe_run kind hk star
  generalize (kind ++ (if star then ['*'] else [])) = env at hs h1 ⊢
  rw [Re.matchAt_eq, hs]
  obtain ⟨st, l, hst⟩ : ∃ st l, (Re.seq (.lit "\\begin".toList) (.seq (.star reSpace) tailRe)).run
      ⟨[], "\\begin".toList ++ (gap ++ '{' :: (env ++ ('}' :: tail))), []⟩ = st :: l ∧ st.rest = tail := by
    conv => enter [1, st, 1, l, 1, 1]; unfold Re.run
    rw [Re.run_lit, if_pos (List.isPrefixOf_iff_prefix.2 (List.prefix_append _ _)), List.drop_left]
    simp only [List.flatMap_cons, List.flatMap_nil, List.append_nil]
    conv => enter [1, st, 1, l, 1, 1]; unfold Re.run
    unfold reSpace
    rw [run_star_chr, charRuns_flatMap _ _ _ (fun rev x rest hx => tailRe_dead rev rest x hx [])]
    simp only [takeWhile_ws _ _ hg, dropWhile_ws _ _ hg]
    have h2 := h1 (gap.reverse ++ ("\\begin".toList.reverse)) tail []
    cases h3 : tailRe.run ⟨gap.reverse ++ ("\\begin".toList.reverse), '{' :: (env ++ ('}' :: tail)), []⟩ with
    | nil => rw [h3] at h2; simp at h2
    | cons st l =>
      rw [h3] at h2
      exact ⟨st, l, rfl, by simpa using h2⟩
  have hr : tableRe.run ⟨[], "\\begin".toList ++ (gap ++ '{' :: (env ++ ('}' :: tail))), []⟩ = st :: (l ++
      (Re.seq (.lit "\\tabular".toList) (.nlook (.chr Cmds.isNameChar))).run ⟨[], "\\begin".toList ++ (gap ++ '{' :: (env ++ ('}' :: tail))), []⟩) := by
    unfold tableRe
    conv => lhs; unfold Re.run
    rw [← List.cons_append]
    exact congrArg (· ++ _) hst.1
  rw [hr]
  refine ⟨_, rfl, ?_⟩
  simp only [hst.2]
  simp
  omega

/-- The replacement of a character by nothing. -/
theorem replace_char (c : Char) : ∀ s : Str, replace s [c] [] = s.filter (· ≠ c)
  | [] => rfl
  | x :: s => by
    have ih := replace_char c s
    unfold replace at *
    unfold replaceAux
    by_cases h : x = c
    · subst h; simp [ih]
    · have h' : ¬ c = x := fun e => h e.symm
      simp [h, h', ih]

/-- The replacement of a command at the front. -/
theorem replace_front (w s : Str) (h : '\\' ∉ s) : replace (('\\' :: w) ++ s) ('\\' :: w) [] = s := by
  unfold replace
  rw [replaceAux_hit _ _ _ (by simp), List.nil_append]
  induction s with
  | nil => rfl
  | cons c s ih =>
    rw [replaceAux_miss, ih fun hc => h (by simp [hc])]
    rintro ⟨t, ht⟩
    simp only [List.cons_append, List.cons.injEq] at ht
    exact h (by rw [← ht.1]; simp)

theorem envType_eq (gap kind : Str) (star : Bool) (hg : ∀ x ∈ gap, isSpace x = true) (hk : kind ∈ tableKinds) :
    envType ("\\begin".toList ++ gap ++ '{' :: ((kind ++ (if star then ['*'] else [])) ++ ['}'])) = kind ++ (if star then ['*'] else []) := by
  have he : ∀ x ∈ kind ++ (if star then ['*'] else []), isSpace x = false ∧ x ≠ '{' ∧ x ≠ '}' ∧ x ≠ '\\' := by
    simp only [tableKinds, List.mem_cons, List.not_mem_nil, or_false] at hk
    rcases hk with rfl | rfl | rfl | rfl <;> cases star <;> decide
  generalize (kind ++ (if star then ['*'] else [])) = env at he ⊢
  have hgc : ∀ x ∈ gap, x ≠ '\\' ∧ x ≠ '{' ∧ x ≠ '}' := fun x hx =>
    ⟨by rintro rfl; exact absurd (hg _ hx) (by decide), by rintro rfl; exact absurd (hg _ hx) (by decide), by rintro rfl; exact absurd (hg _ hx) (by decide)⟩
  unfold envType
  rw [show "\\begin".toList ++ gap ++ '{' :: (env ++ ['}']) = ('\\' :: "begin".toList) ++ (gap ++ '{' :: (env ++ ['}'])) by simp,
    show "\\begin".toList = '\\' :: "begin".toList from rfl, replace_front _ _ (by
      intro h
      simp only [List.mem_append, List.mem_cons, List.not_mem_nil, or_false] at h
      rcases h with h | h | h | h
      · exact (hgc _ h).1 rfl
      · exact absurd h (by decide)
      · exact (he _ h).2.2.2 rfl
      · exact absurd h (by decide)), replace_char, replace_char]
  have h1 : (gap ++ '{' :: (env ++ ['}'])).filter (· ≠ '{') = gap ++ (env ++ ['}']) := by
    rw [List.filter_append, List.filter_cons_of_neg (by simp), List.filter_append,
      List.filter_eq_self.2 fun x hx => by simpa using (hgc x hx).2.1, List.filter_eq_self.2 fun x hx => by simpa using (he x hx).2.1]
    rfl
  have h2 : (gap ++ (env ++ ['}'])).filter (· ≠ '}') = gap ++ env := by
    rw [List.filter_append, List.filter_append,
      List.filter_eq_self.2 fun x hx => by simpa using (hgc x hx).2.2, List.filter_eq_self.2 fun x hx => by simpa using (he x hx).2.2.1]
    simp
  rw [h1, h2, Content.strip_left hg]
  have := strip_core [] [] env (by simp) (by simp) (fun c hc => (he c (List.mem_of_mem_head? hc)).1) (fun c hc => (he c (List.mem_of_getLast? hc)).1)
  simpa using this

theorem rstrip_append (a b : Str) (c : Char) (hc : isSpace c = false) : rstrip (a ++ c :: b) = a ++ c :: rstrip b := by
  unfold rstrip
  have : (a ++ c :: b).reverse = b.reverse ++ (c :: a.reverse) := by simp
  rw [this, List.dropWhile_append]
  by_cases h : (b.reverse.dropWhile isSpace).isEmpty = true
  · rw [if_pos h]
    rw [List.isEmpty_iff] at h
    simp [h, hc]
  · rw [if_neg h]; simp

theorem strip_open (w core b : Str) (hw : ∀ x ∈ w, isSpace x = true) (c d : Char) (hc : isSpace c = false) (hd : isSpace d = false)
    (h1 : core.head? = some c) (h2 : core.getLast? = some d) : strip (w ++ (core ++ b)) = core ++ rstrip b := by
  rw [Content.strip_left hw]
  unfold strip
  have e : lstrip (core ++ b) = core ++ b := by
    cases core with
    | nil => simp at h1
    | cons x core =>
      simp only [List.head?_cons, Option.some.injEq] at h1
      subst h1
      unfold lstrip
      simp [hc]
  rw [e]
  rcases List.eq_nil_or_concat core with rfl | ⟨p, x, rfl⟩
  · simp at h1
  · simp only [List.concat_eq_append, List.getLast?_append, List.getLast?_singleton, Option.some_or, Option.some.injEq] at h2
    subst h2
    simp only [List.concat_eq_append, List.append_assoc, List.singleton_append]
    exact rstrip_append p b x hd

/-- What is behind the last argument does not begin with a group. -/
theorem rstrip_head (b : Str) (h : (b.dropWhile isSpace).head? ≠ some '{') : ((rstrip b).dropWhile isSpace).head? ≠ some '{' := by
  obtain ⟨ws, hb, h2⟩ := rstrip_eq b
  intro hx
  apply h
  rw [h2, List.dropWhile_append]
  cases hd : (rstrip b).dropWhile isSpace with
  | nil => rw [hd] at hx; simp at hx
  | cons y ys => rw [hd] at hx; simpa using hx

theorem wrapAll_last (o c : Char) : ∀ (l : List (Str × Str)), l ≠ [] → (wrapAll o c l).getLast? = some c
  | [], h => absurd rfl h
  | [(w, a)], _ => by
    rw [wrapAll, List.getLast?_append, show o :: (a ++ c :: wrapAll o c []) = (o :: a) ++ [c] by simp [wrapAll], List.getLast?_append]
    rfl
  | (w, a) :: e :: l, _ => by
    have := wrapAll_last o c (e :: l) (by simp)
    rw [wrapAll]
    rw [List.getLast?_append, List.getLast?_cons, List.getLast?_append, List.getLast?_cons, this]
    simp

/-- The arguments are read. -/
theorem args_read {l : List (Str × Str)} (h : WellWrapped '{' '}' l) (b : Str)
    (hc : l.length = 2 ∨ (l.length = 1 ∧ (b.dropWhile isSpace).head? ≠ some '{')) :
    seqBlocks (wrapAll '{' '}' l ++ rstrip b) '{' '}' (some 2) = (l.map (·.2), (wrapAll '{' '}' l).length) := by
  rcases hc with h2 | ⟨h1, hb⟩
  · rw [← h2]
    exact seqBlocks_wrap '{' '}' (by decide) (by decide) (by decide) l _ h
  · rw [show 2 = l.length + 1 by omega]
    exact seqBlocks_wrap_more '{' '}' (by decide) (by decide) (by decide) l 1 _ h (rstrip_head b hb)

/-- What stands before the cells is read. -/
theorem headOf_eq (t : TableSrc) (ht : t.Ok) (env : Str) (e : Nat) :
    headOf env e (strip t.inner) = ⟨env, some (strip t.spec), rstrip t.body, e⟩ := by
  have hlast : (t.args.map (·.2)).getLast? = some t.spec := by
    unfold TableSrc.spec
    rw [List.getLast?_map]
    cases h : t.args.getLast? with
    | none =>
      rw [List.getLast?_eq_none_iff] at h
      rcases ht.count with h2 | ⟨h2, _⟩ <;> simp [h] at h2
    | some p => rfl
  -- the text from the first argument on, and how it is read
  have fin : ∀ (l : List (Str × Str)), WellWrapped '{' '}' l → l.map (·.2) = t.args.map (·.2) → l.length = t.args.length → ∀ inner,
      inner = wrapAll '{' '}' l ++ rstrip t.body →
      (match (seqBlocks inner '{' '}' (some 2)).1.getLast? with
        | none => (⟨env, none, [], e⟩ : Head)
        | some c => ⟨env, some (strip c), inner.drop (seqBlocks inner '{' '}' (some 2)).2, e⟩) = ⟨env, some (strip t.spec), rstrip t.body, e⟩ := by
    intro l hl hm hn inner hi
    subst hi
    rw [args_read hl t.body (by rw [hn]; exact ht.count)]
    simp only [hm, hlast, List.drop_left]
  unfold headOf
  simp only [strip_strip]
  obtain ⟨w0, a0, l0, hargs⟩ : ∃ w0 a0 l0, t.args = (w0, a0) :: l0 := by
    cases h : t.args with
    | nil => rcases ht.count with h2 | ⟨h2, _⟩ <;> simp [h] at h2
    | cons x l => exact ⟨x.1, x.2, l, rfl⟩
  have hw := ht.args
  rw [hargs] at hw
  cases hp : t.pos with
  | none =>
    have hin : t.inner = w0 ++ (wrapAll '{' '}' (([], a0) :: l0) ++ t.body) := by
      unfold TableSrc.inner
      rw [hp, hargs]
      simp only [wrapAll, List.nil_append, List.append_assoc, List.cons_append]
    have hs : strip t.inner = wrapAll '{' '}' (([], a0) :: l0) ++ rstrip t.body := by
      rw [hin]
      exact strip_open w0 _ _ (hw (w0, a0) (by simp)).1 '{' '}' (by decide) (by decide) (by simp [wrapAll]) (wrapAll_last _ _ _ (by simp))
    have hx : extractNestedContent (strip t.inner) '[' ']' = none := by
      rw [hs]
      refine extract_none_iff _ _ _ |>.2 ?_
      rintro ⟨k, x, hk, hb⟩
      have hop := (liveAt_get hb.opener).1
      have h0 : k = 0 := by
        cases k with
        | zero => rfl
        | succ k =>
          obtain ⟨y, hy, hy2⟩ := hk.1 0 (by omega)
          simp [wrapAll] at hy
          subst hy
          exact absurd hy2 (by decide)
      subst h0
      simp [wrapAll] at hop
    rw [hx]
    refine fin (([], a0) :: l0) ?_ (by rw [hargs]; rfl) (by rw [hargs]; rfl) _ (by simpa using hs)
    intro x hx
    rcases List.mem_cons.1 hx with rfl | hx
    · exact ⟨by simp, (hw (w0, a0) (by simp)).2⟩
    · exact hw x (by simp [hx])
  | some p =>
    have hpo := ht.pos p (by rw [hp]; rfl)
    have hin : t.inner = p.1 ++ ((('[' :: (p.2 ++ [']'])) ++ wrapAll '{' '}' t.args) ++ t.body) := by
      unfold TableSrc.inner
      rw [hp]
      simp only [List.append_assoc, List.cons_append, List.nil_append]
    have hs : strip t.inner = ('[' :: (p.2 ++ [']'])) ++ wrapAll '{' '}' t.args ++ rstrip t.body := by
      rw [hin]
      refine strip_open p.1 _ _ hpo.1 '[' '}' (by decide) (by decide) (by simp) ?_
      rw [List.getLast?_append, wrapAll_last _ _ _ (by rw [hargs]; simp)]
      rfl
    have hx : extractNestedContent (strip t.inner) '[' ']' = some (p.2, p.2.length + 2) := by
      rw [hs]
      have := C01_round_trip [] p.2 (wrapAll '{' '}' t.args ++ rstrip t.body) '[' ']' (by simp) (by decide) (by decide) (by decide) hpo.2.1 hpo.2.2
      simpa using this
    rw [hx]
    refine fin t.args ht.args rfl rfl _ ?_
    rw [hs]
    simp only [Option.map_some, Option.getD_some]
    have e1 : p.2.length + 2 = ('[' :: (p.2 ++ [']'])).length := by simp
    rw [e1, List.append_assoc, List.drop_left]

/-- The head of a table, as `handle` reads it. -/
theorem start_eq (t : TableSrc) (ht : t.Ok) (rest : Str) :
    start (t.write ++ rest) = .found ⟨t.env, some (strip t.spec), rstrip t.body, t.write.length⟩ := by
  obtain ⟨m, hm, hl⟩ : ∃ m, tableRe.matchAt [] (("\\begin".toList ++ t.gap ++ '{' :: (t.env ++ ['}'])) ++
      (t.inner ++ ("\\end".toList ++ t.gap' ++ '{' :: (t.env ++ ['}'])) ++ rest)) = some m ∧ m.len = ("\\begin".toList ++ t.gap ++ '{' :: (t.env ++ ['}'])).length :=
    tableRe_match t.gap t.kind t.star (t.inner ++ ("\\end".toList ++ t.gap' ++ '{' :: (t.env ++ ['}'])) ++ rest) ht.gap ht.kind
  have hw : t.write ++ rest = ("\\begin".toList ++ t.gap ++ '{' :: (t.env ++ ['}'])) ++
      (t.inner ++ ("\\end".toList ++ t.gap' ++ '{' :: (t.env ++ ['}'])) ++ rest) := by
    unfold TableSrc.write
    simp only [List.append_assoc]
  have hv : envType ("\\begin".toList ++ t.gap ++ '{' :: (t.env ++ ['}'])) = t.env := envType_eq t.gap t.kind t.star ht.gap ht.kind
  have hb : startsWith ("\\begin".toList ++ t.gap ++ '{' :: (t.env ++ ['}'])) "\\begin".toList = true := by
    unfold startsWith
    rw [List.isPrefixOf_iff_prefix, List.append_assoc]
    exact List.prefix_append _ _
  have hn : '\\' ∉ t.env := by
    have := ht.kind
    unfold TableSrc.env
    simp only [tableKinds, List.mem_cons, List.not_mem_nil, or_false] at this
    rcases this with h | h | h | h <;> rw [h] <;> cases t.star <;> decide
  have h9 := C09_env_block t.env [] ("\\begin".toList ++ t.gap ++ '{' :: (t.env ++ ['}'])) t.inner ("\\end".toList ++ t.gap' ++ '{' :: (t.env ++ ['}'])) rest hn
    (by rintro u d v h ⟨ws, _, hd⟩
        have : u ++ d ++ v = [] := h.symm
        simp only [List.append_eq_nil_iff] at this
        rw [hd] at this
        simp at this)
    ⟨t.gap, ht.gap, by simp⟩ ht.inner ⟨t.gap', ht.gap', by simp⟩
  rw [show ([] : Str) ++ ("\\begin".toList ++ t.gap ++ '{' :: (t.env ++ ['}'])) ++ t.inner ++ ("\\end".toList ++ t.gap' ++ '{' :: (t.env ++ ['}'])) = t.write from rfl] at h9
  unfold start
  rw [hw, hm]
  simp only [hl, List.take_left, hb, if_true, hv]
  rw [← hw, h9]
  simp only [headOf_eq t ht]

end L2J.Tab
