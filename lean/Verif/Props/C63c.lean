import Verif.Props.C63b
import Verif.Props.C33
import Verif.Props.C53
import Verif.Props.C29
/-! C63: conditionals with one and with two branches. -/
namespace L2J.Cond
open Spec Defn Cmds Fmt

theorem altRe_consumes : ∀ {l : List Re}, (∀ r ∈ l, r.Consumes) → (altRe l).Consumes
  | [], _ => fun _ _ h => by cases h
  | _ :: _, h => consumes_alt (h _ (by simp)) (altRe_consumes fun q hq => h q (by simp [hq]))

theorem allIfs_consumes (ns : List Str) : ∀ x ∈ allIfs ns, x.2.1.Consumes ∧ x.2.2.Consumes := by
  have hl : ∀ (c : Char) (cs : Str) (r : Re), (Re.seq (.lit (c :: cs)) r).Consumes := fun c cs r => consumes_seq_left _ (consumes_lit c cs)
  intro x hx
  rcases List.mem_append.1 hx with hx | hx
  · obtain ⟨n, _, rfl⟩ := List.mem_map.1 hx
    exact ⟨hl '\\' ("if".toList ++ n) _, hl '\\' ("if".toList ++ n) _⟩
  · simp only [defaults, List.mem_cons, List.not_mem_nil, or_false] at hx
    rcases hx with rfl | rfl | rfl | rfl | rfl | rfl | rfl | rfl | rfl | rfl | rfl | rfl | rfl <;> exact ⟨hl '\\' _ _, hl '\\' _ _⟩

theorem delims_wf (ns : List Str) : CondDelims.WF (delims ns) := by
  intro s h hh
  rcases hh with hh | hh | hh | hh
  · refine hit_bounds (altRe_consumes ?_) s h hh
    intro r hr
    obtain ⟨x, hx, rfl⟩ := List.mem_map.1 hr
    exact (allIfs_consumes ns x hx).2
  · exact hit_bounds (consumes_seq_left _ (consumes_lit _ _)) s h hh
  · exact hit_bounds (consumes_seq_left _ (consumes_lit _ _)) s h hh
  · exact hit_bounds (consumes_alt (consumes_seq_left _ (consumes_lit _ _)) (consumes_seq_left _ (consumes_lit _ _))) s h hh

/-! The branches. -/

/-- One branch. -/
theorem branch_one {ns : List Str} (hns : ∀ m ∈ ns, IfName m) {x rest : Str} (hx : CondText ns true x) (hr : ∀ c ∈ rest.head?, isWord c = false) :
    extractElseElseifFi (delims ns) (x ++ ("\\fi".toList ++ rest)) = .ok (strip x) [] [] (x.length + 3) := by
  have key : ∃ e : CondEv, TopDelims (delims ns) (x ++ ("\\fi".toList ++ rest)) 0 1 [e] ∧ e.a = x.length ∧ e.b = x.length + 3 := by
    refine ⟨⟨.fi, x.length, x.length + 3, none⟩, ?_, rfl, rfl⟩
    refine cond_text hns hx _ 0 1 ("\\fi".toList ++ rest) _ (fun _ => rfl) (by omega) rfl (by simp) (by simp) ?_
    intro a q ha hq hlen
    obtain ⟨e, h1, h2, h3, h4⟩ := next_fi (ns := ns) (d := 1) (fun _ => rfl) ha hr hq
    have he : e = ⟨.fi, x.length, x.length + 3, none⟩ := by
      obtain ⟨k, ea, eb, eg⟩ := e
      obtain ⟨h, hf, _, _, _, hg, _⟩ := h1
      simp only at h2 h3 h4 hg hf
      subst h2
      have : h.group = none := by
        have hf : fiRe.hit ((x ++ ("\\fi".toList ++ rest)).drop q) = some h := hf
        rw [hq, hit_here (a := a) (fun u v e hv => (quiet_all (ns := ns) (b := true) ha e hv (by simp)).2.1) (fi_eats hr)] at hf
        injection hf with hf
        rw [← hf]; rfl
      simp only [CondEv.mk.injEq, true_and]
      refine ⟨by omega, by omega, by rw [hg, this]⟩
    rw [← he]
    exact .fi q e h1 h2
  obtain ⟨e, h1, h2, h3⟩ := key
  rw [C23_if_fi _ (delims_wf ns) _ e h1, h2, h3]
  simp [slice]

/-- Two branches. -/
theorem branch_two {ns : List Str} (hns : ∀ m ∈ ns, IfName m) {x y rest : Str} (hx : CondText ns true x) (hy : CondText ns true y)
    (hy0 : ∀ c ∈ y.head?, isWord c = false) (hr : ∀ c ∈ rest.head?, isWord c = false) :
    extractElseElseifFi (delims ns) (x ++ ("\\else".toList ++ (y ++ ("\\fi".toList ++ rest)))) = .ok (strip x) (strip y) [] (x.length + 5 + y.length + 3) := by
  have hyr : ∀ c ∈ (y ++ ("\\fi".toList ++ rest)).head?, isWord c = false := by
    cases y with
    | nil => simp; decide
    | cons c y => simpa using hy0
  generalize ht : x ++ ("\\else".toList ++ (y ++ ("\\fi".toList ++ rest))) = t
  have key : ∃ e f : CondEv, TopDelims (delims ns) t 0 1 [e, f] ∧ e.kind = .els ∧ e.a = x.length ∧ e.b = x.length + 5 ∧ f.a = x.length + 5 + y.length ∧ f.b = x.length + 5 + y.length + 3 := by
    refine ⟨⟨.els, x.length, x.length + 5, none⟩, ⟨.fi, x.length + 5 + y.length, x.length + 5 + y.length + 3, none⟩, ?_, rfl, rfl, rfl, rfl, rfl⟩
    refine cond_text hns hx t 0 1 ("\\else".toList ++ (y ++ ("\\fi".toList ++ rest))) _ (fun _ => rfl) (by omega) (by rw [← ht]; rfl) (by simp) (by simp) ?_
    intro a q ha hq hlen
    obtain ⟨e, h1, h2, h3, h4⟩ := next_else (ns := ns) ha hyr hq
    have he : e = ⟨.els, x.length, x.length + 5, none⟩ := by
      obtain ⟨k, ea, eb, eg⟩ := e
      obtain ⟨h, hf, _, _, _, hg, _⟩ := h1
      simp only at h2 h3 h4 hg hf
      subst h2
      have : h.group = none := by
        have hf : elseRe.hit (t.drop q) = some h := hf
        rw [hq, hit_here (a := a) (fun u v e hv => ((quiet_all (ns := ns) (b := true) ha e hv (by simp)).2.2 rfl).1) (else_eats hyr)] at hf
        injection hf with hf
        rw [← hf]; rfl
      simp only [CondEv.mk.injEq, true_and]
      refine ⟨by omega, by omega, by rw [hg, this]⟩
    rw [← he]
    refine .sep q e _ h1 (.inl h2) ?_
    have hd : t.drop e.b = y ++ ("\\fi".toList ++ rest) := by
      rw [h4]
      refine drop_after (a := a ++ "\\else".toList) ?_ (by simp)
      rw [hq]; simp only [List.append_assoc]
    refine cond_text hns hy t e.b 1 ("\\fi".toList ++ rest) _ (fun _ => rfl) (by omega) hd (by simp) (by simp) ?_
    intro a2 q2 ha2 hq2 hlen2
    obtain ⟨f, k1, k2, k3, k4⟩ := next_fi (ns := ns) (d := 1) (fun _ => rfl) ha2 hr hq2
    have hf : f = ⟨.fi, x.length + 5 + y.length, x.length + 5 + y.length + 3, none⟩ := by
      obtain ⟨k, ea, eb, eg⟩ := f
      obtain ⟨h, hf, _, _, _, hg, _⟩ := k1
      simp only at k2 k3 k4 hg hf
      subst k2
      have : h.group = none := by
        have hf : fiRe.hit (t.drop q2) = some h := hf
        rw [hq2, hit_here (a := a2) (fun u v e hv => (quiet_all (ns := ns) (b := true) ha2 e hv (by simp)).2.1) (fi_eats hr)] at hf
        injection hf with hf
        rw [← hf]; rfl
      simp only [CondEv.mk.injEq, true_and]
      refine ⟨by omega, by omega, by rw [hg, this]⟩
    rw [← hf]
    exact .fi q2 f k1 k2
  obtain ⟨e, f, h1, h2, h3, h4, h5, h6⟩ := key
  rw [C23_if_else_fi _ (delims_wf ns) _ e f h1 h2, h3, h4, h5, h6, ← ht]
  have e1 : slice (x ++ ("\\else".toList ++ (y ++ ("\\fi".toList ++ rest)))) 0 x.length = x := by simp [slice]
  have e2 : slice (x ++ ("\\else".toList ++ (y ++ ("\\fi".toList ++ rest)))) (x.length + 5) (x.length + 5 + y.length) = y := by
    unfold slice
    rw [show x ++ ("\\else".toList ++ (y ++ ("\\fi".toList ++ rest))) = (x ++ "\\else".toList ++ y) ++ ("\\fi".toList ++ rest) by simp only [List.append_assoc],
      List.take_left' (by simp; omega), List.drop_left' (by simp)]
  rw [e1, e2]

/-! The command. -/

/-- What `handle` reads first. -/
theorem first_opens {ns : List Str} (hns : ∀ m ∈ ns, IfName m) {n X : Str} (h : Opens ns n X) :
    ∃ g, firstIf ("\\if".toList ++ n ++ X) (allIfs ns) = some (if n ∈ ns then n else "if".toList, ⟨[], "\\if".toList ++ n ++ X, ("\\if".toList ++ n).length, g⟩) := by
  have skip : ∀ (l l2 : List (Str × Re × Re)), (∀ x ∈ l, Dead x.2.1 ("\\if".toList ++ n ++ X)) → firstIf ("\\if".toList ++ n ++ X) (l ++ l2) = firstIf ("\\if".toList ++ n ++ X) l2 := by
    intro l l2
    induction l with
    | nil => intro _; rfl
    | cons x l ih =>
      intro hl
      rw [List.cons_append, firstIf, (hl x (by simp)).matchAt, ih fun y hy => hl y (by simp [hy])]
  cases h with
  | declared hn hd hX =>
    refine ⟨[], ?_⟩
    rw [if_pos hd.1]
    have hl := declared_eats hns hd hX
    have key : ∀ (l : List Str) (l2), (∀ m ∈ l, Dead (newifRe m) ("\\if".toList ++ n ++ X) ∨ m = n) → n ∈ l →
        firstIf ("\\if".toList ++ n ++ X) (l.map (fun n => (n, newifRe n, newifRe n)) ++ l2) = some (n, ⟨[], "\\if".toList ++ n ++ X, ("\\if".toList ++ n).length, []⟩) := by
      intro l l2
      induction l with
      | nil => intro _ h; cases h
      | cons m l ih =>
        intro h1 h2
        by_cases hmn : m = n
        · subst hmn
          simp only [List.map_cons, List.cons_append, firstIf, (newif_eats hX []).matchAt []]
        · rcases h1 m (by simp) with h | h
          · rw [List.map_cons, List.cons_append, firstIf, h.matchAt]
            refine ih (fun q hq => h1 q (by simp [hq])) ?_
            rcases List.mem_cons.1 h2 with h | h
            · exact absurd h.symm hmn
            · exact h
          · exact absurd h hmn
    exact key ns _ hl hd.1
  | undeclared hu hX =>
    refine ⟨[(1, n)], ?_⟩
    have hX' := end_noname hX
    rw [if_neg fun hm => hu.2.2.1 n hm (List.prefix_refl n)]
    unfold allIfs
    rw [skip _ _ (by
      intro x hx
      obtain ⟨m, hm, rfl⟩ := List.mem_map.1 hx
      exact newif_other fun hp => hu.2.2.1 m hm (word_prefix (hns m hm).2 hX' hp))]
    have hs := specials_dead hu hX'
    have hsplit : defaults = defaults.take 12 ++ [("if".toList, ifRe, ifRe)] := rfl
    rw [hsplit, skip _ _ (by
      intro x hx
      rcases hs x (List.mem_of_mem_take hx) with h | h
      · exfalso
        simp only [defaults, List.take, List.mem_cons, List.not_mem_nil, or_false] at hx
        rcases hx with rfl | rfl | rfl | rfl | rfl | rfl | rfl | rfl | rfl | rfl | rfl | rfl <;> exact absurd h (by decide)
      · exact h.1)]
    simp only [firstIf, (ifRe_eats hu.1 hu.2.1 hX).matchAt []]

theorem replace_nobs (n : Str) (w : Str) (h : ∀ c ∈ n, c ≠ '\\') : replaceAux ('\\' :: w) [] 0 n = n := by
  induction n with
  | nil => rfl
  | cons c n ih =>
    rw [replaceAux_miss, ih fun d hd => h d (by simp [hd])]
    rintro ⟨t, ht⟩
    simp at ht
    exact h c (by simp) ht.1.symm

/-- The names with a meaning of their own. -/
def _root_.L2J.Spec.ownIfs : List Str := ["ifthenelse", "@ifclassloaded", "@ifpackageloaded", "@ifundefined", "@ifstar"].map String.toList

theorem condition_name {ns : List Str} {n X : Str} (h : Opens ns n X) (content : Str) (g) :
    condition (if n ∈ ns then n else "if".toList) content ⟨[], "\\if".toList ++ n ++ X, ("\\if".toList ++ n).length, g⟩ = (n, ("\\if".toList ++ n).length) := by
  have hn := (opens_noname h).1
  have hbs : ∀ c ∈ n, c ≠ '\\' := fun c hc => (name_char_facts (hn.2 c hc)).2.2.1
  have hsp : ∀ c ∈ n, c ≠ ' ' := by rintro c hc rfl; exact absurd (hn.2 _ hc) (by decide)
  have ht : (⟨[], "\\if".toList ++ n ++ X, ("\\if".toList ++ n).length, g⟩ : Match).text = "\\if".toList ++ n := by
    unfold Match.text
    simp
  have hf : ("\\if".toList ++ n).filter (· != ' ') = "\\if".toList ++ n := by
    rw [List.filter_eq_self]
    intro c hc
    rcases List.mem_append.1 hc with h | h
    · have : ∀ c ∈ "\\if".toList, (c != ' ') = true := by decide
      exact this c h
    · simpa using hsp c h
  have hcs : findSub "\\csname".toList ("\\if".toList ++ n) = none := by
    cases hh : findSub "\\csname".toList ("\\if".toList ++ n) with
    | none => rfl
    | some i =>
      exfalso
      obtain ⟨a, b, hab⟩ := (findSub_contains "\\csname".toList (by simp) _).1 (by rw [hh]; rfl)
      cases a with
      | nil => simp at hab
      | cons x a =>
        have : '\\' ∈ ("if".toList ++ n) := by
          have : "if".toList ++ n = a ++ "\\csname".toList ++ b := by
            simp at hab; simpa using hab.2
          rw [this]; simp
        rcases List.mem_append.1 this with h | h
        · exact absurd h (by decide)
        · exact hbs _ h rfl
  unfold condition
  simp only [ht, hf, hcs]
  cases h with
  | declared _ hd _ =>
    rw [if_pos hd.1, if_pos (.inl rfl)]
    simp [Match.stop]
  | undeclared hu hX =>
    rw [if_neg fun hm => hu.2.2.1 n hm (List.prefix_refl n)]
    have hl := hu.2.1
    rw [if_neg, if_neg (by decide)]
    · have : replace ("\\if".toList ++ n) ('\\' :: "if".toList) [] = n := by
        unfold replace
        have := replaceAux_hit "\\if".toList [] n (by simp)
        rw [show ('\\' :: "if".toList : Str) = "\\if".toList by decide, this, List.nil_append]
        exact replace_nobs n "if".toList hbs
      rw [this]
      simp [Match.stop]
    · rintro (e | e)
      · have := congrArg List.length e
        rw [List.length_append, List.length_append] at this
        have h2 : ("if".toList : Str).length = 2 := by decide
        omega
      · have e' := congrArg (fun s => s[1]?) e
        simp at e'

theorem runIf_cond {ns : List Str} (hns : ∀ m ∈ ns, IfName m) {n X a b : Str} {k : Nat} (h : Opens ns n X) (hown : n ∈ ns → n ∉ ownIfs)
    (hx : extractElseElseifFi (delims ns) X = .ok a b [] k) :
    handle ns ("\\if".toList ++ n ++ X) = .token ("conditional-".toList ++ if n ∈ ns then n else "if".toList) n
      (if n = "false".toList then b else a) (if n = "false".toList then a else b) (3 + n.length + k) := by
  obtain ⟨g, hf⟩ := first_opens hns h
  unfold handle
  rw [hf]
  simp only
  have hname : (if n ∈ ns then n else "if".toList) ∉ ownIfs := by
    split
    · rename_i hm; exact hown hm
    · decide
  have hc := condition_name h ("\\if".toList ++ n ++ X) g
  generalize (if n ∈ ns then n else "if".toList) = name at *
  unfold runIf
  simp only
  rw [if_neg (fun e => hname (by rw [e]; decide)), if_neg (by
    rintro (e | e | e) <;> exact hname (by rw [e]; decide)), if_neg (fun e => hname (by rw [e]; decide)), hc]
  simp only
  have hlen : ("\\if".toList ++ n).length = 3 + n.length := by simp; omega
  have hbr : n.filter (fun c => c != '{' && c != '}') = n := by
    rw [List.filter_eq_self]
    intro c hc
    have := name_char_facts ((opens_noname h).1.2 c hc)
    simp [this.2.1, this.2.2.2.2.2.1]
  have hfalse := C23_iffalse (delims ns) ("\\if".toList ++ n ++ X) (3 + n.length) a b [] k (by rw [← hlen, List.drop_left]; exact hx)
  rw [hlen]
  by_cases hnf : n = "false".toList
  · subst hnf
    rw [hfalse.1]
    simp
  · rw [hfalse.2 n (by rw [hbr]; exact hnf)]
    rw [if_neg hnf, if_neg hnf]

/-- C63: `\ifn X\fi`: the text up to the matching `\fi` is the branch. -/
theorem C63_fi (ns : List Str) (hns : ∀ m ∈ ns, IfName m) (n x rest : Str) (h : Opens ns n (x ++ "\\fi".toList)) (hown : n ∈ ns → n ∉ ownIfs)
    (hx : CondText ns true x) (hr : ∀ c ∈ rest.head?, isWord c = false) :
    handle ns ("\\if".toList ++ n ++ (x ++ ("\\fi".toList ++ rest))) = .token ("conditional-".toList ++ if n ∈ ns then n else "if".toList) n
      (if n = "false".toList then [] else strip x) (if n = "false".toList then strip x else []) ("\\if".toList ++ n ++ x ++ "\\fi".toList).length := by
  rw [runIf_cond hns (opens_head h (by cases x <;> simp)) hown (branch_one hns hx hr)]
  congr 1
  simp; omega

/-- C63: `\ifn X\else Y\fi`: the texts before and behind the `\else` of this conditional are the branches; `\iffalse` exchanges them. -/
theorem C63_else (ns : List Str) (hns : ∀ m ∈ ns, IfName m) (n x y rest : Str) (h : Opens ns n (x ++ "\\else".toList)) (hown : n ∈ ns → n ∉ ownIfs)
    (hx : CondText ns true x) (hy : CondText ns true y) (hy0 : ∀ c ∈ y.head?, isWord c = false) (hr : ∀ c ∈ rest.head?, isWord c = false) :
    handle ns ("\\if".toList ++ n ++ (x ++ ("\\else".toList ++ (y ++ ("\\fi".toList ++ rest))))) = .token ("conditional-".toList ++ if n ∈ ns then n else "if".toList) n
      (if n = "false".toList then strip y else strip x) (if n = "false".toList then strip x else strip y) ("\\if".toList ++ n ++ x ++ "\\else".toList ++ y ++ "\\fi".toList).length := by
  rw [runIf_cond hns (opens_head h (by cases x <;> simp)) hown (branch_two hns hx hy hy0 hr)]
  congr 1
  simp; omega

end L2J.Cond
