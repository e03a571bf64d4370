import Verif.Lemmas.Regex
import Verif.Model.SubstArgs
import Verif.Spec.SubstArgs
namespace L2J
open Spec

/-- hashes at the head -/
abbrev hs (t : Str) : Str := t.takeWhile (· == '#')
/-- digits after the hashes -/
abbrev dsOf (t : Str) : Str := (t.dropWhile (· == '#')).takeWhile isDigit

theorem hash_not_digit : isDigit '#' = false := by decide
theorem backslash_not_digit : isDigit '\\' = false := by decide

theorem run_hash_digits_head? (a b : Nat) (rev rest : Str) (g : List (Nat × Str)) :
    ((Re.seq (.group a (.plus (.chr (· == '#')))) (.group b (.plus (.chr isDigit)))).run ⟨rev, rest, g⟩).head? =
      if hs rest = [] ∨ dsOf rest = [] then none else
        some ⟨(dsOf rest).reverse ++ ((hs rest).reverse ++ rev), (rest.dropWhile (· == '#')).dropWhile isDigit,
          (b, dsOf rest) :: (a, hs rest) :: g⟩ := by
  have step : (Re.seq (.group a (.plus (.chr (· == '#')))) (.group b (.plus (.chr isDigit)))).run ⟨rev, rest, g⟩ =
      ((Re.plus (.chr (· == '#'))).run ⟨rev, rest, g⟩).flatMap (fun st' =>
        (Re.group b (.plus (.chr isDigit))).run
          { st' with groups := (a, rest.take (rest.length - st'.rest.length)) :: st'.groups }) := by
    simp only [Re.run, List.flatMap_map]
  rw [step, run_plus_chr_flatMap]
  · by_cases h1 : hs rest = []
    · simp [h1]
    · simp only [h1, if_false, false_or]
      simp only [Re.run]
      rw [List.head?_map, show ∀ st, (Re.plus (.chr isDigit)).run st = (Re.plus (.chr isDigit)).run ⟨st.rev, st.rest, st.groups⟩ from fun st => rfl]
      rw [run_plus_chr_head?]
      have hl : (hs rest).length + (rest.dropWhile (· == '#')).length = rest.length := dropWhile_length (· == '#') rest
      have hl2 : (dsOf rest).length + ((rest.dropWhile (· == '#')).dropWhile isDigit).length = (rest.dropWhile (· == '#')).length := dropWhile_length isDigit (rest.dropWhile (· == '#'))
      by_cases h2 : dsOf rest = []
      · simp [h2]
      · simp only [h2, if_false, Option.map_some, Option.some.injEq, MSt.mk.injEq, true_and]
        congr 1
        · congr 1
          rw [show (rest.dropWhile (· == '#')).length - ((rest.dropWhile (· == '#')).dropWhile isDigit).length
            = (dsOf rest).length by omega]
          exact (takeWhile_eq_take _ _).symm
        · congr 2
          rw [show rest.length - (rest.dropWhile (· == '#')).length = (hs rest).length by omega]
          exact (takeWhile_eq_take _ _).symm
  · intro rev x rest' hx
    have : x = '#' := by simpa using hx
    subst this
    simp [Re.run, Re.plus, hash_not_digit]

theorem noEsc_matchAt (rev rest : Str) :
    noEscHashNumber.matchAt rev rest =
      if rev.head? = some '\\' ∨ hs rest = [] ∨ dsOf rest = [] then none else
        some ⟨rev, rest, (hs rest).length + (dsOf rest).length, [(2, dsOf rest), (1, hs rest)]⟩ := by
  rw [Re.matchAt_eq]
  have hl : (hs rest).length + (rest.dropWhile (· == '#')).length = rest.length := dropWhile_length (· == '#') rest
  have hl2 : (dsOf rest).length + ((rest.dropWhile (· == '#')).dropWhile isDigit).length = (rest.dropWhile (· == '#')).length := dropWhile_length isDigit (rest.dropWhile (· == '#'))
  have key := run_hash_digits_head? 1 2 rev rest []
  have e : noEscHashNumber.run ⟨rev, rest, []⟩ = if rev.head? = some '\\' then [] else
      (Re.seq (.group 1 (.plus (.chr (· == '#')))) (.group 2 (.plus (.chr isDigit)))).run ⟨rev, rest, []⟩ := by
    unfold noEscHashNumber
    rw [Re.run]
    cases rev with
    | nil => simp [Re.run]
    | cons x rev =>
      by_cases hx : x = '\\'
      · subst hx; simp [Re.run]
      · simp [Re.run, hx]
  rw [e]
  by_cases h0 : rev.head? = some '\\'
  · simp [h0]
  · simp only [h0, if_false, false_or]
    rw [key]
    by_cases h : hs rest = [] ∨ dsOf rest = []
    · simp [h]
    · simp only [h, if_false, Option.map_some]
      congr 2
      omega

theorem hashNumber_matchAt (rev rest : Str) :
    hashNumber.matchAt rev rest =
      if ['\\', '#'].isPrefixOf rest then some ⟨rev, rest, 2, [(1, ['\\', '#'])]⟩
      else if hs rest = [] ∨ dsOf rest = [] then none else
        some ⟨rev, rest, (hs rest).length + (dsOf rest).length, [(3, dsOf rest), (2, hs rest)]⟩ := by
  rw [Re.matchAt_eq]
  have hl : (hs rest).length + (rest.dropWhile (· == '#')).length = rest.length := dropWhile_length (· == '#') rest
  have hl2 : (dsOf rest).length + ((rest.dropWhile (· == '#')).dropWhile isDigit).length = (rest.dropWhile (· == '#')).length := dropWhile_length isDigit (rest.dropWhile (· == '#'))
  have key := run_hash_digits_head? 2 3 rev rest []
  unfold hashNumber
  rw [Re.run, List.head?_append, key]
  by_cases hp : ['\\', '#'].isPrefixOf rest
  · obtain ⟨r, rfl⟩ : ∃ r, rest = '\\' :: '#' :: r := by
      have := List.isPrefixOf_iff_prefix.1 hp
      obtain ⟨r, hr⟩ := this
      exact ⟨r, hr.symm⟩
    have e : r.length + 1 + 1 - r.length = 2 := by omega
    simp [Re.run, Re.lit, e]
  · have : (Re.group 1 (.lit ['\\', '#'])).run ⟨rev, rest, []⟩ = [] := by
      cases rest with
      | nil => simp [Re.run, Re.lit]
      | cons x rest =>
        by_cases hx : x = '\\'
        · subst hx
          cases rest with
          | nil => simp [Re.run, Re.lit]
          | cons y rest =>
            by_cases hy : y = '#'
            · subst hy; simp at hp
            · simp [Re.run, Re.lit, hy]
        · simp [Re.run, Re.lit, hx]
    rw [this]
    simp only [hp]
    by_cases h : hs rest = [] ∨ dsOf rest = []
    · simp [h]
    · simp [h]
      omega

theorem takeWhile_append_stop {α} (p : α → Bool) (a b : List α) (ha : ∀ x ∈ a, p x = true)
    (hb : ∀ x, b.head? = some x → p x = false) :
    (a ++ b).takeWhile p = a ∧ (a ++ b).dropWhile p = b := by
  induction a with
  | nil =>
    cases b with
    | nil => simp
    | cons y b => have := hb y rfl; simp [this]
  | cons x a ih =>
    obtain ⟨h1, h2⟩ := ih (fun y hy => ha y (by simp [hy]))
    simp [ha x (by simp), h1, h2]

/-- Hashes and digits at a parameter token. -/
theorem hs_ds_param (k : Nat) (ds rest : Str) (hk : 0 < k) (hds : ds ≠ [])
    (hd : ∀ d ∈ ds, isDigit d = true) (hr : ∀ x, rest.head? = some x → isDigit x = false) :
    hs (List.replicate k '#' ++ ds ++ rest) = List.replicate k '#' ∧
    dsOf (List.replicate k '#' ++ ds ++ rest) = ds := by
  have h1 := takeWhile_append_stop (· == '#') (List.replicate k '#') (ds ++ rest)
    (by intro x hx; simp at hx; simp [hx])
    (by
      intro x hx
      cases ds with
      | nil => exact absurd rfl hds
      | cons d ds =>
        simp at hx
        subst hx
        have := hd d (by simp)
        simp only [beq_eq_false_iff_ne]
        rintro rfl
        rw [hash_not_digit] at this; cases this)
  have h2 := takeWhile_append_stop isDigit ds rest hd hr
  unfold hs dsOf
  rw [List.append_assoc, h1.1, h1.2, h2.1]
  exact ⟨rfl, rfl⟩

theorem paramHere_iff (t : Str) : ParamHere t ↔ hs t ≠ [] ∧ dsOf t ≠ [] := by
  constructor
  · rintro ⟨k, d, rest, hk, hd, rfl⟩
    have h1 := takeWhile_append_stop (· == '#') (List.replicate k '#') (d :: rest)
      (by intro x hx; simp at hx; simp [hx])
      (by intro x hx; simp at hx; subst hx
          simp only [beq_eq_false_iff_ne]
          rintro rfl
          rw [hash_not_digit] at hd; cases hd)
    unfold hs dsOf
    rw [h1.1, h1.2]
    simp [hd]
    omega
  · rintro ⟨h1, h2⟩
    cases hd : dsOf t with
    | nil => exact absurd hd h2
    | cons d ds =>
      have e1 := List.takeWhile_append_dropWhile (p := (· == '#')) (l := t)
      have e2 := List.takeWhile_append_dropWhile (p := isDigit) (l := t.dropWhile (· == '#'))
      have hrep : hs t = List.replicate (hs t).length '#' := by
        rw [List.eq_replicate_iff]
        refine ⟨rfl, fun x hx => ?_⟩
        have := List.all_eq_true.1 (List.all_takeWhile (p := (· == '#')) (l := t)) x hx
        simpa using this
      refine ⟨(hs t).length, d, ds ++ (t.dropWhile (· == '#')).dropWhile isDigit, ?_, ?_, ?_⟩
      · exact List.length_pos_iff.2 h1
      · have : d ∈ dsOf t := by rw [hd]; simp
        exact List.all_eq_true.1 (List.all_takeWhile (p := isDigit)) d this
      · rw [← hrep]
        have : d :: (ds ++ (t.dropWhile (· == '#')).dropWhile isDigit) = t.dropWhile (· == '#') := by
          rw [← List.cons_append, ← hd]; exact e2
        rw [this, e1]

theorem lit_not_prefix {c : Char} {rest : Str} (h : ¬ (c = '\\' ∧ rest.head? = some '#')) :
    ['\\', '#'].isPrefixOf (c :: rest) = false := by
  cases rest with
  | nil => simp [List.isPrefixOf]
  | cons y rest =>
    simp only [List.head?_cons, Option.some.injEq, not_and] at h
    simp only [List.isPrefixOf_cons_cons, Bool.and_eq_false_iff, beq_eq_false_iff_ne, ne_eq]
    by_cases hc : '\\' = c
    · right; left; exact fun hy => h hc.symm hy.symm
    · left; exact hc

/-- Spec-side meaning with context: previous character, tokens. -/
def substAll (alpha : Char → Bool) (args : List (Option Str)) (math : Bool) (k : Nat) :
    Option Char → List Tok → Str
  | _, [] => []
  | prev, t :: ts =>
    let last := t.render.getLast?
    let next := (ts.flatMap Tok.render).head?
    let out := match t with
      | .param k' ds =>
        if k' = k ∧ digitsVal ds ≤ args.length then
          let a := ((pyArg args (digitsVal ds)).getD none).getD []
          if math && !a.isEmpty && ((prev.map alpha).getD false || (next.map alpha).getD false) then
            '{' :: a ++ ['}'] else a
        else t.render
      | _ => t.render
    out ++ substAll alpha args math k (if last.isSome then last else prev) ts

theorem Spec.Reads.render {t : Str} {ts : List Tok} (h : Reads t ts) : ts.flatMap Tok.render = t := by
  induction h with
  | nil => rfl
  | esc rest ts _ ih => simp [Tok.render, ih]
  | param k ds rest ts _ _ _ _ _ ih => simp [Tok.render, ih]
  | lit c rest ts _ _ _ ih => simp [Tok.render, ih]

theorem sub_reads (alpha : Char → Bool) (args : List (Option Str)) (math : Bool) (k : Nat)
    {t : Str} {ts : List Tok} (h : Reads t ts) : ∀ rev,
    hashNumber.subAux (substFn alpha args math k) 0 rev t = substAll alpha args math k rev.head? ts := by
  induction h with
  | nil => intro rev; rfl
  | esc rest ts _ ih =>
    intro rev
    have hm := hashNumber_matchAt rev ('\\' :: '#' :: rest)
    simp only [List.isPrefixOf_cons_cons, BEq.rfl, List.isPrefixOf_nil_left, Bool.and_self, if_true] at hm
    have := Re.subAux_match hashNumber (substFn alpha args math k) ['\\', '#'] rev rest _ (by simp) hm rfl
    simp only [List.cons_append, List.nil_append] at this
    rw [this, ih]
    simp [substFn, Match.group, Match.text, substAll, Tok.render]
  | param k' ds rest ts hk hds hd hr hrd ih =>
    intro rev
    obtain ⟨e1, e2⟩ := hs_ds_param k' ds rest hk hds hd hr
    have hm := hashNumber_matchAt rev (List.replicate k' '#' ++ ds ++ rest)
    rw [e1, e2] at hm
    have hnp : ['\\', '#'].isPrefixOf (List.replicate k' '#' ++ ds ++ rest) = false := by
      obtain ⟨n, rfl⟩ : ∃ n, k' = n + 1 := ⟨k' - 1, by omega⟩
      simp [List.replicate_succ, List.isPrefixOf_cons_cons]
    have hne : ¬ (List.replicate k' '#' = [] ∨ ds = []) := by
      simp [hds]; omega
    rw [hnp, if_neg hne] at hm
    simp only [Bool.false_eq_true, if_false] at hm
    have := Re.subAux_match hashNumber (substFn alpha args math k) (List.replicate k' '#' ++ ds) rev rest _
      (by simp [hds]) hm (by simp)
    rw [this, ih]
    have hren := hrd.render
    have hlast : (Tok.param k' ds).render.getLast? = ((List.replicate k' '#' ++ ds).reverse ++ rev).head? := by
      simp only [Tok.render]
      rw [List.head?_append, List.head?_reverse]
      cases h : (List.replicate k' '#' ++ ds).getLast? with
      | none => simp [hds] at h
      | some x => rfl
    have hls : ((Tok.param k' ds).render.getLast?).isSome = true := by
      simp [Tok.render, hds]
    rw [hlast] at hls
    simp only [substAll, hlast, hren]
    rw [if_pos hls]
    congr 1
    unfold substFn
    simp only [Match.group, List.find?_cons, List.find?_nil, Match.text]
    simp only [Nat.reduceBEq, Bool.false_eq_true, if_false, if_true, Option.map_none, Option.map_some,
      Option.getD_some, List.length_replicate]
    have hdrop : (List.replicate k' '#' ++ ds ++ rest).drop (k' + ds.length) = rest := by
      rw [show k' + ds.length = (List.replicate k' '#' ++ ds).length by simp, List.drop_left]
    have htake : (List.replicate k' '#' ++ ds ++ rest).take (k' + ds.length) = List.replicate k' '#' ++ ds := by
      rw [show k' + ds.length = (List.replicate k' '#' ++ ds).length by simp, List.take_left]
    rw [hdrop, htake]
    by_cases hkk : k' = k
    · by_cases hn : digitsVal ds ≤ args.length
      · have hA : ¬ (digitsVal ds ≥ args.length + 1) := by omega
        simp only [if_pos hkk, if_neg hA, if_pos (And.intro hkk hn)]
        by_cases hmm : (math && !(((pyArg args (digitsVal ds)).getD none).getD []).isEmpty) = true
        · simp only [hmm, if_true, Bool.true_and]
        · rw [Bool.not_eq_true] at hmm
          simp only [hmm, Bool.false_and, Bool.false_eq_true, if_false]
      · rw [if_pos hkk, if_pos (by omega), if_neg (fun h => hn h.2)]
        rfl
    · rw [if_neg hkk, if_neg (fun h => hkk h.1)]
      rfl
  | lit c rest ts h1 h2 _ ih =>
    intro rev
    have hm := hashNumber_matchAt rev (c :: rest)
    rw [lit_not_prefix h1] at hm
    have h2' : hs (c :: rest) = [] ∨ dsOf (c :: rest) = [] := by
      rw [paramHere_iff] at h2
      by_cases h : hs (c :: rest) = []
      · exact .inl h
      · exact .inr (Decidable.byContradiction fun h' => h2 ⟨h, h'⟩)
    rw [if_pos h2'] at hm
    rw [Re.subAux_none _ _ _ _ _ (by simpa using hm), ih]
    simp [substAll, Tok.render]

/-- Hash counts of the parameter tokens. -/
def levels : List Tok → List Nat
  | [] => []
  | .param k _ :: ts => k :: levels ts
  | _ :: ts => levels ts

theorem findIter_reads {t : Str} {ts : List Tok} (h : Reads t ts) : ∀ rev,
    ¬ (rev.head? = some '\\' ∧ t.head? = some '#') →
    (noEscHashNumber.findIter 0 rev t).map (fun m => ((m.group 1).getD []).length) = levels ts := by
  induction h with
  | nil => intro rev _; rfl
  | esc rest ts hr ih =>
    intro rev hrev
    have h1 : noEscHashNumber.matchAt rev ('\\' :: '#' :: rest) = none := by
      rw [noEsc_matchAt]; simp
    have h2 : noEscHashNumber.matchAt ('\\' :: rev) ('#' :: rest) = none := by
      rw [noEsc_matchAt]; simp
    rw [Re.findIter_none _ _ _ _ h1, Re.findIter_none _ _ _ _ h2, ih _ (by simp)]
    rfl
  | param k' ds rest ts hk hds hd hr hrd ih =>
    intro rev hrev
    obtain ⟨e1, e2⟩ := hs_ds_param k' ds rest hk hds hd hr
    have hm := noEsc_matchAt rev (List.replicate k' '#' ++ ds ++ rest)
    rw [e1, e2] at hm
    have hne : ¬ (rev.head? = some '\\' ∨ List.replicate k' '#' = [] ∨ ds = []) := by
      rintro (h | h | h)
      · apply hrev
        refine ⟨h, ?_⟩
        obtain ⟨n, rfl⟩ : ∃ n, k' = n + 1 := ⟨k' - 1, by omega⟩
        simp [List.replicate_succ]
      · simp at h; omega
      · exact hds h
    rw [if_neg hne] at hm
    have := Re.findIter_match noEscHashNumber (List.replicate k' '#' ++ ds) rev rest _
      (by simp [hds]) hm (by simp)
    rw [this, List.map_cons, ih]
    · simp [levels, Match.group]
    · rintro ⟨h3, _⟩
      rw [List.head?_append, List.head?_reverse, List.getLast?_append] at h3
      cases hl : ds.getLast? with
      | none => simp [hds] at hl
      | some x =>
        simp [hl] at h3
        subst h3
        have := hd _ (List.mem_of_getLast? hl)
        rw [backslash_not_digit] at this; cases this
  | lit c rest ts h1 h2 _ ih =>
    intro rev hrev
    have hm := noEsc_matchAt rev (c :: rest)
    have h2' : hs (c :: rest) = [] ∨ dsOf (c :: rest) = [] := by
      rw [paramHere_iff] at h2
      by_cases h : hs (c :: rest) = []
      · exact .inl h
      · exact .inr (Decidable.byContradiction fun h' => h2 ⟨h, h'⟩)
    rw [if_pos (.inr h2')] at hm
    rw [Re.findIter_none _ _ _ _ hm, ih]
    · rfl
    · simpa using h1

theorem mem_levels {ts : List Tok} {k : Nat} : k ∈ levels ts ↔ ∃ ds, Tok.param k ds ∈ ts := by
  induction ts with
  | nil => simp [levels]
  | cons t ts ih =>
    cases t with
    | lit c => simp [levels, ih]
    | escHash => simp [levels, ih]
    | param k' ds =>
      simp only [levels, List.mem_cons, ih, Tok.param.injEq]
      constructor
      · rintro (rfl | ⟨d, h⟩)
        · exact ⟨ds, .inl ⟨rfl, rfl⟩⟩
        · exact ⟨d, .inr h⟩
      · rintro ⟨d, ⟨rfl, rfl⟩ | h⟩
        · exact .inl rfl
        · exact .inr ⟨d, h⟩

theorem minHashes_iff {ts : List Tok} {k : Nat} : MinHashes ts k ↔ (levels ts).min? = some k := by
  rw [List.min?_eq_some_iff]
  unfold MinHashes
  rw [mem_levels]
  constructor
  · rintro ⟨h1, h2⟩
    exact ⟨h1, fun b hb => by obtain ⟨ds, h⟩ := mem_levels.1 hb; exact h2 b ds h⟩
  · rintro ⟨h1, h2⟩
    exact ⟨h1, fun k' ds h => h2 k' (mem_levels.2 ⟨ds, h⟩)⟩

theorem Spec.Reads.param_pos {t : Str} {ts : List Tok} (h : Reads t ts) {k : Nat} {ds : Str}
    (hm : Tok.param k ds ∈ ts) : 0 < k := by
  induction h with
  | nil => simp at hm
  | esc rest ts _ ih => simp at hm; exact ih hm
  | param k' ds' rest ts hk _ _ _ _ ih =>
    simp at hm
    rcases hm with ⟨rfl, _⟩ | hm
    · exact hk
    · exact ih hm
  | lit c rest ts _ _ _ ih => simp at hm; exact ih hm

/-- Every text has a reading. -/
theorem exists_reads (t : Str) : ∃ ts, Reads t ts := by
  suffices H : ∀ n (t : Str), t.length ≤ n → ∃ ts, Reads t ts from H t.length t (Nat.le_refl _)
  intro n
  induction n with
  | zero =>
    intro t ht
    have : t = [] := List.eq_nil_of_length_eq_zero (by omega)
    subst this; exact ⟨[], .nil⟩
  | succ n ih =>
    intro t ht
    cases t with
    | nil => exact ⟨[], .nil⟩
    | cons c rest =>
      by_cases h1 : c = '\\' ∧ rest.head? = some '#'
      · obtain ⟨rfl, h⟩ := h1
        cases rest with
        | nil => simp at h
        | cons y rest =>
          simp at h; subst h
          obtain ⟨ts, hts⟩ := ih rest (by simp at ht; omega)
          exact ⟨_, .esc rest ts hts⟩
      · by_cases h2 : ParamHere (c :: rest)
        · have hp := (paramHere_iff _).1 h2
          have e1 := List.takeWhile_append_dropWhile (p := (· == '#')) (l := c :: rest)
          have e2 := List.takeWhile_append_dropWhile (p := isDigit) (l := (c :: rest).dropWhile (· == '#'))
          have hrep : hs (c :: rest) = List.replicate (hs (c :: rest)).length '#' := by
            rw [List.eq_replicate_iff]
            refine ⟨rfl, fun x hx => ?_⟩
            have := List.all_eq_true.1 (List.all_takeWhile (p := (· == '#')) (l := c :: rest)) x hx
            simpa using this
          have l1 := dropWhile_length (· == '#') (c :: rest)
          have l2 := dropWhile_length isDigit ((c :: rest).dropWhile (· == '#'))
          have hpos : 0 < (hs (c :: rest)).length := List.length_pos_iff.2 hp.1
          obtain ⟨ts, hts⟩ := ih (((c :: rest).dropWhile (· == '#')).dropWhile isDigit) (by unfold hs at hpos; omega)
          have := Reads.param (hs (c :: rest)).length (dsOf (c :: rest)) _ ts hpos hp.2
            (fun d hd => List.all_eq_true.1 (List.all_takeWhile (p := isDigit)) d hd)
            (fun x hx => by
              have := List.head?_dropWhile_not isDigit ((c :: rest).dropWhile (· == '#'))
              rw [hx] at this; simpa using this) hts
          rw [← hrep, List.append_assoc, e2, e1] at this
          exact ⟨_, this⟩
        · obtain ⟨ts, hts⟩ := ih rest (by simpa using ht)
          exact ⟨_, .lit c rest ts h1 h2 hts⟩

end L2J
