import Verif.Spec.Archive
import Verif.Props.C29
/-! C27: extraction stays inside the temporary directory. -/
namespace L2J
open Spec

/-- A component that names an entry. -/
def realComp (c : Str) : Bool := !(c = [] ∨ c = ['.'])

theorem Spec.ValidName.real {c : Str} (h : ValidName c) : realComp c = true := by
  simp [realComp, h.nonempty, h.notDot]

theorem Spec.ValidName.not2 {c : Str} (h : ValidName c) : ¬ (c = [] ∨ c = ['.']) := by
  rintro (e | e)
  · exact h.nonempty e
  · exact h.notDot e

theorem Spec.ValidName.not3 {c : Str} (h : ValidName c) : ¬ (c = [] ∨ c = ['.'] ∨ c = ['.', '.']) := by
  rintro (e | e | e)
  · exact h.nonempty e
  · exact h.notDot e
  · exact h.notDotDot e

/-- Resolving a path without `..` and without links on the way only drops empty and `.` components. -/
theorem resolve_plain (fs : PFS) : ∀ (n : Nat) (cur rest r : List Str), ['.', '.'] ∉ rest →
    (∀ q, q <+: rest.filter realComp → q ≠ [] → ∀ t, fs (cur ++ q) ≠ some (.link t)) →
    resolve fs n cur rest = some r → r = cur ++ rest.filter realComp := by
  intro n cur rest
  induction rest generalizing n cur with
  | nil => intro r _ _ h; cases n <;> simp [resolve] at h <;> simp [h]
  | cons c rest ih =>
    intro r hd hl h
    cases n with
    | zero => simp [resolve] at h
    | succ n =>
      unfold resolve at h
      have hd' : ['.', '.'] ∉ rest := fun hm => hd (by simp [hm])
      have hc : c ≠ ['.', '.'] := fun hm => hd (by simp [hm])
      by_cases h0 : c = [] ∨ c = ['.']
      · rw [if_pos h0] at h
        have hr : realComp c = false := by unfold realComp; rw [decide_eq_true h0]; rfl
        rw [List.filter_cons_of_neg (by simp [hr])] at hl ⊢
        exact ih n cur r hd' hl h
      · rw [if_neg h0, if_neg hc] at h
        have hr : realComp c = true := by unfold realComp; rw [decide_eq_false h0]; rfl
        rw [List.filter_cons_of_pos hr] at hl ⊢
        have hnl := hl [c] ⟨_, rfl⟩ (by simp)
        have h' : resolve fs n (cur ++ [c]) rest = some r := by
          split at h
          · next t ht => exact absurd ht (hnl t)
          · exact h
        have := ih n (cur ++ [c]) r hd' (fun q hq hne t => by
          have := hl (c :: q) (by
            obtain ⟨z, hz⟩ := hq
            exact ⟨z, by rw [List.cons_append, hz]⟩) (by simp) t
          simpa using this) h'
        simpa using this

/-- The invariant of an extraction that makes no links. -/
structure Inv (base : List Str) (fs0 fs : PFS) : Prop where
  dirs : ∀ p, p <+: base → fs p = some .dir
  nolink : ∀ p, base <+: p → ∀ t, fs p ≠ some (.link t)
  outside : ∀ p, ¬ base <+: p → fs p = fs0 p

theorem comparable {base p z : List Str} (h : p <+: base ++ z) : p <+: base ∨ base <+: p :=
  List.prefix_or_prefix_of_prefix h ⟨z, rfl⟩

theorem Inv.nolink' {base : List Str} {fs0 fs : PFS} (h : Inv base fs0 fs) {p z : List Str} (hp : p <+: base ++ z)
    (t : Str) : fs p ≠ some (.link t) := by
  rcases comparable hp with hb | hb
  · rw [h.dirs p hb]; simp
  · exact h.nolink p hb t

theorem Inv.mkdirs {base : List Str} {fs0 fs : PFS} (h : Inv base fs0 fs) {p z : List Str} (hp : p <+: base ++ z) :
    Inv base fs0 (fs.mkdirs p) := by
  have key : ∀ q, (fs.mkdirs p) q = fs q ∨ (base <+: q ∧ (fs.mkdirs p) q = some .dir) := by
    intro q
    unfold PFS.mkdirs
    by_cases hq : q <+: p ∧ fs q = none
    · rw [if_pos hq]
      rcases comparable (hq.1.trans hp) with hb | hb
      · rw [h.dirs q hb] at hq; cases hq.2
      · exact .inr ⟨hb, rfl⟩
    · rw [if_neg hq]; exact .inl rfl
  refine ⟨fun q hq => ?_, fun q hq t => ?_, fun q hq => ?_⟩
  · rcases key q with hk | hk
    · rw [hk]; exact h.dirs q hq
    · exact hk.2
  · rcases key q with hk | hk
    · rw [hk]; exact h.nolink q hq t
    · rw [hk.2]; simp
  · rcases key q with hk | hk
    · rw [hk]; exact h.outside q hq
    · exact absurd hk.1 hq

theorem Inv.put {base : List Str} {fs0 fs : PFS} (h : Inv base fs0 fs) {p z : List Str} (hp : p <+: base ++ z)
    {n : PNode} (hn : ∀ t, n ≠ .link t) (hd : fs p ≠ some .dir) : Inv base fs0 (fs.put p n) := by
  have hb : base <+: p := by
    rcases comparable hp with hb | hb
    · exact absurd (h.dirs p hb) hd
    · exact hb
  refine ⟨fun q hq => ?_, fun q hq t => ?_, fun q hq => ?_⟩ <;> unfold PFS.put
  · split
    next he => subst he; exact absurd (h.dirs q hq) hd
    next => exact h.dirs q hq
  · split
    · simpa using hn t
    · exact h.nolink q hq t
  · split
    next he => subst he; exact absurd hb hq
    next => exact h.outside q hq

/-- Creating a file or a directory at a path without `..` below or above `base` keeps the invariant. -/
theorem createAt_inv {base : List Str} {fs0 fs : PFS} (h : Inv base fs0 fs) (fuel : Nat) (ys z : List Str)
    (hd : ['.', '.'] ∉ ys) (hz : ys.filter realComp <+: base ++ z) (k : MKind) (hk : ∀ t, k ≠ .link t) :
    Inv base fs0 (createAt fuel fs ys k) := by
  unfold createAt
  split
  · exact h
  next last rp hrev =>
    have hys : ys = rp.reverse ++ [last] := by
      have := congrArg List.reverse hrev; simpa using this
    have hdp : ['.', '.'] ∉ rp.reverse := fun hm => hd (by rw [hys]; simp at hm ⊢; exact .inl hm)
    have hfp : rp.reverse.filter realComp <+: ys.filter realComp := by rw [hys, List.filter_append]; exact ⟨_, rfl⟩
    split
    · exact h
    next parent hres =>
      have hpar : parent = rp.reverse.filter realComp := by
        have := resolve_plain fs fuel [] _ parent hdp
          (fun q hq _ t => by rw [List.nil_append]; exact h.nolink' ((hq.trans hfp).trans hz) t) hres
        simpa using this
      have hpz : parent <+: base ++ z := by rw [hpar]; exact hfp.trans hz
      have h1 := h.mkdirs hpz
      simp only []
      split
      · split
        next p hp =>
          have : p = ys.filter realComp := by
            have := resolve_plain _ fuel [] ys p hd
              (fun q hq _ t => by rw [List.nil_append]; exact h1.nolink' (hq.trans hz) t) hp
            simpa using this
          split
          · exact h1
          next hnd => exact h1.put (this ▸ hz) (by simp) hnd
        · exact h1
      · split
        · exact h1
        next hl =>
          split
          next hn =>
            refine h1.put (z := z) ?_ (by simp) (by rw [hn]; simp)
            have hr : realComp last = true := by
              unfold realComp
              rw [decide_eq_false (fun hh => hl (by rcases hh with hh | hh <;> simp [hh]))]; rfl
            have : parent ++ [last] = ys.filter realComp := by
              rw [hpar, hys, List.filter_append, List.filter_cons_of_pos hr, List.filter_nil]
            rw [this]; exact hz
          · exact h1
      · next t => exact absurd rfl (hk t)

theorem splitSlash_ne (s : Str) : splitSlash s ≠ [] := by
  cases s with
  | nil => simp [splitSlash]
  | cons c cs => unfold splitSlash; split; · simp
                 · split <;> simp

/-- Splitting is undone by joining at slashes. -/
theorem splitSlash_append (a : Str) (h : '/' ∉ a) (b : Str) : splitSlash (a ++ '/' :: b) = a :: splitSlash b := by
  induction a with
  | nil => simp [splitSlash]
  | cons c a ih =>
    have hc : c ≠ '/' := fun e => h (by simp [e])
    rw [List.cons_append, splitSlash, if_neg hc, ih (fun hm => h (by simp [hm]))]

theorem splitSlash_single (a : Str) (h : '/' ∉ a) : splitSlash a = [a] := by
  induction a with
  | nil => simp [splitSlash]
  | cons c a ih =>
    have hc : c ≠ '/' := fun e => h (by simp [e])
    rw [splitSlash, if_neg hc, ih (fun hm => h (by simp [hm]))]

theorem splitSlash_abs (base : List Str) (h : ∀ c ∈ base, '/' ∉ c) (b : Str) :
    splitSlash (absPath base ++ '/' :: b) = [] :: (base ++ splitSlash b) := by
  induction base with
  | nil => simp [absPath, splitSlash]
  | cons c base ih =>
    have := ih (fun x hx => h x (by simp [hx]))
    unfold absPath at this ⊢
    rw [List.flatMap_cons, List.cons_append, List.cons_append, splitSlash, if_pos rfl, List.append_assoc]
    congr 1
    cases base with
    | nil => simp only [List.flatMap_nil, List.nil_append, List.cons_append]; rw [splitSlash_append _ (h c (by simp))]
    | cons d base =>
      rw [List.flatMap_cons, List.cons_append, List.cons_append, splitSlash_append _ (h c (by simp))]
      rw [List.flatMap_cons, List.cons_append, List.cons_append, splitSlash, if_pos rfl] at this
      rw [List.cons_append]
      congr 1
      exact (List.cons.inj this).2

/-- The same without a remainder. -/
theorem splitSlash_abs' (base : List Str) (hne : base ≠ []) (h : ∀ c ∈ base, '/' ∉ c) :
    splitSlash (absPath base) = [] :: base := by
  obtain ⟨b, c, rfl⟩ : ∃ b c, base = b ++ [c] := ⟨base.dropLast, base.getLast hne, (List.dropLast_concat_getLast hne).symm⟩
  have : absPath (b ++ [c]) = absPath b ++ '/' :: c := by simp [absPath]
  rw [this, splitSlash_abs b (fun x hx => h x (by simp [hx])), splitSlash_single c (h c (by simp))]

/-- Components of a text are parts of it. -/
theorem splitSlash_part : ∀ (s c : Str), c ∈ splitSlash s → Contains s c := by
  have key : ∀ (s : Str), (∀ c ∈ splitSlash s, Contains s c) ∧ ∃ p r, splitSlash s = p :: r ∧ p <+: s := by
    intro s
    induction s with
    | nil => exact ⟨fun c hc => by simp [splitSlash] at hc; subst hc; exact ⟨[], [], rfl⟩, [], [], rfl, List.nil_prefix⟩
    | cons x s ih =>
      obtain ⟨ih1, p, r, hpr, hp⟩ := ih
      unfold splitSlash
      split
      · refine ⟨fun c hc => ?_, [], _, rfl, List.nil_prefix⟩
        rcases List.mem_cons.1 hc with rfl | hc
        · exact ⟨[], x :: s, rfl⟩
        · obtain ⟨a, b, hab⟩ := ih1 c hc
          exact ⟨x :: a, b, by simp [hab]⟩
      · rw [hpr]
        refine ⟨fun c hc => ?_, _, _, rfl, ?_⟩
        · rcases List.mem_cons.1 hc with rfl | hc
          · obtain ⟨b, hb⟩ := hp
            exact ⟨[], b, by simp [hb]⟩
          · obtain ⟨a, b, hab⟩ := ih1 c (by rw [hpr]; simp [hc])
            exact ⟨x :: a, b, by simp [hab]⟩
        · obtain ⟨b, hb⟩ := hp
          exact ⟨b, by simp [hb]⟩
  exact fun s => (key s).1

theorem splitSlash_slashes (s : Str) (k : Nat) : splitSlash (s ++ List.replicate k '/') = splitSlash s ++ List.replicate k [] := by
  induction s with
  | nil =>
    induction k with
    | zero => rfl
    | succ k ih =>
      rw [List.nil_append] at ih
      rw [List.replicate_succ, List.nil_append, splitSlash.eq_2, if_pos rfl, ih]; rfl
  | cons c s ih =>
    rw [List.cons_append, splitSlash, splitSlash, ih]
    split
    · rfl
    · cases h : splitSlash s with
      | nil => exact absurd h (splitSlash_ne s)
      | cons p r => rfl

theorem splitSlash_rstrip (s : Str) : splitSlash (rstripSlash s) <+: splitSlash s := by
  have hs : s = rstripSlash s ++ (s.reverse.takeWhile (· == '/')).reverse := by
    have := congrArg List.reverse (List.takeWhile_append_dropWhile (p := (· == '/')) (l := s.reverse))
    rw [List.reverse_append, List.reverse_reverse] at this
    exact this.symm
  have hr : (s.reverse.takeWhile (· == '/')).reverse = List.replicate (s.reverse.takeWhile (· == '/')).length '/' := by
    rw [List.eq_replicate_iff]
    refine ⟨by simp, fun c hc => ?_⟩
    rw [List.mem_reverse] at hc
    have hall : ∀ (l : Str), ∀ c ∈ l.takeWhile (· == '/'), (c == '/') = true := by
      intro l
      induction l with
      | nil => simp
      | cons x l ih =>
        intro c hc
        rw [List.takeWhile_cons] at hc
        split at hc
        · rcases List.mem_cons.1 hc with rfl | hc
          · assumption
          · exact ih c hc
        · simp at hc
    simpa using hall _ c hc
  rw [hr] at hs
  conv => rhs; rw [hs]
  rw [splitSlash_slashes]
  exact ⟨_, rfl⟩

theorem filter_valid {base : List Str} (h : ∀ c ∈ base, ValidName c) : base.filter realComp = base :=
  List.filter_eq_self.2 fun c hc => (h c hc).real

theorem pathJoin_abs {base : List Str} (hne : base ≠ []) (hv : ∀ c ∈ base, ValidName c) {name : Str}
    (hn : startsWith name ['/'] = false) : pathJoin (absPath base) name = absPath base ++ '/' :: name := by
  unfold pathJoin
  have h1 : name.head? ≠ some '/' := by
    cases name with
    | nil => simp
    | cons c name => simp [startsWith, List.isPrefixOf] at hn; simp; exact fun e => hn e.symm
  obtain ⟨b, c, rfl⟩ : ∃ b c, base = b ++ [c] := ⟨base.dropLast, base.getLast hne, (List.dropLast_concat_getLast hne).symm⟩
  have h2 : (absPath (b ++ [c])).isEmpty = false := by simp [absPath]
  have hc := hv c (by simp)
  have h3 : (absPath (b ++ [c])).getLast? ≠ some '/' := by
    have : absPath (b ++ [c]) = (absPath b ++ ['/']) ++ c := by simp [absPath]
    rw [this, List.getLast?_append]
    cases hl : c.getLast? with
    | none => exact absurd (List.getLast?_eq_none_iff.1 hl) hc.nonempty
    | some x =>
      simp only [Option.some_or, ne_eq, Option.some.injEq]
      rintro rfl
      exact hc.noSlash (List.mem_of_getLast? hl)
  rw [if_neg h1, h2]
  simp [h3]

theorem memberOk_parts {dir name : Str} (h : memberOk dir name = true) :
    startsWith name ['/'] = false ∧ ¬ Contains name ['.', '.'] := by
  unfold memberOk at h
  simp only [Bool.not_or, Bool.and_eq_true, Bool.not_eq_true', Bool.not_not] at h
  refine ⟨h.1.1, fun hc => ?_⟩
  rw [← findSub_contains _ (by decide)] at hc
  rw [hc] at h; exact absurd h.1.2 (by simp)

theorem inv_of_fresh {fs : PFS} {base : List Str} (h : FreshDir fs base) : Inv base fs fs := by
  refine ⟨h.dirs, fun p hp t => ?_, fun _ _ => rfl⟩
  by_cases hb : p = base
  · subst hb; rw [h.dirs p ⟨[], by simp⟩]; simp
  · rw [h.fresh p hp hb]; simp

theorem tarExtract_inv {base : List Str} {fs0 fs : PFS} (hf : FreshDir fs0 base) (h : Inv base fs0 fs) (fuel : Nat)
    (m : Member) (hm : memberOk (absPath base) m.name = true) (hk : ∀ t, m.kind ≠ .link t) :
    Inv base fs0 (tarExtract fuel (absPath base) fs m) := by
  obtain ⟨h1, h2⟩ := memberOk_parts hm
  unfold tarExtract
  have hs := splitSlash_rstrip (pathJoin (absPath base) m.name)
  rw [pathJoin_abs hf.ne hf.valid h1] at hs ⊢
  rw [splitSlash_abs base (fun c hc => (hf.valid c hc).noSlash)] at hs
  refine createAt_inv h fuel _ ((splitSlash m.name).filter realComp) ?_ ?_ _ hk
  · intro hmem
    have := hs.subset hmem
    simp only [List.mem_cons, List.mem_append] at this
    rcases this with h' | h' | h'
    · cases h'
    · exact (hf.valid _ h').notDotDot rfl
    · exact h2 (splitSlash_part _ _ h')
  · have := hs.filter realComp
    rwa [List.filter_cons_of_neg (by decide), List.filter_append, filter_valid hf.valid] at this

/-- C27 (partial): extracting a tar archive without links changes nothing outside the temporary directory, whatever the
names of its members and wherever the extraction stops. Missing: archives with links, for which it is false (below). -/
theorem C27_tar_partial (fs : PFS) (base : List Str) (hf : FreshDir fs base) (fuel : Nat) (ms : List Member)
    (hk : ∀ m ∈ ms, ∀ t, m.kind ≠ .link t) :
    OutsideUnchanged base fs (extractTar fuel (absPath base) fs ms) := by
  unfold extractTar
  have hsafe : ∀ m ∈ ms.filter fun m => memberOk (absPath base) m.name,
      memberOk (absPath base) m.name = true ∧ ∀ t, m.kind ≠ .link t := by
    intro m hm
    have := List.mem_filter.1 hm
    exact ⟨this.2, hk m this.1⟩
  revert hsafe
  generalize (ms.filter fun m => memberOk (absPath base) m.name) = l
  intro hsafe
  suffices ∀ fs1, Inv base fs fs1 → Inv base fs (l.foldl (tarExtract fuel (absPath base)) fs1) from
    (this fs (inv_of_fresh hf)).outside
  induction l with
  | nil => exact fun _ h => h
  | cons m l ih =>
    intro fs1 h
    exact ih (fun x hx => hsafe x (by simp [hx])) _
      (tarExtract_inv hf h fuel m (hsafe m (by simp)).1 (hsafe m (by simp)).2)

/-- C27: extracting a zip archive changes nothing outside the temporary directory, whatever its members. -/
theorem C27_zip (fs : PFS) (base : List Str) (hf : FreshDir fs base) (fuel : Nat) (ms : List Member) :
    OutsideUnchanged base fs (extractZip fuel (absPath base) fs ms) := by
  unfold extractZip
  generalize (ms.filter fun m => memberOk (absPath base) m.name) = l
  suffices ∀ fs1, Inv base fs fs1 → Inv base fs (l.foldl (zipExtract fuel (absPath base)) fs1) from
    (this fs (inv_of_fresh hf)).outside
  induction l with
  | nil => exact fun _ h => h
  | cons m l ih =>
    intro fs1 h
    refine ih _ ?_
    unfold zipExtract
    simp only []
    split
    · exact h
    · rw [splitSlash_abs' base hf.ne (fun c hc => (hf.valid c hc).noSlash)]
      refine createAt_inv h fuel _ (((splitSlash m.name).filter fun c => !(c = [] ∨ c = ['.'] ∨ c = ['.', '.'])).filter realComp)
        ?_ ?_ _ (by intro t; split <;> simp)
      · intro hmem
        simp only [List.cons_append, List.mem_cons, List.mem_append, List.mem_filter] at hmem
        rcases hmem with h' | h' | h'
        · cases h'
        · exact (hf.valid _ h').notDotDot rfl
        · simp at h'
      · rw [List.cons_append, List.filter_cons_of_neg (by decide), List.filter_append, filter_valid hf.valid]
        exact List.prefix_refl _

theorem normComps_plain : ∀ (rest acc : List Str), ['.', '.'] ∉ rest →
    normComps acc rest = acc.reverse ++ rest.filter realComp := by
  intro rest
  induction rest with
  | nil => intro acc _; simp [normComps]
  | cons c rest ih =>
    intro acc hd
    have hd' : ['.', '.'] ∉ rest := fun hm => hd (by simp [hm])
    have hc : c ≠ ['.', '.'] := fun hm => hd (by simp [hm])
    unfold normComps
    by_cases h0 : c = [] ∨ c = ['.']
    · have hr : realComp c = false := by unfold realComp; rw [decide_eq_true h0]; rfl
      rw [if_pos h0, List.filter_cons_of_neg (by simp [hr])]
      exact ih acc hd'
    · have hr : realComp c = true := by unfold realComp; rw [decide_eq_false h0]; rfl
      rw [if_neg h0, if_neg hc, List.filter_cons_of_pos hr, ih _ hd']
      simp

theorem joinWith_slash (c : Str) (l : List Str) : joinWith ['/'] (c :: l) = c ++ absPath l := by
  induction l generalizing c with
  | nil => simp [joinWith, absPath]
  | cons d l ih => rw [joinWith, ih]; simp [absPath]

theorem abspath_abs {base : List Str} (hne : base ≠ []) (hv : ∀ c ∈ base, ValidName c) (rest : Str) (parts : List Str)
    (hs : splitSlash (absPath base ++ rest) = [] :: (base ++ parts)) (hd : ['.', '.'] ∉ parts) :
    abspath (absPath base ++ rest) = absPath (base ++ parts.filter realComp) := by
  unfold abspath
  rw [hs, normComps_plain]
  · rw [List.filter_cons_of_neg (by decide), List.filter_append, filter_valid hv, List.reverse_nil, List.nil_append]
    cases base with
    | nil => exact absurd rfl hne
    | cons c base =>
      have hc := hv c (by simp)
      have h2 : startsWith (absPath (c :: base) ++ rest) ['/', '/'] = false := by
        cases c with
        | nil => exact absurd rfl hc.nonempty
        | cons x c =>
          have hx : x ≠ '/' := fun e => hc.noSlash (by simp [e])
          simp [absPath, startsWith, List.isPrefixOf, Ne.symm hx]
      simp only [h2, Bool.false_and, Bool.false_eq_true, if_false]
      rw [List.cons_append, joinWith_slash]
      simp [absPath]
  · intro hm
    simp only [List.mem_cons, List.mem_append] at hm
    rcases hm with h' | h' | h'
    · cases h'
    · exact (hv _ h').notDotDot rfl
    · exact hd h'

/-- C27: every relative name without `..` is accepted, and nothing else: the third part of the check never matters. -/
theorem C27_accepted (base : List Str) (hne : base ≠ []) (hv : ∀ c ∈ base, ValidName c) (name : Str) :
    memberOk (absPath base) name = true ↔ name.head? ≠ some '/' ∧ ¬ Contains name ['.', '.'] := by
  constructor
  · intro h
    obtain ⟨h1, h2⟩ := memberOk_parts h
    refine ⟨?_, h2⟩
    cases name with
    | nil => simp
    | cons c name => simp [startsWith, List.isPrefixOf] at h1; simp; exact fun e => h1 e.symm
  · rintro ⟨h1, h2⟩
    have hsw : startsWith name ['/'] = false := by
      cases name with
      | nil => rfl
      | cons c name => simp at h1; simp [startsWith, List.isPrefixOf]; exact fun e => h1 e.symm
    have hfs : (findSub ['.', '.'] name).isSome = false := by
      cases h : (findSub ['.', '.'] name).isSome with
      | false => rfl
      | true => exact absurd ((findSub_contains _ (by decide) name).1 h) h2
    have hsl : ∀ c ∈ base, '/' ∉ c := fun c hc => (hv c hc).noSlash
    have ha := abspath_abs hne hv ('/' :: name) (splitSlash name) (splitSlash_abs base hsl name)
      (fun hm => h2 (splitSlash_part _ _ hm))
    have hb := abspath_abs hne hv [] [] (by rw [List.append_nil, List.append_nil]; exact splitSlash_abs' base hne hsl) (by simp)
    unfold memberOk
    rw [hsw, hfs, pathJoin_abs hne hv hsw, ha]
    rw [List.append_nil] at hb
    rw [hb]
    simp [startsWith, absPath]

/-- Resolving a path of existing directories without links. -/
theorem resolve_dirs (fs : PFS) : ∀ (n : Nat) (rest cur : List Str), rest.length ≤ n → (∀ c ∈ rest, ValidName c) →
    (∀ q, q <+: rest → q ≠ [] → ∀ t, fs (cur ++ q) ≠ some (.link t)) →
    resolve fs n cur rest = some (cur ++ rest) := by
  intro n rest
  induction rest generalizing n with
  | nil => intro cur _ _ _; cases n <;> simp [resolve]
  | cons c rest ih =>
    intro cur hn hv hl
    cases n with
    | zero => simp at hn
    | succ n =>
      have hc := hv c (by simp)
      unfold resolve
      rw [if_neg (hc.not2), if_neg hc.notDotDot]
      have hnl := hl [c] ⟨_, rfl⟩ (by simp)
      have := ih n (cur ++ [c]) (by simp at hn; omega) (fun x hx => hv x (by simp [hx])) (fun q hq hne t => by
        have := hl (c :: q) (by obtain ⟨z, hz⟩ := hq; exact ⟨z, by rw [List.cons_append, hz]⟩) (by simp) t
        simpa using this)
      split
      · next t ht => exact absurd ht (hnl t)
      · rw [this]; simp

/-- C27 violated: a tar archive with a link to a directory `out` outside and a file below that link, both with names that
pass the check, creates a file in `out`. -/
theorem C27_violated_tar_link (fs : PFS) (base out : List Str) (l x : Str) (fuel : Nat)
    (hf : FreshDir fs base) (hl : ValidName l) (hx : ValidName x)
    (hl2 : ¬ Contains l ['.', '.']) (hx2 : ¬ Contains (l ++ '/' :: x) ['.', '.'])
    (hon : out ≠ []) (hov : ∀ c ∈ out, ValidName c) (hod : ∀ p, p <+: out → fs p = some .dir)
    (hox : fs (out ++ [x]) = none) (hout : ¬ base <+: out ++ [x])
    (hfuel : 2 * (base.length + out.length) + 8 ≤ fuel) :
    extractTar fuel (absPath base) fs [⟨l, .link (absPath out)⟩, ⟨l ++ '/' :: x, .file⟩] (out ++ [x]) = some .file ∧
      ¬ OutsideUnchanged base fs
        (extractTar fuel (absPath base) fs [⟨l, .link (absPath out)⟩, ⟨l ++ '/' :: x, .file⟩]) := by
  have hsl : ∀ c ∈ base, '/' ∉ c := fun c hc => (hf.valid c hc).noSlash
  have hh : ∀ (u v : Str), ValidName u → (u ++ v).head? ≠ some '/' := by
    intro u v hu
    cases u with
    | nil => exact absurd rfl hu.nonempty
    | cons a u => simp; exact fun e => hu.noSlash (by simp [e])
  have hok1 : memberOk (absPath base) l = true :=
    (C27_accepted base hf.ne hf.valid l).2 ⟨by simpa using hh l [] hl, hl2⟩
  have hok2 : memberOk (absPath base) (l ++ '/' :: x) = true :=
    (C27_accepted base hf.ne hf.valid _).2 ⟨hh l _ hl, hx2⟩
  have hsw : ∀ (s : Str), s.head? ≠ some '/' → startsWith s ['/'] = false := by
    intro s hs
    cases s with
    | nil => rfl
    | cons c name => simp at hs; simp [startsWith, List.isPrefixOf]; exact fun e => hs e.symm
  have hrs : ∀ (s u : Str), ValidName u → rstripSlash (s ++ u) = s ++ u := by
    intro s u hu
    unfold rstripSlash
    have : (s ++ u).reverse.dropWhile (· == '/') = (s ++ u).reverse := by
      rw [List.reverse_append]
      cases hr : u.reverse with
      | nil => exact absurd (by simpa using hr) hu.nonempty
      | cons a r =>
        have : a ≠ '/' := fun e => hu.noSlash (by
          have : a ∈ u.reverse := by rw [hr]; simp
          rw [e] at this; simpa using this)
        rw [List.cons_append, List.dropWhile_cons, if_neg (by simpa using this)]
    rw [this, List.reverse_reverse]
  -- the first member
  have hbl : fs (base ++ [l]) = none := hf.fresh _ ⟨[l], rfl⟩ (by intro h; have := congrArg List.length h; simp at this)
  have e1 : tarExtract fuel (absPath base) fs ⟨l, .link (absPath out)⟩ = fs.put (base ++ [l]) (.link (absPath out)) := by
    unfold tarExtract
    simp only []
    rw [pathJoin_abs hf.ne hf.valid (hsw l (by simpa using hh l [] hl)),
      show absPath base ++ '/' :: l = (absPath base ++ ['/']) ++ l by simp, hrs _ l hl,
      show (absPath base ++ ['/']) ++ l = absPath base ++ '/' :: l by simp,
      splitSlash_abs base hsl, splitSlash_single l hl.noSlash]
    unfold createAt
    rw [show ([] :: (base ++ [l])).reverse = l :: ([] :: base).reverse by simp]
    simp only [List.reverse_reverse]
    obtain ⟨n, rfl⟩ : ∃ n, fuel = n + 1 := ⟨fuel - 1, by omega⟩
    have hres : resolve fs (n + 1) [] ([] :: base) = some base := by
      unfold resolve
      rw [if_pos (.inl rfl)]
      have := resolve_dirs fs n base [] (by omega) hf.valid (fun q hq _ t => by
        rw [List.nil_append, hf.dirs q hq]; simp)
      simpa using this
    have hmk : fs.mkdirs base = fs := by
      funext q
      unfold PFS.mkdirs
      rw [if_neg]
      rintro ⟨hq, hn⟩
      rw [hf.dirs q hq] at hn; cases hn
    rw [hres]
    simp only [hmk]
    rw [if_neg (hl.not3), hbl, if_neg (by simp)]
  -- the second member
  have hxb : out ++ [x] ≠ base ++ [l] := fun h => hout (h ▸ ⟨[l], rfl⟩)
  have hob : ∀ q, q <+: out → q ≠ base ++ [l] := by
    intro q hq h
    have := hod q hq
    rw [h, hbl] at this; cases this
  have e2 : tarExtract fuel (absPath base) (fs.put (base ++ [l]) (.link (absPath out))) ⟨l ++ '/' :: x, .file⟩
      (out ++ [x]) = some .file := by
    unfold tarExtract
    simp only []
    rw [pathJoin_abs hf.ne hf.valid (hsw _ (hh l _ hl)),
      show absPath base ++ '/' :: (l ++ '/' :: x) = (absPath base ++ '/' :: (l ++ ['/'])) ++ x by simp, hrs _ x hx,
      show (absPath base ++ '/' :: (l ++ ['/'])) ++ x = absPath base ++ '/' :: (l ++ '/' :: x) by simp,
      splitSlash_abs base hsl, splitSlash_append l hl.noSlash, splitSlash_single x hx.noSlash]
    generalize hfs1 : fs.put (base ++ [l]) (.link (absPath out)) = fs1
    have g1 : fs1 (base ++ [l]) = some (.link (absPath out)) := by rw [← hfs1]; simp [PFS.put]
    have g2 : ∀ q, q ≠ base ++ [l] → fs1 q = fs q := by intro q hq; rw [← hfs1]; simp [PFS.put, hq]
    have gbase : ∀ q, q <+: base → fs1 q = some .dir := by
      intro q hq
      rw [g2 q (by intro e; have := hq.length_le; rw [e] at this; simp at this; omega), hf.dirs q hq]
    have gout : ∀ q, q <+: out → fs1 q = some .dir := by
      intro q hq
      rw [g2 q (hob q hq), hod q hq]
    have habs : (absPath out).head? = some '/' := by
      cases out with
      | nil => exact absurd rfl hon
      | cons c out => simp [absPath]
    -- resolution through the link, with a remainder that has no link on its way
    have hthru : ∀ (fs2 : PFS) (tail : List Str), (∀ q, q <+: base → fs2 q = some .dir) →
        fs2 (base ++ [l]) = some (.link (absPath out)) → (∀ c ∈ tail, ValidName c) → tail.length ≤ 1 →
        (∀ q, q <+: out ++ tail → ∀ t, fs2 q ≠ some (.link t)) →
        resolve fs2 fuel [] ([] :: (base ++ l :: tail)) = some (out ++ tail) := by
      intro fs2 tail hb hlk htv htl hno
      have step : ∀ (bs cur : List Str) (n : Nat), bs.length + 1 ≤ n → cur ++ bs = base →
          (∀ c ∈ bs, ValidName c) →
          resolve fs2 n cur (bs ++ l :: tail) =
            resolve fs2 (n - bs.length - 1) [] (splitSlash (absPath out) ++ tail) := by
        intro bs
        induction bs with
        | nil =>
          intro cur n hn hcur _
          obtain ⟨m, rfl⟩ : ∃ m, n = m + 1 := ⟨n - 1, by simp at hn; omega⟩
          rw [List.append_nil] at hcur
          subst hcur
          rw [List.nil_append]
          conv => lhs; unfold resolve
          rw [if_neg (hl.not2), if_neg hl.notDotDot, hlk]
          simp only [habs, if_true, List.length_nil, Nat.sub_zero, Nat.add_sub_cancel]
        | cons b bs ih =>
          intro cur n hn hcur hbv
          obtain ⟨m, rfl⟩ : ∃ m, n = m + 1 := ⟨n - 1, by simp at hn; omega⟩
          have hbb := hbv b (by simp)
          rw [List.cons_append]
          conv => lhs; unfold resolve
          rw [if_neg (hbb.not2), if_neg hbb.notDotDot]
          have hd : fs2 (cur ++ [b]) = some .dir := hb _ ⟨bs, by rw [← hcur]; simp⟩
          rw [hd]
          simp only []
          rw [ih (cur ++ [b]) m (by simp at hn ⊢; omega) (by rw [← hcur]; simp) (fun c hc => hbv c (by simp [hc]))]
          congr 1
          simp
      obtain ⟨n, rfl⟩ : ∃ n, fuel = n + 1 := ⟨fuel - 1, by omega⟩
      conv => lhs; unfold resolve
      rw [if_pos (.inl rfl), step base [] n (by omega) rfl hf.valid,
        splitSlash_abs' out hon (fun c hc => (hov c hc).noSlash)]
      obtain ⟨k, hk⟩ : ∃ k, n - base.length - 1 = k + 1 := ⟨n - base.length - 2, by omega⟩
      rw [hk, List.cons_append]
      conv => lhs; unfold resolve
      rw [if_pos (.inl rfl)]
      have := resolve_dirs fs2 k (out ++ tail) [] (by simp; omega)
        (fun c hc => by
          rcases List.mem_append.1 hc with h | h
          · exact hov c h
          · exact htv c h)
        (fun q hq _ t => by rw [List.nil_append]; exact hno q hq t)
      simpa using this
    unfold createAt
    rw [show ([] :: (base ++ [l, x])).reverse = x :: ([] :: (base ++ [l])).reverse by simp]
    simp only [List.reverse_reverse]
    rw [hthru fs1 [] gbase g1 (by simp) (by simp) (fun q hq t => by
      rw [List.append_nil] at hq; rw [gout q hq]; simp), List.append_nil]
    have hmk : fs1.mkdirs out = fs1 := by
      funext q
      unfold PFS.mkdirs
      rw [if_neg]
      rintro ⟨hq, hn⟩
      rw [gout q hq] at hn; cases hn
    simp only [hmk]
    have gx : fs1 (out ++ [x]) = none := by rw [g2 _ hxb, hox]
    rw [hthru fs1 [x] gbase g1 (by simpa using hx) (by simp) (fun q hq t => by
      rcases List.prefix_concat_iff.1 hq with rfl | hq
      · rw [gx]; simp
      · rw [gout q hq]; simp)]
    simp only [gx]
    rw [if_neg (by simp)]
    simp [PFS.put]
  have main : extractTar fuel (absPath base) fs [⟨l, .link (absPath out)⟩, ⟨l ++ '/' :: x, .file⟩] (out ++ [x]) = some .file := by
    unfold extractTar
    simp only [List.filter_cons, hok1, hok2, if_true, List.filter_nil, List.foldl_cons, List.foldl_nil, e1, e2]
  refine ⟨main, fun h => ?_⟩
  have := h _ hout
  rw [main, hox] at this
  cases this

/- Non-vacuity (tests). -/
example : memberOk "/tmp/x".toList "a/b.tex".toList = true := by decide +kernel
example : memberOk "/tmp/x".toList "../b.tex".toList = false := by decide +kernel
/-- A harmless name that is skipped. -/
example : memberOk "/tmp/x".toList "notes..tex".toList = false := by decide +kernel
/-- A file system with the directories `/tmp/x` and `/home`. -/
def Spec.exampleTmp : PFS := fun p =>
  if p.isPrefixOf ["tmp".toList, "x".toList] ∨ p.isPrefixOf ["home".toList] then some .dir else none
example : FreshDir exampleTmp ["tmp".toList, "x".toList] := by
  refine ⟨by simp, ?_, ?_, ?_⟩
  · intro c hc
    simp only [List.mem_cons, List.not_mem_nil, or_false] at hc
    rcases hc with rfl | rfl <;> exact ⟨by decide, by decide, by decide, by decide⟩
  · intro p hp
    unfold exampleTmp
    rw [if_pos (.inl (List.isPrefixOf_iff_prefix.2 hp))]
  · intro p hp hne
    unfold exampleTmp
    rw [if_neg]
    have hl := hp.length_le
    rintro (h | h)
    · exact hne ((List.isPrefixOf_iff_prefix.1 h).eq_of_length_le hl)
    · have := (List.isPrefixOf_iff_prefix.1 h).length_le
      simp at this hl; omega
example : extractTar 30 "/tmp/x".toList exampleTmp [⟨"l".toList, .link "/home".toList⟩, ⟨"l/f".toList, .file⟩]
    ["home".toList, "f".toList] = some .file := by decide +kernel
example : extractZip 30 "/tmp/x".toList exampleTmp [⟨"l".toList, .link "/home".toList⟩, ⟨"l/f".toList, .file⟩]
    ["home".toList, "f".toList] = none := by decide +kernel

end L2J
