import Verif.Spec.Preproc
import Verif.Lemmas.NatStr
import Verif.Props.C33
namespace L2J
open Spec

/-- A family of placeholders that start with `op` and can be recognised by the core that follows it. -/
structure PhFamily (op : Str) (ph : Nat → Str) (core : Str) (v : Char) : Prop where
  shape : ∀ i, ∃ tl, ph i = op ++ (core ++ tl)
  opNe : op ≠ []
  head : ∃ core', core = v :: core'
  notOp : v ∉ op
  uniq : ∀ i k, (ph i)[k]? = some v → k = op.length
  clash : ∀ p u, core = p ++ u → u ≠ [] → ∀ t x, u ++ t ≠ op ++ x
  inj : ∀ i j b, ph i <+: ph j ++ b → i = j

/-- The state after restoring the blocks below `i`. -/
def stage (ph blk : Nat → Str) (i : Nat) (j : Nat) : Str := if j < i then blk j else ph j

theorem contains_infix {s m a b : Str} (h : ¬ Contains (a ++ (s ++ b)) m) : ¬ Contains s m :=
  fun hc => h (contains_mono hc)

theorem contains_drop {s m : Str} {k : Nat} (h : m <+: s.drop k) : Contains s m := by
  obtain ⟨t, ht⟩ := h
  exact ⟨s.take k, t, by rw [List.append_assoc, ht, List.take_append_drop]⟩

/-- A core cannot run from a clean text into a placeholder. -/
theorem core_not_across {op core : Str} (hcl : ∀ p u, core = p ++ u → u ≠ [] → ∀ t x, u ++ t ≠ op ++ x) (w x : Str)
    (hw : ¬ Contains w core) : ¬ core <+: w ++ (op ++ x) := by
  rintro ⟨t, ht⟩
  rcases List.append_eq_append_iff.1 ht with ⟨u, k1, k2⟩ | ⟨u, k1, k2⟩
  · exact hw ⟨[], u, by simpa using k1⟩
  · by_cases hu : u = []
    · subst hu; exact hw ⟨[], [], by simpa using k1.symm⟩
    · exact hcl w u k1 hu t x k2.symm

theorem core_not_at {op : Str} {ph : Nat → Str} {core : Str} {v : Char} (F : PhFamily op ph core v) (blk : Nat → Str) (i : Nat) :
    ∀ (segs : List Seg) (w : Str), ¬ Contains (w ++ render blk segs) core → ∀ k, k < w.length + op.length →
    ¬ core <+: (w ++ render (stage ph blk i) segs).drop k
  | [], w, h, k, _, hc => h (by simpa [render] using contains_drop hc)
  | .text s :: segs, w, h, k, hk, hc => by
    refine core_not_at F blk i segs (w ++ s) (by simpa [render] using h) k (by simp; omega) ?_
    simpa [render] using hc
  | .block j :: segs, w, h, k, hk, hc => by
    by_cases hj : j < i
    · refine core_not_at F blk i segs (w ++ blk j) (by simpa [render] using h) k (by simp; omega) ?_
      simpa [render, stage, hj] using hc
    · obtain ⟨tl, htl⟩ := F.shape j
      obtain ⟨core', hcore⟩ := F.head
      have e : w ++ render (stage ph blk i) (.block j :: segs) = w ++ (op ++ (core ++ tl ++ render (stage ph blk i) segs)) := by
        simp [render, stage, hj, htl]
      rw [e] at hc
      by_cases hkw : k < w.length
      · rw [List.drop_append_of_le_length (by omega)] at hc
        refine core_not_across F.clash (w.drop k) _ ?_ hc
        intro hcc
        apply h
        obtain ⟨a, b, hab⟩ := hcc
        exact ⟨w.take k ++ a, b ++ render blk (.block j :: segs), by
          conv => lhs; rw [← List.take_append_drop k w, hab]
          simp⟩
      · rw [List.drop_append, List.drop_eq_nil_of_le (by omega), List.nil_append, List.drop_append_of_le_length (by omega), hcore] at hc
        obtain ⟨t, ht⟩ := hc
        apply F.notOp
        have hk' : k - w.length < op.length := by omega
        have : (op.drop (k - w.length))[0]? = some v := by
          have h2 : (op.drop (k - w.length) ++ (v :: core' ++ tl ++ render (stage ph blk i) segs))[0]? = some v := by
            rw [← ht]; rfl
          rwa [List.getElem?_append_left (by rw [List.length_drop]; omega)] at h2
        rw [List.getElem?_drop] at this
        exact List.mem_of_getElem? this

theorem prefix_drop {p q s : Str} (h : p ++ q <+: s) : q <+: s.drop p.length := by
  obtain ⟨t, rfl⟩ := h
  rw [List.append_assoc, List.drop_left]
  exact ⟨t, rfl⟩

theorem core_of_ph {op : Str} {ph : Nat → Str} {core : Str} {v : Char} (F : PhFamily op ph core v) {i : Nat} {s : Str}
    (h : ph i <+: s) : core <+: s.drop op.length := by
  obtain ⟨tl, htl⟩ := F.shape i
  rw [htl] at h
  have := prefix_drop (p := op) (q := core ++ tl) (s := s) (by simpa using h)
  exact (List.prefix_append core tl).trans this

theorem skip_clean {op : Str} {ph : Nat → Str} {core : Str} {v : Char} (F : PhFamily op ph core v) (blk : Nat → Str) (i : Nat)
    (segs : List Seg) (new : Str) : ∀ (w : Str), ¬ Contains (w ++ render blk segs) core →
    replaceAux (ph i) new 0 (w ++ render (stage ph blk i) segs) = w ++ replaceAux (ph i) new 0 (render (stage ph blk i) segs)
  | [], _ => rfl
  | c :: w, h => by
    rw [List.cons_append, replaceAux_miss, skip_clean F blk i segs new w]
    · rfl
    · intro hc; exact h (by simpa using contains_mono (a := [c]) (b := []) hc)
    · intro hp
      have := core_of_ph F hp
      rw [← List.cons_append] at this
      exact core_not_at F blk i segs (c :: w) h op.length (by simp) this

theorem skip_ph {op : Str} {ph : Nat → Str} {core : Str} {v : Char} (F : PhFamily op ph core v) (i : Nat) (b new : Str)
    (hb : ∀ k, k < op.length → ¬ core <+: b.drop k) : ∀ (q p : Str) (j : Nat), ph j = p ++ q → i ≠ j →
    replaceAux (ph i) new 0 (q ++ b) = q ++ replaceAux (ph i) new 0 b
  | [], _, _, _, _ => rfl
  | c :: q, p, j, hpq, hij => by
    rw [List.cons_append, replaceAux_miss, skip_ph F i b new hb q (p ++ [c]) j (by simp [hpq]) hij]
    · rfl
    · intro hp
      by_cases h0 : p = []
      · subst h0
        rw [List.nil_append] at hpq
        rw [← List.cons_append, ← hpq] at hp
        exact hij (F.inj i j b hp)
      · have hplen : 0 < p.length := by cases p with | nil => exact absurd rfl h0 | cons _ _ => simp
        have hc := core_of_ph F hp
        rw [← List.cons_append] at hc
        obtain ⟨core', hcore⟩ := F.head
        by_cases hlen : op.length < (c :: q).length
        · have hv : ((c :: q) ++ b)[op.length]? = some v := by
            obtain ⟨t, ht⟩ := hc
            have : (((c :: q) ++ b).drop op.length)[0]? = some v := by rw [← ht, hcore]; rfl
            simpa [List.getElem?_drop] using this
          rw [List.getElem?_append_left hlen] at hv
          have : (ph j)[p.length + op.length]? = some v := by
            rw [hpq, List.getElem?_append_right (by omega)]
            simpa using hv
          have := F.uniq j _ this
          omega
        · have e : ((c :: q) ++ b).drop op.length = b.drop (op.length - (c :: q).length) := by
            rw [List.drop_append, List.drop_eq_nil_of_le (by omega)]; simp
          rw [e] at hc
          exact hb _ (by simp only [List.length_cons] at hlen ⊢; omega) hc

theorem ph_ne_nil {op : Str} {ph : Nat → Str} {core : Str} {v : Char} (F : PhFamily op ph core v) (i : Nat) : ph i ≠ [] := by
  obtain ⟨tl, h⟩ := F.shape i; rw [h]; simp [F.opNe]

/-- Restoring block `i` restores exactly block `i`. -/
theorem restore_stage {op : Str} {ph : Nat → Str} {core : Str} {v : Char} (F : PhFamily op ph core v) (blk : Nat → Str) (i : Nat) :
    ∀ (segs : List Seg) (w : Str), ¬ Contains (w ++ render blk segs) core →
    replaceAux (ph i) (blk i) 0 (w ++ render (stage ph blk i) segs) = w ++ render (stage ph blk (i + 1)) segs
  | [], w, h => by
    have := skip_clean F blk i [] (blk i) w h
    simpa [render, replaceAux] using this
  | .text s :: segs, w, h => by
    have := restore_stage F blk i segs (w ++ s) (by simpa [render] using h)
    simpa [render] using this
  | .block j :: segs, w, h => by
    by_cases hj : j < i
    · have := restore_stage F blk i segs (w ++ blk j) (by simpa [render] using h)
      simpa [render, stage, hj, Nat.lt_succ_of_lt hj] using this
    · have hrest : ¬ Contains ([] ++ render blk segs) core := by
        intro hc
        exact h (by simpa [render] using contains_mono (a := w ++ blk j) (b := []) hc)
      rw [skip_clean F blk i _ (blk i) w h]
      congr 1
      simp only [render, stage, if_neg hj]
      by_cases hij : i = j
      · subst hij
        rw [replaceAux_hit _ _ _ (ph_ne_nil F i), if_pos (by omega)]
        congr 1
        exact restore_stage F blk i segs [] hrest
      · rw [if_neg (by omega), skip_ph F i _ _ ?_ (ph j) [] j rfl hij]
        · congr 1
          exact restore_stage F blk i segs [] hrest
        · intro k hk
          exact core_not_at F blk i segs [] hrest k (by simpa using hk)

/-- The dictionary entries for blocks `i, i+1, …, i+n-1`. -/
def entries (ph blk : Nat → Str) (i : Nat) : Nat → List (Str × Str)
  | 0 => []
  | n + 1 => (ph i, blk i) :: entries ph blk (i + 1) n

theorem restore_entries {op : Str} {ph : Nat → Str} {core : Str} {v : Char} (F : PhFamily op ph core v) (blk : Nat → Str)
    (segs : List Seg) (h : ¬ Contains (render blk segs) core) : ∀ (n i : Nat),
    restoreBlocks (render (stage ph blk i) segs) (entries ph blk i n) = render (stage ph blk (i + n)) segs
  | 0, i => rfl
  | n + 1, i => by
    have e := restore_stage F blk i segs [] (by simpa using h)
    simp only [List.nil_append] at e
    show restoreBlocks (replaceAux (ph i) (blk i) 0 (render (stage ph blk i) segs)) (entries ph blk (i + 1) n) = _
    rw [e, restore_entries F blk segs h n (i + 1)]
    congr 2; omega

theorem render_congr {f g : Nat → Str} : ∀ {segs : List Seg}, (∀ i, .block i ∈ segs → f i = g i) → render f segs = render g segs
  | [], _ => rfl
  | .text s :: segs, h => by simp only [render]; rw [render_congr (fun i hi => h i (by simp [hi]))]
  | .block j :: segs, h => by
    simp only [render]; rw [h j (by simp), render_congr (fun i hi => h i (by simp [hi]))]

/-! The two families of the code. -/

theorem notDigit {n : Nat} {c : Char} (h : c.toNat < 48 ∨ 58 ≤ c.toNat) : c ∉ natStr n := by
  intro hc
  have := natStr_digits n c hc
  omega

theorem digits_inj {i j : Nat} {x y : Str} (h : natStr i ++ '_' :: x = natStr j ++ '_' :: y) : i = j := by
  have key : ∀ (a b : Str) (x y : Str), '_' ∉ a → '_' ∉ b → a ++ '_' :: x = b ++ '_' :: y → a = b := by
    intro a
    induction a with
    | nil =>
      intro b x y _ hb h
      cases b with
      | nil => rfl
      | cons c b => simp at h; rw [h.1] at hb; simp at hb
    | cons c a ih =>
      intro b x y ha hb h
      cases b with
      | nil => simp at h; rw [h.1] at ha; simp at ha
      | cons d b =>
        simp at h
        rw [h.1, ih b x y (fun h' => ha (by simp [h'])) (fun h' => hb (by simp [h'])) h.2]
  exact natStr_injective (key _ _ x y (notDigit (by decide)) (notDigit (by decide)) h)

theorem getElem?_mem {s : Str} {k : Nat} {c : Char} (h : s[k]? = some c) : c ∈ s := List.mem_of_getElem? h

theorem family_uniq (pre : Str) (v : Char) (n k : Nat) (hpre : ∀ k, pre[k]? = some v → k = 2)
    (hv : v.toNat < 48 ∨ 58 ≤ v.toNat) (hv2 : v ≠ '_') (h : (pre ++ natStr n ++ ['_', '_'])[k]? = some v) : k = 2 := by
  by_cases h1 : k < pre.length
  · rw [List.append_assoc, List.getElem?_append_left h1] at h
    exact hpre k h
  · rw [List.append_assoc, List.getElem?_append_right (by omega)] at h
    have := getElem?_mem h
    rcases List.mem_append.1 this with h | h
    · exact absurd h (notDigit hv)
    · simp at h; exact absurd h hv2

theorem uniq_of_lt (pre : Str) (v : Char) (h : ∀ k, k < pre.length → pre[k]? = some v → k = 2) :
    ∀ k, pre[k]? = some v → k = 2 := by
  intro k hk
  by_cases h1 : k < pre.length
  · exact h k h1 hk
  · rw [List.getElem?_eq_none (by omega)] at hk; cases hk

theorem under_clash {core : Str} (h1 : ¬ Contains core ['_', '_']) (h2 : core.getLast? ≠ some '_') (p u : Str) (h : core = p ++ u)
    (hu : u ≠ []) (t x : Str) : u ++ t ≠ ['_', '_'] ++ x := by
  intro k2
  match u, hu with
  | [c], _ =>
    simp at k2
    apply h2
    rw [h, List.getLast?_append]
    simp [k2.1]
  | c :: d :: u, _ =>
    simp at k2
    apply h1
    exact ⟨p, u, by rw [h, k2.1, k2.2.1]; simp⟩

theorem verb_family : PhFamily ['_', '_'] verbPlaceholder "VERBATIM_BLOCK".toList 'V' where
  shape i := ⟨['_', '_'] ++ natStr i ++ "__".toList, by
    have h : "__VERBATIM_BLOCK__".toList = '_' :: '_' :: ("VERBATIM_BLOCK".toList ++ ['_', '_']) := by decide
    unfold verbPlaceholder
    rw [h]
    simp only [List.cons_append, List.append_assoc, List.nil_append]⟩
  head := ⟨"ERBATIM_BLOCK".toList, rfl⟩
  opNe := by decide
  notOp := by decide
  uniq i k h := family_uniq _ 'V' i k (uniq_of_lt _ _ (by decide)) (by decide) (by decide) h
  clash := under_clash (by rw [← findSub_contains _ (by simp)]; decide) (by decide)
  inj i j b := by
    rintro ⟨t, h⟩
    unfold verbPlaceholder at h
    simp only [List.append_assoc, List.append_cancel_left_eq] at h
    exact digits_inj h

theorem math_family : PhFamily ['_', '_'] mathPlaceholder "MATH_BLOCK".toList 'M' where
  shape i := ⟨['_'] ++ natStr i ++ "__".toList, by
    have h : "__MATH_BLOCK_".toList = '_' :: '_' :: ("MATH_BLOCK".toList ++ ['_']) := by decide
    unfold mathPlaceholder
    rw [h]
    simp only [List.cons_append, List.append_assoc, List.nil_append]⟩
  head := ⟨"ATH_BLOCK".toList, rfl⟩
  opNe := by decide
  notOp := by decide
  uniq i k h := family_uniq _ 'M' i k (uniq_of_lt _ _ (by decide)) (by decide) (by decide) h
  clash := under_clash (by rw [← findSub_contains _ (by simp)]; decide) (by decide)
  inj i j b := by
    rintro ⟨t, h⟩
    unfold mathPlaceholder at h
    simp only [List.append_assoc, List.append_cancel_left_eq] at h
    exact digits_inj h

end L2J
