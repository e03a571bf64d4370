import Verif.Lemmas.Preproc
/-! C32: protected blocks are restored verbatim. -/
namespace L2J
open Spec

/-- C32, restoring: a text in which numbered blocks are hidden, in any order and any number of times, is restored
exactly, provided the original text does not contain the characteristic part of the placeholders. Both families. -/
theorem C32_restore_partial (blk : Nat → Str) (n : Nat) (segs : List Seg) (hn : ∀ i, .block i ∈ segs → i < n) :
    (¬ Contains (render blk segs) "VERBATIM_BLOCK".toList →
      restoreBlocks (render verbPlaceholder segs) ((List.range n).map fun i => (verbPlaceholder i, blk i)) = render blk segs) ∧
    (¬ Contains (render blk segs) "MATH_BLOCK".toList →
      restoreBlocks (render mathPlaceholder segs) ((List.range n).map fun i => (mathPlaceholder i, blk i)) = render blk segs) := by
  have he : ∀ (ph : Nat → Str), (List.range n).map (fun i => (ph i, blk i)) = entries ph blk 0 n := by
    intro ph
    have : ∀ m i, (List.range' i m).map (fun i => (ph i, blk i)) = entries ph blk i m := by
      intro m
      induction m with
      | zero => intro i; rfl
      | succ m ih => intro i; rw [List.range'_succ]; simp [entries, ih]
    rw [List.range_eq_range']; exact this n 0
  have key : ∀ (op : Str) (ph : Nat → Str) (core : Str) (v : Char), PhFamily op ph core v → ¬ Contains (render blk segs) core →
      restoreBlocks (render ph segs) ((List.range n).map fun i => (ph i, blk i)) = render blk segs := by
    intro op ph core v F h
    rw [he]
    have e : render ph segs = render (stage ph blk 0) segs := render_congr (by intro i _; simp [stage])
    rw [e, restore_entries F blk segs h n 0]
    exact render_congr (by intro i hi; have := hn i hi; simp [stage, this])
  exact ⟨key _ _ _ _ verb_family, key _ _ _ _ math_family⟩

/-! Extraction. -/

theorem earliest_fold (s : Str) : ∀ (pats : List Searcher) (best : Option (Nat × Nat)) (r : Option (Nat × Nat)), r = pats.foldl (earliestStep s) best →
    (∀ p ∈ pats, ∀ a e, p s = some (a, e) → a < e ∧ e ≤ s.length) →
    (r = none → best = none ∧ ∀ p ∈ pats, p s = none) ∧
    (∀ m, r = some m → (best = some m ∨ ∃ p ∈ pats, p s = some m) ∧
      (∀ b, best = some b → m.1 ≤ b.1) ∧ ∀ p ∈ pats, ∀ m', p s = some m' → m.1 ≤ m'.1) := by
  intro pats
  induction pats with
  | nil =>
    intro best r hr hwf
    simp only [List.foldl_nil] at hr
    subst hr
    refine ⟨fun h => ⟨h, by simp⟩, fun m h => ⟨Or.inl h, ?_, by simp⟩⟩
    intro b hb
    have : some m = some b := h.symm.trans hb
    injection this with this
    rw [this]; exact Nat.le_refl _
  | cons p pats ih =>
    intro best r hr hwf
    rw [List.foldl_cons] at hr
    have hwf' : ∀ p ∈ pats, ∀ a e, p s = some (a, e) → a < e ∧ e ≤ s.length := fun q hq => hwf q (by simp [hq])
    cases hp : p s with
    | none =>
      have hstep : earliestStep s best p = best := by simp [earliestStep, hp]
      rw [hstep] at hr
      have := ih best r hr hwf'
      refine ⟨fun h => ?_, fun m h => ?_⟩
      · obtain ⟨h1, h2⟩ := this.1 h
        exact ⟨h1, by intro q hq; rcases List.mem_cons.1 hq with rfl | hq; exact hp; exact h2 q hq⟩
      · obtain ⟨h1, h2, h3⟩ := this.2 m h
        refine ⟨?_, h2, ?_⟩
        · rcases h1 with h1 | ⟨q, hq, h1⟩
          · exact Or.inl h1
          · exact Or.inr ⟨q, by simp [hq], h1⟩
        · intro q hq m' hm
          rcases List.mem_cons.1 hq with rfl | hq
          · rw [hp] at hm; cases hm
          · exact h3 q hq m' hm
    | some x =>
      obtain ⟨a, e⟩ := x
      have hb := hwf p (by simp) a e hp
      by_cases hlt : a < earliestStart s best
      · have hstep : earliestStep s best p = some (a, e) := by simp [earliestStep, hp, hlt]
        rw [hstep] at hr
        have := ih (some (a, e)) r hr hwf'
        refine ⟨fun h => ?_, fun m h => ?_⟩
        · obtain ⟨h1, h2⟩ := this.1 h; cases h1
        · obtain ⟨h1, h2, h3⟩ := this.2 m h
          have hma := h2 (a, e) rfl
          refine ⟨?_, ?_, ?_⟩
          · right
            rcases h1 with h1 | ⟨q, hq, h1⟩
            · injection h1 with h1; exact ⟨p, by simp, by rw [hp, h1]⟩
            · exact ⟨q, by simp [hq], h1⟩
          · intro b hb'
            subst hb'
            simp only [earliestStart] at hlt hma
            omega
          · intro q hq m' hm
            rcases List.mem_cons.1 hq with rfl | hq
            · rw [hp] at hm; injection hm with hm; rw [← hm]; exact hma
            · exact h3 q hq m' hm
      · have hstep : earliestStep s best p = best := by simp [earliestStep, hp, hlt]
        rw [hstep] at hr
        have := ih best r hr hwf'
        cases best with
        | none => simp only [earliestStart] at hlt; omega
        | some b =>
          simp only [earliestStart] at hlt
          refine ⟨fun h => ?_, fun m h => ?_⟩
          · obtain ⟨h1, _⟩ := this.1 h; cases h1
          · obtain ⟨h1, h2, h3⟩ := this.2 m h
            refine ⟨?_, h2, ?_⟩
            · rcases h1 with h1 | ⟨q, hq, h1⟩
              · exact Or.inl h1
              · exact Or.inr ⟨q, by simp [hq], h1⟩
            · intro q hq m' hm
              rcases List.mem_cons.1 hq with rfl | hq
              · rw [hp] at hm; injection hm with hm; rw [← hm]
                have := h2 b rfl
                simp only; omega
              · exact h3 q hq m' hm

theorem earliest_spec (pats : List Searcher) (hwf : ∀ p ∈ pats, SearcherWF p) (s : Str) :
    (earliestMatch pats s = none → ∀ p ∈ pats, p s = none) ∧
    (∀ a e, earliestMatch pats s = some (a, e) → Earliest pats s a e) := by
  have h := earliest_fold s pats none _ rfl (fun p hp a e h => hwf p hp s a e h)
  refine ⟨fun hn => (h.1 hn).2, fun a e hs => ?_⟩
  obtain ⟨h1, _, h3⟩ := h.2 (a, e) hs
  refine ⟨?_, fun p hp a' e' hp' => h3 p hp (a', e') hp'⟩
  rcases h1 with h1 | h1
  · cases h1
  · exact h1

/-- The segments of a split text, blocks numbered from `n`. -/
def segsOf (n : Nat) : List (Str × Str) → Str → List Seg
  | [], last => [.text last]
  | (t, _) :: bs, last => .text t :: .block n :: segsOf (n + 1) bs last

/-- The dictionary of a split text. -/
def numbered (n : Nat) : List (Str × Str) → List (Str × Str)
  | [] => []
  | (_, b) :: bs => (verbPlaceholder n, b) :: numbered (n + 1) bs

theorem extract_spec (pats : List Searcher) (hwf : ∀ p ∈ pats, SearcherWF p) : ∀ (fuel n : Nat) (s : Str), s.length < fuel →
    ∃ bs last, BlockSplit pats s bs last ∧
      extractVerb pats fuel n s = (render verbPlaceholder (segsOf n bs last), numbered n bs)
  | 0, n, s, h => by omega
  | fuel + 1, n, s, h => by
    obtain ⟨hs1, hs2⟩ := earliest_spec pats hwf s
    cases s with
    | nil =>
      refine ⟨[], [], .none [] ?_, by simp [extractVerb, segsOf, render, numbered]⟩
      intro p hp
      cases hps : p [] with
      | none => rfl
      | some m => have := hwf p hp [] m.1 m.2 hps; simp at this; omega
    | cons c cs =>
      cases he : earliestMatch pats (c :: cs) with
      | none => exact ⟨[], c :: cs, .none _ (hs1 he), by simp [extractVerb, he, segsOf, render, numbered]⟩
      | some m =>
        obtain ⟨a, e⟩ := m
        have hE := hs2 a e he
        obtain ⟨⟨p, hp, hps⟩, _⟩ := id hE
        have hb := hwf p hp _ a e hps
        obtain ⟨bs, last, h1, h2⟩ := extract_spec pats hwf fuel (n + 1) ((c :: cs).drop e) (by
          rw [List.length_drop]; simp only [List.length_cons] at h ⊢; omega)
        have hsplit : c :: cs = (c :: cs).take a ++ slice (c :: cs) a e ++ (c :: cs).drop e := by
          unfold slice
          have h1 : ((c :: cs).take e).take a = (c :: cs).take a := by rw [List.take_take]; congr 1; omega
          rw [← h1, List.take_append_drop, List.take_append_drop]
        have hla : ((c :: cs).take a).length = a := by rw [List.length_take]; omega
        have hlb : (slice (c :: cs) a e).length = e - a := by
          unfold slice; rw [List.length_drop, List.length_take]; omega
        refine ⟨((c :: cs).take a, slice (c :: cs) a e) :: bs, last, .some _ _ _ _ bs last hsplit ?_ h1, ?_⟩
        · rw [hla, hlb, show a + (e - a) = e by omega]; exact hE
        · unfold extractVerb
          rw [if_neg (by simp), he]
          simp only [h2, segsOf, render, numbered, List.append_assoc]

/-- The contents of the blocks. -/
def blkOf (n : Nat) (bs : List (Str × Str)) (i : Nat) : Str := ((bs[i - n]?).map (·.2)).getD []

theorem numbered_eq : ∀ (bs : List (Str × Str)) (n : Nat) (f : Nat → Str), (∀ k b, bs[k]? = some b → f (n + k) = b.2) →
    numbered n bs = entries verbPlaceholder f n bs.length
  | [], _, _, _ => rfl
  | (t, b) :: bs, n, f, h => by
    simp only [numbered, List.length_cons, entries]
    rw [numbered_eq bs (n + 1) f (fun k b hb => by have := h (k + 1) b (by simpa using hb); rw [← this]; congr 1; omega)]
    have := h 0 (t, b) rfl
    simp at this
    rw [this]

theorem render_segs : ∀ (bs : List (Str × Str)) (n : Nat) (last : Str) (f : Nat → Str),
    (∀ k b, bs[k]? = some b → f (n + k) = b.2) → render f (segsOf n bs last) = weave bs last
  | [], n, last, f, _ => by simp [segsOf, render, weave]
  | (t, b) :: bs, n, last, f, h => by
    have h0 := h 0 (t, b) rfl
    simp at h0
    simp only [segsOf, render, weave, h0]
    rw [render_segs bs (n + 1) last f (fun k b hb => by have := h (k + 1) b (by simpa using hb); rw [← this]; congr 1; omega)]
    simp

theorem segs_block : ∀ (bs : List (Str × Str)) (n : Nat) (last : Str) (i : Nat), .block i ∈ segsOf n bs last → i < n + bs.length
  | [], n, last, i, h => by simp [segsOf] at h
  | (t, b) :: bs, n, last, i, h => by
    simp only [segsOf, List.mem_cons, reduceCtorEq, false_or, Seg.block.injEq] at h
    rcases h with h | h
    · simp [h]
    · have := segs_block bs (n + 1) last i h; simp only [List.length_cons]; omega

/-- Restoring after any change of the texts between the blocks. -/
theorem restore_weave (bs bs' : List (Str × Str)) (last' : Str) (hb : bs.map (·.2) = bs'.map (·.2))
    (h : ¬ Contains (weave bs' last') "VERBATIM_BLOCK".toList) :
    restoreBlocks (render verbPlaceholder (segsOf 0 bs' last')) (numbered 0 bs) = weave bs' last' := by
  have hf : ∀ (l : List (Str × Str)) (k : Nat) (b : Str × Str), l[k]? = some b → blkOf 0 l (0 + k) = b.2 := by
    intro l k b h; simp [blkOf, h]
  have hbb : blkOf 0 bs' = blkOf 0 bs := by
    funext i
    have : (bs'[i]?).map (·.2) = (bs[i]?).map (·.2) := by
      rw [← List.getElem?_map, ← List.getElem?_map, hb]
    simp [blkOf, this]
  have hlen : bs.length = bs'.length := by simpa using congrArg List.length hb
  have hr : render (blkOf 0 bs) (segsOf 0 bs' last') = weave bs' last' := by rw [← hbb]; exact render_segs bs' 0 last' _ (hf bs')
  rw [numbered_eq bs 0 (blkOf 0 bs) (hf bs)]
  have e : render verbPlaceholder (segsOf 0 bs' last') = render (stage verbPlaceholder (blkOf 0 bs) 0) (segsOf 0 bs' last') :=
    render_congr (by intro i _; simp [stage])
  rw [e, restore_entries verb_family (blkOf 0 bs) _ (by rw [hr]; exact h), ← hr]
  refine render_congr ?_
  intro i hi
  have := segs_block bs' 0 last' i hi
  unfold stage
  rw [if_pos (by omega)]

theorem split_weave {pats : List Searcher} {s : Str} {bs : List (Str × Str)} {last : Str} (h : BlockSplit pats s bs last) :
    s = weave bs last := by
  induction h with
  | none s _ => rfl
  | some s t b rest bs last h _ _ ih => rw [h, weave, ← ih]

/-- C32, round trip: hiding the blocks and restoring them gives back the text, for any patterns and any text without
the characteristic part of the placeholders. -/
theorem C32_round_trip_partial (pats : List Searcher) (hwf : ∀ p ∈ pats, SearcherWF p) (content : Str)
    (h : ¬ Contains content "VERBATIM_BLOCK".toList) :
    restoreBlocks (extractVerbatimBlocks pats content).1 (extractVerbatimBlocks pats content).2 = content := by
  obtain ⟨bs, last, h1, h2⟩ := extract_spec pats hwf (content.length + 1) 0 content (by omega)
  unfold extractVerbatimBlocks
  rw [h2]
  have hw := split_weave h1
  rw [restore_weave bs bs last rfl (by rw [← hw]; exact h), ← hw]

/-! Texts that differ in blanks only. -/

theorem Spec.SameButBlanks.refl : ∀ s : Str, SameButBlanks s s
  | [] => .nil
  | c :: s => .char c (SameButBlanks.refl s)

theorem Spec.SameButBlanks.symm {a b : Str} (h : SameButBlanks a b) : SameButBlanks b a := by
  induction h with
  | nil => exact .nil
  | char c _ ih => exact .char c ih
  | gap g g' hg hg' h1 h2 _ ih => exact .gap g' g hg' hg h2 h1 ih

theorem Spec.SameButBlanks.append {a b c d : Str} (h : SameButBlanks a b) (h' : SameButBlanks c d) : SameButBlanks (a ++ c) (b ++ d) := by
  induction h with
  | nil => exact h'
  | char c _ ih => exact .char c ih
  | gap g g' hg hg' h1 h2 _ ih =>
    rw [List.append_assoc, List.append_assoc]
    exact .gap g g' hg hg' h1 h2 ih

theorem Spec.SameButBlanks.nil_left {x : Str} (h : SameButBlanks [] x) : x = [] := by
  generalize ha : ([] : Str) = a at h
  cases h with
  | nil => rfl
  | char c h => cases ha
  | gap g g' _ _ h1 _ h =>
    have := (List.append_eq_nil_iff.1 ha.symm).1
    exact absurd this h1

theorem Spec.SameButBlanks.split {a b y : Str} {c : Char} (h : SameButBlanks (a ++ c :: b) y) (hc : ¬ Ws c) :
    ∃ a' b', y = a' ++ c :: b' ∧ SameButBlanks a a' ∧ SameButBlanks b b' := by
  generalize hx : a ++ c :: b = x at h
  induction h generalizing a with
  | nil => simp at hx
  | char d h ih =>
    cases a with
    | nil =>
      simp at hx
      obtain ⟨rfl, rfl⟩ := hx
      exact ⟨[], _, rfl, .nil, h⟩
    | cons e a =>
      simp only [List.cons_append, List.cons.injEq] at hx
      obtain ⟨rfl, hx⟩ := hx
      obtain ⟨a', b', rfl, h1, h2⟩ := ih hx
      exact ⟨e :: a', b', rfl, .char e h1, h2⟩
  | gap g g' hg hg' h1 h2 h ih =>
    rcases List.append_eq_append_iff.1 hx with ⟨u, k1, k2⟩ | ⟨u, k1, k2⟩
    · -- g = a ++ u, c :: b = u ++ x
      cases u with
      | nil =>
        simp at k1
        subst k1
        obtain ⟨a', b', rfl, h3, h4⟩ := ih (a := []) (by simpa using k2)
        have := h3.nil_left
        subst this
        exact ⟨g', b', by simp, by simpa using SameButBlanks.gap g g' hg hg' h1 h2 .nil, h4⟩
      | cons d u =>
        simp at k2
        exact absurd (hg d (by rw [k1]; simp)) (by rw [← k2.1]; exact hc)
    · -- a = g ++ u
      subst k1
      obtain ⟨a', b', rfl, h3, h4⟩ := ih (a := u) k2.symm
      exact ⟨g' ++ a', b', by simp, .gap g g' hg hg' h1 h2 h3, h4⟩

theorem Spec.SameButBlanks.split_word {p : Str} (hp : ∀ c ∈ p, ¬ Ws c) {a b y : Str} (hne : p ≠ []) (h : SameButBlanks (a ++ (p ++ b)) y) :
    ∃ a' b', y = a' ++ (p ++ b') ∧ SameButBlanks a a' ∧ SameButBlanks b b' := by
  induction p generalizing a y with
  | nil => exact absurd rfl hne
  | cons c p ih =>
    obtain ⟨a', b', rfl, h1, h2⟩ := SameButBlanks.split (b := p ++ b) (by simpa using h) (hp c (by simp))
    by_cases h0 : p = []
    · subst h0; exact ⟨a', b', by simp, h1, by simpa using h2⟩
    · obtain ⟨x, b'', rfl, h3, h4⟩ := ih (fun d hd => hp d (by simp [hd])) (a := []) h0 (by simpa using h2)
      have := h3.nil_left
      subst this
      exact ⟨a', b'', by simp, h1, h4⟩

theorem Spec.SameButBlanks.contains {m y z : Str} (hm : ∀ c ∈ m, ¬ Ws c) (hne : m ≠ []) (h : SameButBlanks y z) (hc : Contains z m) :
    Contains y m := by
  obtain ⟨a, b, rfl⟩ := hc
  have h' := h.symm
  rw [List.append_assoc] at h'
  obtain ⟨a', b', rfl, _, _⟩ := SameButBlanks.split_word hm hne h'
  exact ⟨a', b', by simp⟩

theorem sepOf_same (g : Str) (hg : ∀ c ∈ g, Ws c) {a b : Str} (h : SameButBlanks a b) : SameButBlanks (g ++ a) (sepOf g ++ b) := by
  by_cases h0 : g = []
  · subst h0; simpa [sepOf] using h
  · refine .gap g (sepOf g) hg (sepOf_ws g) h0 ?_ h
    unfold sepOf
    rw [if_neg h0]
    split <;> simp

theorem normalOf_same : ∀ (ps : List (Str × Str)) (tail : Str), WsPieces ps → (∀ c ∈ tail, Ws c) →
    SameButBlanks (wsText ps tail) (normalOf ps tail)
  | [], tail, _, ht => by
    have := sepOf_same tail ht .nil
    simpa [wsText, normalOf] using this
  | (g, w) :: ps, tail, h, ht => by
    have ih := normalOf_same ps tail h.2.2.2 ht
    have := sepOf_same g h.1 ((SameButBlanks.refl w).append ih)
    simpa [wsText, normalOf] using this

theorem rstrip_after {c : Char} (hc : isSpace c = false) (a l : Str) : rstrip (a ++ c :: l) = a ++ c :: rstrip l := by
  rw [rstrip_append_nonspace a (c :: l) ⟨c, by simp, hc⟩]
  congr 1
  unfold rstrip
  rw [List.reverse_cons]
  by_cases h : ∀ x ∈ l.reverse, isSpace x = true
  · rw [List.dropWhile_append_of_pos h, dropWhile_eq_nil h]
    simp [hc]
  · have : l.reverse.dropWhile isSpace ≠ [] := by
      intro h0
      exact h (dropWhile_nil h0)
    rw [List.dropWhile_append, if_neg (by simpa using this)]
    simp

theorem lstrip_before {c : Char} (hc : isSpace c = false) (a l : Str) : lstrip (a ++ c :: l) = lstrip a ++ c :: l := by
  unfold lstrip
  rw [List.dropWhile_append]
  split
  · rename_i h
    have : a.dropWhile isSpace = [] := by simpa using h
    simp [this, hc]
  · rfl

theorem ph_ws (n : Nat) : ∀ c ∈ verbPlaceholder n, ¬ Ws c := by
  intro c hc
  unfold verbPlaceholder at hc
  rw [← wsB_iff]
  rcases List.mem_append.1 hc with hc | hc
  · rcases List.mem_append.1 hc with hc | hc
    · have : ∀ c ∈ "__VERBATIM_BLOCK__".toList, ¬ (wsB c = true) := by decide
      exact this c hc
    · intro h
      rw [wsB_iff] at h
      have := natStr_digits n c hc
      rcases h with rfl | rfl | rfl
      · exact absurd this.1 (by decide)
      · exact absurd this.1 (by decide)
      · exact absurd this.1 (by decide)
  · have : ∀ c ∈ "__".toList, ¬ (wsB c = true) := by decide
    exact this c hc

theorem render_split : ∀ (bs : List (Str × Str)) (n : Nat) (last y : Str),
    SameButBlanks (render verbPlaceholder (segsOf n bs last)) y →
    ∃ bs' last', SameBlocks bs bs' ∧ SameButBlanks last last' ∧ y = render verbPlaceholder (segsOf n bs' last')
  | [], n, last, y, h => ⟨[], y, .nil, by simpa [segsOf, render] using h, by simp [segsOf, render]⟩
  | (t, b) :: bs, n, last, y, h => by
    simp only [segsOf, render] at h
    obtain ⟨t', y', rfl, h1, h2⟩ := SameButBlanks.split_word (ph_ws n) (ph_ne_nil verb_family n) h
    obtain ⟨bs', last', h3, h4, rfl⟩ := render_split bs (n + 1) last y' h2
    exact ⟨(t', b) :: bs', last', .cons t t' b h1 h3, h4, by simp [segsOf, render]⟩

theorem Spec.SameBlocks.blocks {bs bs' : List (Str × Str)} (h : SameBlocks bs bs') : bs.map (·.2) = bs'.map (·.2) := by
  induction h with
  | nil => rfl
  | cons t t' b _ _ ih => simp [ih]

theorem Spec.SameBlocks.weave {bs bs' : List (Str × Str)} (h : SameBlocks bs bs') {l l' : Str} (hl : SameButBlanks l l') :
    SameButBlanks (weave bs l) (Spec.weave bs' l') := by
  induction h with
  | nil => exact hl
  | cons t t' b h _ ih =>
    simp only [Spec.weave, List.append_assoc]
    exact h.append ((SameButBlanks.refl b).append ih)

/-- The placeholder ends in an underscore. -/
theorem ph_last (n : Nat) : ∃ p, verbPlaceholder n = p ++ ['_'] := by
  refine ⟨"__VERBATIM_BLOCK__".toList ++ natStr n ++ ['_'], ?_⟩
  have h : "__".toList = ['_'] ++ ['_'] := by decide
  unfold verbPlaceholder
  rw [h]
  simp only [List.append_assoc]

theorem rstrip_render : ∀ (bs : List (Str × Str)) (n : Nat) (last : Str), bs ≠ [] →
    rstrip (render verbPlaceholder (segsOf n bs last)) = render verbPlaceholder (segsOf n bs (rstrip last))
  | [], _, _, h => absurd rfl h
  | [(t, b)], n, last, _ => by
    obtain ⟨p, hp⟩ := ph_last n
    have := rstrip_after (c := '_') (by decide) (t ++ p) last
    simp only [segsOf, render, hp]
    simpa using this
  | (t, b) :: x :: bs, n, last, _ => by
    have ih := rstrip_render (x :: bs) (n + 1) last (by simp)
    obtain ⟨p, hp⟩ := ph_last n
    have e : ∀ l, render verbPlaceholder (segsOf n ((t, b) :: x :: bs) l) =
        (t ++ verbPlaceholder n) ++ render verbPlaceholder (segsOf (n + 1) (x :: bs) l) := by
      intro l; simp [segsOf, render]
    rw [e, rstrip_append_nonspace, ih, e]
    refine ⟨'_', ?_, by decide⟩
    obtain ⟨p, hp⟩ := ph_last (n + 1)
    simp [segsOf, render, hp]

theorem strip_render (t b : Str) (bs : List (Str × Str)) (n : Nat) (last : Str) :
    strip (render verbPlaceholder (segsOf n ((t, b) :: bs) last)) =
      render verbPlaceholder (segsOf n ((lstrip t, b) :: bs) (rstrip last)) := by
  unfold strip
  have e : lstrip (render verbPlaceholder (segsOf n ((t, b) :: bs) last)) =
      render verbPlaceholder (segsOf n ((lstrip t, b) :: bs) last) := by
    obtain ⟨tl, htl⟩ := verb_family.shape n
    simp only [segsOf, render, htl]
    exact lstrip_before (by decide) t _
  rw [e, rstrip_render _ _ _ (by simp)]

/-- Text that appears in the trimmed version appears in the full one. -/
theorem weaveTrimmed_contains : ∀ (bs : List (Str × Str)) (last m : Str), Contains (weaveTrimmed bs last) m → Contains (weave bs last) m := by
  have tail : ∀ (bs : List (Str × Str)) (last : Str), ∃ ws, weave bs last = weave bs (rstrip last) ++ ws := by
    intro bs last
    induction bs with
    | nil => obtain ⟨ws, _, h⟩ := rstrip_eq last; exact ⟨ws, h⟩
    | cons x bs ih =>
      obtain ⟨ws, h⟩ := ih
      exact ⟨ws, by simp [weave, h]⟩
  intro bs last m h
  cases bs with
  | nil =>
    obtain ⟨a, b, _, _, e⟩ := strip_decomp last
    simp only [weave]
    rw [e]
    exact contains_mono h
  | cons x bs =>
    obtain ⟨ws, hw⟩ := tail bs last
    have : weave (x :: bs) last = x.1.takeWhile isSpace ++ (weaveTrimmed (x :: bs) last ++ ws) := by
      obtain ⟨t, b⟩ := x
      simp only [weave, weaveTrimmed, hw, lstrip]
      have : t = t.takeWhile isSpace ++ t.dropWhile isSpace := List.takeWhile_append_dropWhile.symm
      simp only [List.append_assoc]
      rw [← List.append_assoc (t.takeWhile isSpace), ← this]
    rw [this]
    exact contains_mono h

theorem placeholders_no_marker : ∀ (bs : List (Str × Str)) (n : Nat) (last : Str),
    ¬ Contains (weave bs last) paraMarker → ¬ Contains (render verbPlaceholder (segsOf n bs last)) paraMarker := by
  have hu : '_' ∈ paraMarker := by decide
  -- the marker cannot run into or out of a placeholder
  have hin : ∀ (x y : Str) (u : Str), paraMarker = u ++ ('_' :: '_' :: y) → False := by
    intro x y u h
    have : Contains paraMarker ['_', '_'] := ⟨u, y, by rw [h]; simp⟩
    rw [← findSub_contains _ (by simp)] at this
    revert this; decide
  intro bs
  induction bs with
  | nil => intro n last h; simpa [segsOf, render, weave] using h
  | cons x bs ih =>
    obtain ⟨t, b⟩ := x
    intro n last h hc
    have hrest : ¬ Contains (weave bs last) paraMarker := by
      intro h'
      exact h (by simpa [weave] using contains_mono (a := t ++ b) (b := []) h')
    have ht : ¬ Contains t paraMarker := by
      intro h'
      exact h (by simpa [weave] using contains_mono (a := []) (b := b ++ weave bs last) h')
    have ih' := ih (n + 1) last hrest
    obtain ⟨tl, htl⟩ := verb_family.shape n
    obtain ⟨a, z, e⟩ := hc
    simp only [segsOf, render] at e
    rw [List.append_assoc] at e
    -- position of the marker relative to the placeholder
    have hlt : '<' ∉ verbPlaceholder n := by
      intro h
      unfold verbPlaceholder at h
      rcases List.mem_append.1 h with h | h
      · rcases List.mem_append.1 h with h | h
        · revert h; decide
        · exact notDigit (by decide) h
      · revert h; decide
    rcases List.append_eq_append_iff.1 e with ⟨u, k1, k2⟩ | ⟨u, k1, k2⟩
    · -- a = t ++ u: the marker starts in the placeholder or later
      rcases List.append_eq_append_iff.1 k2 with ⟨w, g1, g2⟩ | ⟨w, g1, g2⟩
      · exact ih' ⟨w, z, by rw [g2]; simp⟩
      · cases w with
        | nil =>
          simp at g2
          exact ih' ⟨[], z, by rw [← g2]; simp⟩
        | cons d w =>
          rw [paraMarker_head] at g2
          simp at g2
          exact hlt (by rw [g1, g2.1]; simp)
    · -- t = a ++ u: the marker starts in t
      rcases List.append_eq_append_iff.1 k2 with ⟨w, g1, g2⟩ | ⟨w, g1, g2⟩
      · -- paraMarker = u or u longer...
        exact ht ⟨a, w, by rw [k1, g1]; simp⟩
      · -- paraMarker = u ++ w, w starts the placeholder
        rw [htl] at g2
        match w with
        | [] => exact ht ⟨a, [], by rw [k1, g1]; simp⟩
        | [d] =>
          simp at g2
          have : paraMarker.getLast? = some '_' := by rw [g1, List.getLast?_append]; simp [← g2.1]
          revert this; decide
        | d :: f :: w =>
          simp at g2
          exact hin [] w u (by rw [g1, ← g2.1, ← g2.2.1])


/-- C32, the whole step: blocks survive whitespace normalisation byte for byte and in their places, each text between
them differs from the original in blanks only, and only the ends of the whole text are trimmed. For any patterns and
any text containing neither the characteristic part of the placeholders nor the marker of the normaliser. -/
theorem C32_normalize_partial (pats : List Searcher) (hwf : ∀ p ∈ pats, SearcherWF p) (content : Str)
    (h : ¬ Contains content "VERBATIM_BLOCK".toList) (hm : ¬ Contains content "<PARA_BREAK>".toList) :
    ∃ bs last bs' last', BlockSplit pats content bs last ∧ SameBlocks bs bs' ∧ SameButBlanks last last' ∧
      normalizeKeepingVerbatim pats content = weaveTrimmed bs' last' := by
  obtain ⟨bs, last, h1, h2⟩ := extract_spec pats hwf (content.length + 1) 0 content (by omega)
  have hw := split_weave h1
  have hnm : ¬ Contains (render verbPlaceholder (segsOf 0 bs last)) paraMarker :=
    placeholders_no_marker bs 0 last (by rw [← hw]; exact hm)
  obtain ⟨ps, tail, k1, k2, k3⟩ := C33_every_text (render verbPlaceholder (segsOf 0 bs last))
  have hn : normalizeWs (render verbPlaceholder (segsOf 0 bs last)) = strip (normalOf ps tail) := by
    rw [k3]; exact C33_normal_form_partial ps tail k1 k2 (by rw [← k3]; exact hnm)
  have hs := normalOf_same ps tail k1 k2
  rw [← k3] at hs
  obtain ⟨bs', last', g1, g2, g3⟩ := render_split bs 0 last _ hs
  refine ⟨bs, last, bs', last', h1, g1, g2, ?_⟩
  have hclean : ¬ Contains (weaveTrimmed bs' last') "VERBATIM_BLOCK".toList := by
    intro hc
    have hc := weaveTrimmed_contains bs' last' _ hc
    have hne : "VERBATIM_BLOCK".toList ≠ [] := by decide
    have := SameButBlanks.contains (by
      intro c hc
      rw [← wsB_iff]
      have : ∀ c ∈ "VERBATIM_BLOCK".toList, ¬ (wsB c = true) := by decide
      exact this c hc) hne (g1.weave g2) hc
    rw [← hw] at this
    exact h this
  unfold normalizeKeepingVerbatim extractVerbatimBlocks
  simp only [h2, hn, g3]
  cases bs' with
  | nil =>
    cases g1
    simp only [segsOf, render, List.append_nil, weaveTrimmed, numbered]
    rfl
  | cons x bs' =>
    obtain ⟨t, b⟩ := x
    rw [strip_render]
    exact restore_weave bs ((lstrip t, b) :: bs') (rstrip last') g1.blocks (by simpa [weave, weaveTrimmed] using hclean)


/-- C32 violated: if a text with one protected block also contains, literally, the placeholder of that block, the block
is duplicated in its place: the literal text is lost. For all patterns and all such texts. -/
theorem C32_violated_literal_placeholder (pats : List Searcher) (content t b w ph : Str) (hph : ph = "__VERBATIM_BLOCK__0__".toList)
    (hc : content = t ++ b ++ ph ++ w) (hex : extractVerbatimBlocks pats content = (t ++ ph ++ ph ++ w, [(ph, b)]))
    (hclean : ¬ Contains (t ++ b ++ b ++ w) "VERBATIM_BLOCK".toList) :
    restoreBlocks (extractVerbatimBlocks pats content).1 (extractVerbatimBlocks pats content).2 = t ++ b ++ b ++ w ∧
    (b ≠ ph → restoreBlocks (extractVerbatimBlocks pats content).1 (extractVerbatimBlocks pats content).2 ≠ content) := by
  have hph' : ph = verbPlaceholder 0 := hph.trans (by decide)
  have key : restoreBlocks (extractVerbatimBlocks pats content).1 (extractVerbatimBlocks pats content).2 = t ++ b ++ b ++ w := by
    rw [hex]
    have := (C32_restore_partial (fun _ => b) 1 [.text t, .block 0, .block 0, .text w] (by simp)).1
      (by simpa only [render, List.append_assoc, List.append_nil] using hclean)
    have hr : List.range 1 = [0] := rfl
    rw [hr] at this
    rw [hph']
    simpa only [render, List.append_assoc, List.append_nil, List.map_cons, List.map_nil] using this
  refine ⟨key, fun hne h => ?_⟩
  rw [key, hc, List.append_cancel_right_eq, List.append_cancel_left_eq] at h
  exact hne h

/-- C32 violated also for texts that contain no placeholder at all: the end of one placeholder can combine with
following text into another. -/
theorem C32_violated_combined : ∃ content : Str, (∀ n, ¬ Contains content (verbPlaceholder n)) ∧
    ¬ Contains content "__VERBATIM_BLOCK__".toList ∧
    restoreBlocks (extractVerbatimBlocks allVerbatimPatterns content).1 (extractVerbatimBlocks allVerbatimPatterns content).2 ≠ content := by
  refine ⟨"\\verb|a| \\verb|b|VERBATIM_BLOCK__0__".toList, ?_, ?_, by decide +kernel⟩
  · intro n h
    have h2 : Contains "\\verb|a| \\verb|b|VERBATIM_BLOCK__0__".toList "__VERBATIM_BLOCK__".toList := by
      obtain ⟨a, b, e⟩ := h
      refine ⟨a, natStr n ++ "__".toList ++ b, ?_⟩
      rw [e]
      unfold verbPlaceholder
      generalize "__VERBATIM_BLOCK__".toList = x
      generalize "__".toList = y
      simp only [List.append_assoc]
    have h3 : "__VERBATIM_BLOCK__".toList ≠ [] := by decide
    rw [← findSub_contains _ h3] at h2
    revert h2; decide
  · rw [← findSub_contains _ (by decide)]; decide

/-! The patterns of the code. -/

theorem searcher_wf {r : Re} (h : r.Consumes) : SearcherWF r.searcher := by
  intro s a e hs
  unfold Re.searcher at hs
  rw [Option.map_eq_some_iff] at hs
  obtain ⟨m, hm, he⟩ := hs
  injection he with h1 h2
  have := hit_bounds h s ⟨m.start, m.stop, m.group 1⟩ (by unfold Re.hit; rw [hm]; rfl)
  simp only [h1, h2] at this
  exact this

theorem verbTail_le (d : Char) : ∀ (s : Str) (n : Nat), verbTail d s = some n → n ≤ s.length
  | [], n, h => by simp [verbTail] at h
  | c :: cs, n, h => by
    unfold verbTail at h
    split at h
    · injection h with h; simp; omega
    · split at h
      · cases h
      · rw [Option.map_eq_some_iff] at h
        obtain ⟨m, hm, rfl⟩ := h
        have := verbTail_le d cs m hm
        simpa using this

theorem verbBody_le : ∀ (s : Str) (n : Nat), verbBody s = some n → n ≤ s.length
  | [], n, h => by simp [verbBody] at h
  | c :: cs, n, h => by
    simp only [verbBody] at h
    split at h
    · cases h
    · rw [Option.map_eq_some_iff] at h
      obtain ⟨m, hm, rfl⟩ := h
      have := verbTail_le c cs m hm
      simpa using this

theorem matchVerb_bounds (s : Str) (n : Nat) (h : matchVerb s = some n) : 5 ≤ n ∧ n ≤ s.length := by
  unfold matchVerb at h
  split at h
  · rename_i hp
    have h5 : 5 ≤ s.length := by
      unfold startsWith at hp
      rw [List.isPrefixOf_iff_prefix] at hp
      exact hp.length_le
    simp only [Option.map_eq_some_iff, Option.or_eq_some_iff] at h
    obtain ⟨k, hk, rfl⟩ := h
    have hlen : (s.drop 5).length = s.length - 5 := List.length_drop
    rcases hk with hk | ⟨_, hk⟩
    · split at hk
      · rename_i r' hr
        rw [Option.map_eq_some_iff] at hk
        obtain ⟨j, hj, rfl⟩ := hk
        have := verbBody_le _ _ hj
        rw [hr] at hlen
        simp only [List.length_cons] at hlen
        omega
      · cases hk
    · have := verbBody_le _ _ hk
      omega
  · cases h

/-- The patterns of the code satisfy the hypothesis of the C32 theorems. -/
theorem C32_patterns_wf : ∀ p ∈ allVerbatimPatterns, SearcherWF p := by
  have henv : ∀ name, (envPairRe name).Consumes := fun name => consumes_seq_left _ (consumes_lit _ _)
  intro p hp
  simp only [allVerbatimPatterns, List.mem_cons, List.not_mem_nil, or_false] at hp
  rcases hp with rfl | rfl | rfl | rfl | rfl | rfl
  · exact searcher_wf (henv _)
  · exact searcher_wf (consumes_seq_left _ (consumes_lit _ _))
  · intro s a e h
    obtain ⟨h1, n, h2, h3⟩ := searchWith_some matchVerb s a e h
    have := matchVerb_bounds _ _ h2
    rw [List.length_drop] at this
    omega
  · exact searcher_wf (henv _)
  · exact searcher_wf (henv _)
  · exact searcher_wf (consumes_alt (henv _) (consumes_alt (henv _) (henv _)))

/-! A text with two kinds of blocks, and the literal placeholder. -/
example : normalizeKeepingVerbatim allVerbatimPatterns
    "a  b \\begin {verbatim} x \n\n y\\end{verbatim}  \n\n \\verb*|q  q|  z ".toList =
    "a b \\begin {verbatim} x \n\n y\\end{verbatim}\n\\verb*|q  q| z".toList := by decide +kernel
example : ¬ Contains "a  b \\begin {verbatim} x \n\n y\\end{verbatim}  \n\n \\verb*|q  q|  z ".toList "VERBATIM_BLOCK".toList := by
  rw [← findSub_contains _ (by decide)]; decide
example : extractVerbatimBlocks allVerbatimPatterns "x \\verb|a|__VERBATIM_BLOCK__0__ y".toList =
    ("x ".toList ++ "__VERBATIM_BLOCK__0__".toList ++ "__VERBATIM_BLOCK__0__".toList ++ " y".toList,
      [("__VERBATIM_BLOCK__0__".toList, "\\verb|a|".toList)]) := by decide +kernel
example : restoreBlocks (extractVerbatimBlocks allVerbatimPatterns "x \\verb|a|__VERBATIM_BLOCK__0__ y".toList).1
    (extractVerbatimBlocks allVerbatimPatterns "x \\verb|a|__VERBATIM_BLOCK__0__ y".toList).2 =
    "x \\verb|a|\\verb|a| y".toList := by decide +kernel

end L2J
