import Verif.Model.Tabular
import Verif.Spec.Tabular
import Verif.Lemmas.Level
namespace L2J
open Spec

/-- `splitLoop` without stripping and filtering. -/
def splitRaw (delim : Str) : Nat → Str → Int → Str → Str → List Str
  | _, _, _, cur, [] => [cur.reverse]
  | k + 1, rev, lvl, cur, x :: rest => splitRaw delim k (x :: rev) lvl cur rest
  | 0, rev, lvl, cur, x :: rest =>
    if x = '{' then splitRaw delim 0 (x :: rev) (lvl + 1) (x :: cur) rest
    else if x = '}' then splitRaw delim 0 (x :: rev) (lvl - 1) (x :: cur) rest
    else if startsWith (x :: rest) delim && lvl == 0 && !isEscaped rev then
      cur.reverse :: splitRaw delim (delim.length - 1) (x :: rev) lvl [] rest
    else splitRaw delim 0 (x :: rev) lvl (x :: cur) rest

theorem splitLoop_cells (delim rest : Str) : ∀ k rev lvl cur,
    splitLoop delim false k rev lvl cur rest = (splitRaw delim k rev lvl cur rest).map strip := by
  induction rest with
  | nil => intro k rev lvl cur; cases k <;> simp [splitLoop, splitRaw, emitPart]
  | cons x rest ih =>
    intro k rev lvl cur
    cases k with
    | succ k => simp [splitLoop, splitRaw, ih]
    | zero =>
      simp only [splitLoop, splitRaw]
      split
      · exact ih ..
      · split
        · exact ih ..
        · split
          · simp [emitPart, ih]
          · exact ih ..

theorem splitLoop_rows (delim rest : Str) : ∀ k rev lvl cur,
    splitLoop delim true k rev lvl cur rest =
      ((splitRaw delim k rev lvl cur rest).map strip).filter (fun p => !p.isEmpty) := by
  induction rest with
  | nil =>
    intro k rev lvl cur
    cases k <;> (simp only [splitLoop, splitRaw, emitPart]; by_cases h : (strip cur.reverse).isEmpty <;> simp [h])
  | cons x rest ih =>
    intro k rev lvl cur
    cases k with
    | succ k => simp [splitLoop, splitRaw, ih]
    | zero =>
      simp only [splitLoop, splitRaw]
      split
      · exact ih ..
      · split
        · exact ih ..
        · split
          · simp only [emitPart, ih, List.map_cons]
            by_cases h : (strip cur.reverse).isEmpty <;> simp [h]
          · exact ih ..

theorem rawLevel_zip_succ (rev rest : Str) (x : Char) :
    rawLevel (rev.reverse ++ x :: rest) (rev.length + 1) =
      rawLevel (rev.reverse ++ x :: rest) rev.length + (if x = '{' then 1 else if x = '}' then -1 else 0) := by
  have : (rev.reverse ++ x :: rest)[rev.length]? = some x := by
    rw [List.getElem?_append_right (by simp)]; simp
  simp only [rawLevel, this, Option.some.injEq]

theorem splitRaw_skip (delim rest : Str) : ∀ k rev lvl, k ≤ rest.length →
    splitRaw delim k rev lvl [] rest = splitRaw delim 0 ((rest.take k).reverse ++ rev) lvl [] (rest.drop k) := by
  induction rest with
  | nil => intro k rev lvl h; simp at h; subst h; rfl
  | cons x rest ih =>
    intro k rev lvl h
    cases k with
    | zero => rfl
    | succ k =>
      simp only [splitRaw]
      rw [ih k _ _ (by simpa using h)]
      simp

theorem rawLevel_nobrace (t : Str) (i k : Nat)
    (h : ∀ j, i ≤ j → j < i + k → t[j]? ≠ some '{' ∧ t[j]? ≠ some '}') : rawLevel t (i + k) = rawLevel t i := by
  induction k with
  | zero => rfl
  | succ k ih =>
    have h1 := h (i + k) (by omega) (by omega)
    rw [← Nat.add_assoc, rawLevel, ih (fun j a b => h j a (by omega))]
    simp [h1.1, h1.2]

theorem splitRaw_pieces (delim : Str) (hd : delim ≠ []) (hb1 : '{' ∉ delim) (hb2 : '}' ∉ delim) :
    ∀ n rest, rest.length ≤ n → ∀ rev lvl cur start,
    start ≤ rev.length → cur.reverse = slice (rev.reverse ++ rest) start rev.length →
    rawLevel (rev.reverse ++ rest) rev.length = lvl →
    (∀ j, start ≤ j → j < rev.length → ¬ RawCutAt (rev.reverse ++ rest) delim j) →
    Pieces (rev.reverse ++ rest) (RawCutAt (rev.reverse ++ rest) delim) delim.length start
      (splitRaw delim 0 rev lvl cur rest) := by
  intro n
  induction n with
  | zero =>
    intro rest hn rev lvl cur start hs hc hl hnc
    have : rest = [] := by simpa using hn
    subst this
    simp only [splitRaw, hc]
    have : slice (rev.reverse ++ []) start rev.length = (rev.reverse ++ []).drop start := by
      simp [slice, List.take_of_length_le]
    rw [this]
    exact .last _ (by simpa using hs) (fun i h1 h2 => hnc i h1 (by simpa using h2))
  | succ n ih =>
    intro rest hn rev lvl cur start hs hc hl hnc
    cases rest with
    | nil =>
      simp only [splitRaw, hc]
      have : slice (rev.reverse ++ []) start rev.length = (rev.reverse ++ []).drop start := by
        simp [slice, List.take_of_length_le]
      rw [this]
      exact .last _ (by simpa using hs) (fun i h1 h2 => hnc i h1 (by simpa using h2))
    | cons x rest =>
      have hesc := escapedAt_zip rev (x :: rest)
      have hls := rawLevel_zip_succ rev rest x
      have hdrop : (rev.reverse ++ x :: rest).drop rev.length = x :: rest := by
        rw [List.drop_append_of_le_length (by simp)]; simp
      have step : ∀ l', rawLevel (rev.reverse ++ x :: rest) (rev.length + 1) = l' →
          ¬ RawCutAt (rev.reverse ++ x :: rest) delim rev.length →
          Pieces (rev.reverse ++ x :: rest) (RawCutAt (rev.reverse ++ x :: rest) delim) delim.length start
            (splitRaw delim 0 (x :: rev) l' (x :: cur) rest) := by
        intro l' hl' hno
        have := ih rest (by simpa using hn) (x :: rev) l' (x :: cur) start (by simp; omega)
          (by
            simp only [List.reverse_cons, List.append_assoc, List.singleton_append, List.length_cons, hc, slice]
            rw [List.take_add_one, List.drop_append_of_le_length (by simp; omega)]
            congr 1
            rw [List.getElem?_append_right (by simp)]
            simp)
          (by simpa using hl')
          (by
            simp only [List.reverse_cons, List.append_assoc, List.singleton_append, List.length_cons]
            intro j h1 h2
            by_cases hj : j = rev.length
            · subst hj; exact hno
            · exact hnc j h1 (by omega))
        simpa using this
      simp only [splitRaw]
      split
      · rename_i hx
        simp only [hx, if_true] at hls
        refine step _ (by rw [hx, hls, ← hl, hx]) ?_
        rintro ⟨hp, _⟩
        rw [hdrop] at hp
        cases delim with
        | nil => exact hd rfl
        | cons y ys =>
          have := (List.cons_prefix_cons.1 hp).1
          subst this; subst hx; simp at hb1
      · split
        · rename_i hx' hx
          simp only [hx, if_true] at hls
          refine step _ (by rw [hx, hls, ← hl, hx]; simp; rfl) ?_
          rintro ⟨hp, _⟩
          rw [hdrop] at hp
          cases delim with
          | nil => exact hd rfl
          | cons y ys =>
            have := (List.cons_prefix_cons.1 hp).1
            subst this; subst hx; simp at hb2
        · rename_i h1 h2
          simp only [h1, h2, if_false] at hls
          have hls : rawLevel (rev.reverse ++ x :: rest) (rev.length + 1) = lvl := by rw [hls, hl]; simp
          split
          · rename_i hcut
            simp only [Bool.and_eq_true, Bool.not_eq_true', beq_iff_eq, startsWith, List.isPrefixOf_iff_prefix] at hcut
            obtain ⟨⟨hp, h0⟩, he⟩ := hcut
            have hC : RawCutAt (rev.reverse ++ x :: rest) delim rev.length :=
              ⟨by rw [hdrop]; exact hp, by rw [hesc]; exact he, by rw [hl]; exact h0⟩
            have hlen := hp.length_le
            have hdl : 1 ≤ delim.length := by
              cases delim with
              | nil => exact absurd rfl hd
              | cons _ _ => simp
            rw [hc, splitRaw_skip _ _ _ _ _ (by simp at hlen; omega)]
            refine .cut start rev.length _ hs (by simp at hlen ⊢; omega) hC hnc ?_
            have htxt : ((rest.take (delim.length - 1)).reverse ++ x :: rev).reverse ++ rest.drop (delim.length - 1)
                = rev.reverse ++ x :: rest := by simp
            have hln : ((rest.take (delim.length - 1)).reverse ++ x :: rev).length = rev.length + delim.length := by
              simp at hlen ⊢; omega
            have := ih (rest.drop (delim.length - 1)) (by simp at hn ⊢; omega)
              ((rest.take (delim.length - 1)).reverse ++ x :: rev) lvl [] (rev.length + delim.length)
              (by rw [hln]; exact Nat.le_refl _)
              (by
                rw [htxt, hln]
                simp only [slice, List.reverse_nil]
                symm
                apply List.drop_eq_nil_of_le
                simp; omega)
              (by
                rw [htxt, hln, rawLevel_nobrace, hl]
                intro j hj1 hj2
                obtain ⟨tl, htl⟩ := hp
                have : (rev.reverse ++ x :: rest)[j]? = delim[j - rev.length]? := by
                  rw [List.getElem?_append_right (by simpa using hj1), ← htl, List.getElem?_append_left (by simp; omega)]
                  simp
                rw [this]
                constructor
                · intro h; exact hb1 (List.mem_of_getElem? h)
                · intro h; exact hb2 (List.mem_of_getElem? h))
              (by rw [hln]; intro j a b; omega)
            rw [htxt] at this
            exact this
          · rename_i hcut
            refine step lvl hls ?_
            rintro ⟨hp, he, h0⟩
            apply hcut
            rw [hdrop] at hp
            rw [hesc] at he
            simp [startsWith, he, ← hl, h0, hp]

theorem rawLevel_eq_level (t : Str) (h : NoEscapedBrace t) : ∀ i, rawLevel t i = level t '{' '}' i
  | 0 => rfl
  | i + 1 => by
    rw [rawLevel, level, rawLevel_eq_level t h i]
    congr 1
    unfold liveAt
    by_cases h1 : t[i]? = some '{'
    · simp [h1, h i (.inl h1)]
    · by_cases h2 : t[i]? = some '}'
      · simp [h2, h i (.inr h2)]
      · simp [h1, h2]

theorem pieces_congr {t : Str} {p q : Nat → Prop} {w : Nat} (h : ∀ i, p i ↔ q i) {s : Nat} {ps : List Str}
    (hp : Pieces t p w s ps) : Pieces t q w s ps := by
  induction hp with
  | last s h1 h2 => exact .last s h1 (fun i a b c => h2 i a b ((h i).2 c))
  | cut s i ps h1 h2 h3 h4 _ ih => exact .cut s i ps h1 h2 ((h i).1 h3) (fun j a b c => h4 j a b ((h j).2 c)) ih

theorem pieces_unique {t : Str} {p : Nat → Prop} {w : Nat} (hw : 0 < w) {s : Nat} {ps qs : List Str}
    (hp : Pieces t p w s ps) (hq : Pieces t p w s qs) : ps = qs := by
  induction hp generalizing qs with
  | last s h1 h2 =>
    cases hq with
    | last _ _ => rfl
    | cut _ i _ a b c d _ => exact absurd c (h2 i a (by omega))
  | cut s i ps h1 h2 h3 h4 _ ih =>
    cases hq with
    | last _ a b => exact absurd h3 (b i h1 (by omega))
    | cut _ i' _ a b c d e =>
      have : i = i' := by
        rcases Nat.lt_trichotomy i i' with h | h | h
        · exact absurd h3 (d i h1 h)
        · exact h
        · exact absurd c (h4 i' a h)
      subst this
      rw [ih e]

theorem joinWith_cons (sep p : Str) (ps : List Str) (h : ps ≠ []) :
    joinWith sep (p :: ps) = p ++ sep ++ joinWith sep ps := by
  cases ps with
  | nil => exact absurd rfl h
  | cons q qs => rfl

theorem pieces_ne_nil {t : Str} {p : Nat → Prop} {w : Nat} {s : Nat} {ps : List Str}
    (hp : Pieces t p w s ps) : ps ≠ [] := by
  cases hp <;> simp

theorem pieces_join {t d : Str} {p : Nat → Prop} (hcut : ∀ i, p i → d <+: t.drop i) {s : Nat} {ps : List Str}
    (hp : Pieces t p d.length s ps) : joinWith d ps = t.drop s := by
  induction hp with
  | last s h1 h2 => rfl
  | cut s i ps h1 h2 h3 h4 h5 ih =>
    rw [joinWith_cons _ _ _ (pieces_ne_nil h5), ih]
    obtain ⟨tl, htl⟩ := hcut i h3
    have h6 : t.drop (i + d.length) = tl := by
      rw [← List.drop_drop, ← htl]; simp
    rw [h6, List.append_assoc, htl, slice]
    have : t.drop s = (t.take i ++ t.drop i).drop s := by simp
    rw [this, List.drop_append_of_le_length (by simp; omega)]

end L2J
