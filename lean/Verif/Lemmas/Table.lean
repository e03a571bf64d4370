import Verif.Spec.Table
import Verif.Lemmas.Tabular
import Verif.Props.C47
import Verif.Props.C22
namespace L2J
open Spec Tab

/-! Splitting. -/

theorem splitRaw_rev (d s : Str) : ∀ k rev rev' lvl cur, isEscaped rev = isEscaped rev' →
    splitRaw d k rev lvl cur s = splitRaw d k rev' lvl cur s := by
  induction s with
  | nil => intro k rev rev' lvl cur _; cases k <;> rfl
  | cons x s ih =>
    intro k rev rev' lvl cur h
    have h' : isEscaped (x :: rev) = isEscaped (x :: rev') := by rw [isEscaped_cons, isEscaped_cons, h]
    cases k with
    | succ k => simp only [splitRaw]; exact ih _ _ _ _ _ h'
    | zero =>
      simp only [splitRaw, h]
      split
      · exact ih _ _ _ _ _ h'
      · split
        · exact ih _ _ _ _ _ h'
        · split
          · rw [ih _ _ _ _ _ h']
          · exact ih _ _ _ _ _ h'

/-- Text put before the first part. -/
def onHead (p : Str) : List Str → List Str
  | [] => []
  | q :: qs => (p ++ q) :: qs

theorem onHead_onHead (a b : Str) (l : List Str) : onHead a (onHead b l) = onHead (a ++ b) l := by
  cases l <;> simp [onHead]

theorem splitRaw_cur (d s : Str) : ∀ k rev lvl cur, splitRaw d k rev lvl cur s = onHead cur.reverse (splitRaw d k rev lvl [] s) := by
  induction s with
  | nil => intro k rev lvl cur; cases k <;> simp [splitRaw, onHead]
  | cons x s ih =>
    intro k rev lvl cur
    cases k with
    | succ k => simp only [splitRaw]; exact ih _ _ _ _
    | zero =>
      simp only [splitRaw]
      split
      · rw [ih, ih 0 _ _ [x], onHead_onHead]; simp
      · split
        · rw [ih, ih 0 _ _ [x], onHead_onHead]; simp
        · split
          · simp [onHead]
          · rw [ih, ih 0 _ _ [x], onHead_onHead]; simp

theorem space_char {x : Char} (h : isSpace x = true) : x ≠ '{' ∧ x ≠ '}' ∧ x ≠ '&' ∧ x ≠ '\\' := by
  refine ⟨?_, ?_, ?_, ?_⟩ <;> (rintro rfl; revert h; decide)

/-- Blanks before a text go into its first part. -/
theorem splitRaw_before (ws s : Str) (hws : ∀ x ∈ ws, isSpace x = true) : ∀ rev, isEscaped rev = false →
    splitRaw ['&'] 0 rev 0 [] (ws ++ s) = onHead ws (splitRaw ['&'] 0 rev 0 [] s) := by
  induction ws with
  | nil => intro rev _; cases h : splitRaw ['&'] 0 rev 0 [] s <;> simp [onHead, h]
  | cons x ws ih =>
    intro rev hr
    obtain ⟨h1, h2, h3, h4⟩ := space_char (hws x (by simp))
    have hx : isEscaped (x :: rev) = false := by rw [isEscaped_cons]; simp [h4]
    have hp : startsWith (x :: (ws ++ s)) ['&'] = false := by simp [startsWith, List.isPrefixOf, Ne.symm h3]
    rw [List.cons_append, splitRaw, if_neg h1, if_neg h2, if_neg (by simp [hp]), splitRaw_cur, ih (fun y hy => hws y (by simp [hy])) _ hx,
      onHead_onHead, splitRaw_rev _ _ _ _ rev _ _ (by rw [hx, hr])]
    simp

theorem prefix_blanks {d q ws : Str} (hd : ∀ x ∈ d, isSpace x = false) (hws : ∀ x ∈ ws, isSpace x = true) (h : d <+: q ++ ws) : d <+: q := by
  obtain ⟨t, ht⟩ := h
  rcases List.append_eq_append_iff.1 ht with ⟨u, k1, k2⟩ | ⟨u, k1, k2⟩
  · exact ⟨u, k1.symm⟩
  · cases u with
    | nil => exact ⟨[], by simpa using k1⟩
    | cons c u =>
      have h1 := hd c (by rw [k1]; simp)
      have h2 := hws c (by rw [k2]; simp)
      rw [h1] at h2; cases h2

theorem splitRaw_after (d s ws : Str) (hd0 : d ≠ []) (hd : ∀ x ∈ d, isSpace x = false) (hws : ∀ x ∈ ws, isSpace x = true) : ∀ k rev lvl cur, k ≤ s.length →
    (splitRaw d k rev lvl cur (s ++ ws)).map strip = (splitRaw d k rev lvl cur s).map strip := by
  have blanks : ∀ (ws : Str), (∀ x ∈ ws, isSpace x = true) → ∀ rev lvl cur, splitRaw d 0 rev lvl cur ws = [cur.reverse ++ ws] := by
    intro ws
    induction ws with
    | nil => intro _ rev lvl cur; simp [splitRaw]
    | cons x ws ih =>
      intro hw rev lvl cur
      obtain ⟨h1, h2, _, _⟩ := space_char (hw x (by simp))
      have hp : startsWith (x :: ws) d = false := by
        cases d with
        | nil => exact absurd rfl hd0
        | cons y ys =>
          simp only [startsWith, List.isPrefixOf, Bool.and_eq_false_iff, beq_eq_false_iff_ne]
          left
          rintro rfl
          have := hd y (by simp)
          rw [hw y (by simp)] at this; cases this
      rw [splitRaw, if_neg h1, if_neg h2, if_neg (by simp [hp]), ih (fun y hy => hw y (by simp [hy]))]
      simp
  induction s with
  | nil =>
    intro k rev lvl cur hk
    have : k = 0 := by simpa using hk
    subst this
    rw [List.nil_append, blanks ws hws, splitRaw]
    simp [Content.strip_right hws]
  | cons x s ih =>
    intro k rev lvl cur hk
    cases k with
    | succ k => rw [List.cons_append]; simp only [splitRaw]; exact ih _ _ _ _ (by simpa using hk)
    | zero =>
      have hp : startsWith (x :: (s ++ ws)) d = startsWith (x :: s) d := by
        unfold startsWith
        rw [Bool.eq_iff_iff, List.isPrefixOf_iff_prefix, List.isPrefixOf_iff_prefix]
        refine ⟨fun h => prefix_blanks hd hws (q := x :: s) (by simpa using h), fun h => h.trans ⟨ws, by simp⟩⟩
      rw [List.cons_append]
      simp only [splitRaw, hp]
      split
      · exact ih _ _ _ _ (by omega)
      · split
        · exact ih _ _ _ _ (by omega)
        · split
          · rename_i h
            have hpre : d <+: x :: s := by
              simp only [Bool.and_eq_true, startsWith, List.isPrefixOf_iff_prefix] at h; exact h.1.1
            have := hpre.length_le
            simp only [List.map_cons]
            rw [ih _ _ _ _ (by simp at this; omega)]
          · exact ih _ _ _ _ (by omega)

/-- Blanks at the ends of a row do not matter. -/
theorem split_strip (t : Str) : splitLatexContent (strip t) ['&'] false = splitLatexContent t ['&'] false := by
  obtain ⟨a, b, ht, ha, hb⟩ := Content.strip_split t
  generalize strip t = c at ht
  subst ht
  unfold splitLatexContent
  rw [splitLoop_cells, splitLoop_cells, splitRaw_before a (c ++ b) ha [] rfl]
  have h := splitRaw_after ['&'] c b (by simp) (by intro x hx; simp at hx; subst hx; decide) hb 0 [] 0 [] (by omega)
  cases h1 : splitRaw ['&'] 0 [] 0 [] (c ++ b) with
  | nil => rw [h1] at h; simpa [onHead] using h.symm
  | cons p ps =>
    rw [h1] at h
    simp only [onHead, List.map_cons, Content.strip_left ha]
    simpa using h.symm

theorem rawLevel_append_left (a b : Str) : ∀ i, i ≤ a.length → rawLevel (a ++ b) i = rawLevel a i
  | 0, _ => rfl
  | i + 1, h => by
    rw [rawLevel, rawLevel, rawLevel_append_left a b i (by omega), List.getElem?_append_left (by omega)]

theorem rawLevel_append_right (a b : Str) : ∀ i, rawLevel (a ++ b) (a.length + i) = rawLevel a a.length + rawLevel b i
  | 0 => by simp [rawLevel, rawLevel_append_left]
  | i + 1 => by
    rw [← Nat.add_assoc, rawLevel, rawLevel, rawLevel_append_right a b i, List.getElem?_append_right (by omega)]
    simp
    omega

/-- The scan of a text without a cut. -/
theorem splitRaw_run (d r : Str) (hd : d ≠ []) : ∀ (q p cur : Str), (∀ i, ¬ RawCutAt (p ++ q) d i) →
    (∀ q', q' <:+ q → q' ≠ [] → d <+: q' ++ r → d <+: q') →
    splitRaw d 0 p.reverse (rawLevel (p ++ q) p.length) cur (q ++ r) =
      splitRaw d 0 (p ++ q).reverse (rawLevel (p ++ q) (p ++ q).length) (q.reverse ++ cur) r
  | [], p, cur, _, _ => by simp
  | x :: q, p, cur, hc, hs => by
    have ih := splitRaw_run d r hd q (p ++ [x]) (x :: cur) (by simpa using hc)
      (fun q' h1 h2 h3 => hs q' (h1.trans ⟨[x], rfl⟩) h2 h3)
    have hl := rawLevel_zip_succ p.reverse q x
    simp only [List.reverse_reverse, List.length_reverse] at hl
    simp only [List.append_assoc, List.singleton_append, List.reverse_append, List.reverse_cons, List.reverse_nil, List.nil_append,
      List.length_append, List.length_cons, List.length_nil, Nat.zero_add] at ih
    have goal : splitRaw d 0 p.reverse (rawLevel (p ++ x :: q) p.length) cur (x :: (q ++ r)) =
        splitRaw d 0 (x :: p.reverse) (rawLevel (p ++ x :: q) (p.length + 1)) (x :: cur) (q ++ r) := by
      rw [splitRaw, hl]
      by_cases h1 : x = '{'
      · simp [h1]
      · by_cases h2 : x = '}'
        · simp [h2]; rfl
        · rw [if_neg h1, if_neg h2, if_neg h1, if_neg h2, if_neg]
          · simp
          · intro h
            simp only [Bool.and_eq_true, startsWith, List.isPrefixOf_iff_prefix, beq_iff_eq, Bool.not_eq_true'] at h
            obtain ⟨⟨hp, h0⟩, he⟩ := h
            have hp' := hs (x :: q) (List.suffix_refl _) (by simp) (by simpa using hp)
            apply hc p.length
            have hz := escapedAt_zip p.reverse (x :: q)
            simp only [List.reverse_reverse, List.length_reverse] at hz
            exact ⟨by simpa using hp', by rw [hz]; exact he, h0⟩
    rw [List.cons_append, goal, ih]
    simp

theorem isEscaped_last {t : Str} (h : t.getLast? ≠ some '\\') : isEscaped t.reverse = false := by
  rcases List.eq_nil_or_concat t with rfl | ⟨p, x, rfl⟩
  · rfl
  · simp at h
    simp [isEscaped_cons, h]

/-- A text that is one part. -/
structure OnePiece (d t : Str) : Prop where
  level : rawLevel t t.length = 0
  noCut : ∀ i, ¬ RawCutAt t d i
  last : t.getLast? ≠ some '\\'

/-- The two separators. -/
def Sep (d : Str) : Prop := d = ['&'] ∨ d = ['\\', '\\']

theorem sep_stop {d t r : Str} (hd : Sep d) (ht : t.getLast? ≠ some '\\') (q' : Str) (hq : q' <:+ t) (hne : q' ≠ [])
    (h : d <+: q' ++ r) : d <+: q' := by
  rcases hd with rfl | rfl
  · cases q' with
    | nil => exact absurd rfl hne
    | cons x q => simpa using h
  · match q', hne with
    | [x], _ =>
      exfalso
      have : x = '\\' := by
        obtain ⟨u, hu⟩ := h
        simp at hu
        exact hu.1.symm
      obtain ⟨p, rfl⟩ := hq
      simp [this] at ht
    | x :: y :: q, _ => simpa using h

theorem one_last {d t : Str} (hd : Sep d) (ht : OnePiece d t) : splitRaw d 0 [] 0 [] t = [t] := by
  have hd0 : d ≠ [] := by rcases hd with rfl | rfl <;> simp
  have h := splitRaw_run d [] hd0 t [] [] (by simpa using ht.noCut) (fun q' h1 h2 h3 => by simpa using h3)
  simp only [List.append_nil, List.nil_append, List.reverse_nil, List.length_nil, rawLevel] at h
  rw [h, splitRaw]
  simp

theorem one_cut {d t r : Str} (hd : Sep d) (ht : OnePiece d t) : splitRaw d 0 [] 0 [] (t ++ (d ++ r)) = t :: splitRaw d 0 [] 0 [] r := by
  have hd0 : d ≠ [] := by rcases hd with rfl | rfl <;> simp
  have h := splitRaw_run d (d ++ r) hd0 t [] [] (by simpa using ht.noCut) (fun q' h1 h2 h3 => sep_stop hd ht.last q' h1 h2 h3)
  simp only [List.append_nil, List.nil_append, List.reverse_nil, List.length_nil, rawLevel] at h
  rw [h, ht.level]
  have he := isEscaped_last ht.last
  rcases hd with rfl | rfl
  · have e : splitRaw ['&'] 0 t.reverse 0 t.reverse (['&'] ++ r) = t.reverse.reverse :: splitRaw ['&'] 0 ('&' :: t.reverse) 0 [] r := by
      rw [List.singleton_append, splitRaw, if_neg (by decide), if_neg (by decide), if_pos (by simp [startsWith, he])]
      rfl
    rw [e, List.reverse_reverse, splitRaw_rev _ _ _ _ [] _ _ (by rw [isEscaped_cons]; simp; rfl)]
  · have e : splitRaw ['\\', '\\'] 0 t.reverse 0 t.reverse (['\\', '\\'] ++ r) = t.reverse.reverse :: splitRaw ['\\', '\\'] 0 ('\\' :: '\\' :: t.reverse) 0 [] r := by
      show splitRaw ['\\', '\\'] 0 t.reverse 0 t.reverse ('\\' :: '\\' :: r) = _
      rw [splitRaw, if_neg (by decide), if_neg (by decide), if_pos (by simp [startsWith, he])]
      rfl
    rw [e, List.reverse_reverse, splitRaw_rev _ _ _ _ [] _ _ (by rw [isEscaped_cons, isEscaped_cons, he]; rfl)]

theorem split_join {d : Str} (hd : Sep d) : ∀ (ts : List Str), ts ≠ [] → (∀ t ∈ ts, OnePiece d t) → splitRaw d 0 [] 0 [] (joinWith d ts) = ts
  | [], h, _ => absurd rfl h
  | [t], _, h => one_last hd (h t (by simp))
  | t :: u :: ts, _, h => by
    rw [joinWith, List.append_assoc, one_cut hd (h t (by simp)), split_join hd (u :: ts) (by simp) (fun x hx => h x (by simp [hx]))]

theorem OnePiece.append {d a b : Str} (hd : Sep d) (ha : OnePiece d a) (hb : OnePiece d b) : OnePiece d (a ++ b) := by
  have hea : escapedAt a a.length = false := by
    have hz := escapedAt_zip a.reverse []
    simp only [List.reverse_reverse, List.length_reverse, List.append_nil] at hz
    rw [hz]; exact isEscaped_last ha.last
  refine ⟨?_, ?_, ?_⟩
  · rw [List.length_append, rawLevel_append_right, ha.level, hb.level]; rfl
  · intro i hi
    obtain ⟨h1, h2, h3⟩ := hi
    by_cases hia : i < a.length
    · apply ha.noCut i
      refine ⟨?_, by rw [← h2, escapedAt_append_left a b i (by omega)], by rw [← h3, rawLevel_append_left a b i (by omega)]⟩
      rw [List.drop_append_of_le_length (by omega)] at h1
      exact sep_stop hd ha.last _ (List.drop_suffix i a) (by intro h; have := congrArg List.length h; simp at this; omega) h1
    · apply hb.noCut (i - a.length)
      have e : i = a.length + (i - a.length) := by omega
      refine ⟨?_, ?_, ?_⟩
      · rw [List.drop_append, List.drop_eq_nil_of_le (by omega), List.nil_append] at h1; exact h1
      · rw [e, escapedAt_append_right a b hea] at h2; exact h2
      · rw [e, rawLevel_append_right, ha.level] at h3; simpa using h3
  · rw [List.getLast?_append]
    intro h
    rw [Option.or_eq_some_iff] at h
    rcases h with h | ⟨_, h⟩
    · exact hb.last h
    · exact ha.last h

theorem CellText.pieces {t : Str} (h : CellText t) : OnePiece ['&'] t ∧ OnePiece ['\\', '\\'] t :=
  ⟨⟨h.1, h.2.1, h.2.2.2⟩, ⟨h.1, h.2.2.1, h.2.2.2⟩⟩

theorem row_piece : ∀ (ts : List Str), (∀ t ∈ ts, CellText t) → OnePiece ['\\', '\\'] (joinWith ['&'] ts)
  | [], _ => ⟨rfl, by intro i h; have := h.1.length_le; simp [joinWith] at this, by simp [joinWith]⟩
  | [t], h => (CellText.pieces (h t (by simp))).2
  | t :: u :: ts, h => by
    have hamp : OnePiece ['\\', '\\'] ['&'] := by
      refine ⟨rfl, ?_, by simp⟩
      intro i hi
      have := hi.1.length_le
      simp at this; omega
    rw [joinWith]
    exact (((CellText.pieces (h t (by simp))).2.append (.inr rfl) hamp).append (.inr rfl)
      (row_piece (u :: ts) (fun x hx => h x (by simp [hx]))))

/-- Rows and cells of a table written from its cells. -/
theorem split_table (rows : List (List Str)) (hne : rows ≠ []) (h : ∀ r ∈ rows, ∀ t ∈ r, CellText t) :
    splitRows (joinWith ['\\', '\\'] (rows.map (joinWith ['&']))) =
      ((rows.map (joinWith ['&'])).map strip).filter (fun p => !p.isEmpty) := by
  unfold splitRows splitLatexContent
  rw [splitLoop_rows, split_join (.inr rfl) _ (by simpa using hne)]
  intro t ht
  obtain ⟨r, hr, rfl⟩ := List.mem_map.1 ht
  exact row_piece r (h r hr)

theorem split_row (r : List Str) (hne : r ≠ []) (h : ∀ t ∈ r, CellText t) :
    splitLatexContent (strip (joinWith ['&'] r)) ['&'] false = r.map strip := by
  rw [split_strip]
  unfold splitLatexContent
  rw [splitLoop_cells, split_join (.inl rfl) r hne (fun t ht => (CellText.pieces (h t ht)).1)]

end L2J
