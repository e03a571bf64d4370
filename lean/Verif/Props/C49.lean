import Verif.Lemmas.Table
import Verif.Props.C42
import Verif.Props.C33
import Verif.Props.C38
import Verif.Props.C40
import Verif.Spec.Heading
/-! C49: the cells of a table, with the rows and columns they span. -/
namespace L2J.Tab
open L2J Spec

/-! A command with arguments is one cell. -/

/-- Outside braces there is neither a backslash nor a separator. -/
def Calm (t : Str) : Prop := rawLevel t t.length = 0 ∧ ∀ i c, t[i]? = some c → rawLevel t i = 0 → c ≠ '\\' ∧ c ≠ '&'

theorem Calm.append {a b : Str} (ha : Calm a) (hb : Calm b) : Calm (a ++ b) := by
  refine ⟨by rw [List.length_append, rawLevel_append_right, ha.1, hb.1]; rfl, ?_⟩
  intro i c h h0
  by_cases hi : i < a.length
  · rw [List.getElem?_append_left hi] at h
    rw [rawLevel_append_left a b i (by omega)] at h0
    exact ha.2 i c h h0
  · rw [List.getElem?_append_right (by omega)] at h
    have e : i = a.length + (i - a.length) := by omega
    rw [e, rawLevel_append_right, ha.1] at h0
    exact hb.2 _ c h (by simpa using h0)

theorem rawLevel_none (t : Str) (h : '{' ∉ t ∧ '}' ∉ t) : ∀ i, rawLevel t i = 0
  | 0 => rfl
  | i + 1 => by
    have h1 : t[i]? ≠ some '{' := fun e => h.1 (List.mem_of_getElem? e)
    have h2 : t[i]? ≠ some '}' := fun e => h.2 (List.mem_of_getElem? e)
    rw [rawLevel, rawLevel_none t h i, if_neg h1, if_neg h2]; rfl

theorem calm_plain {t : Str} (h : ∀ x ∈ t, x ≠ '{' ∧ x ≠ '}' ∧ x ≠ '&' ∧ x ≠ '\\') : Calm t := by
  refine ⟨rawLevel_none t ⟨fun hx => (h _ hx).1 rfl, fun hx => (h _ hx).2.1 rfl⟩ _, ?_⟩
  intro i c hc _
  have := h c (List.mem_of_getElem? hc)
  exact ⟨this.2.2.2, this.2.2.1⟩

theorem rawLevel_open (t : Str) (i : Nat) : rawLevel ('{' :: t) (i + 1) = 1 + rawLevel t i := by
  have := rawLevel_append_right ['{'] t i
  rw [show ['{'] ++ t = '{' :: t from rfl] at this
  rw [show ['{'].length + i = i + 1 by simp; omega] at this
  rw [this]; rfl

theorem calm_group {t : Str} (h : RawBalanced t) : Calm ('{' :: (t ++ ['}'])) := by
  have lv : ∀ i, i ≤ t.length → rawLevel ('{' :: (t ++ ['}'])) (i + 1) = 1 + rawLevel t i := by
    intro i hi
    rw [rawLevel_open, rawLevel_append_left t _ i hi]
  refine ⟨?_, ?_⟩
  · rw [List.length_cons, rawLevel_open]
    rw [show (t ++ ['}']).length = t.length + 1 by simp, rawLevel_append_right, h.2]; rfl
  · intro i c hc h0
    match i with
    | 0 => simp at hc; subst hc; decide
    | i + 1 =>
      by_cases hi : i ≤ t.length
      · rw [lv i hi] at h0
        have := h.1 i
        omega
      · rw [List.getElem?_eq_none (by simp; omega)] at hc; cases hc

theorem cellText_iff {t : Str} : CellText t ↔ OnePiece ['&'] t ∧ OnePiece ['\\', '\\'] t :=
  ⟨CellText.pieces, fun ⟨a, b⟩ => ⟨a.level, a.noCut, b.noCut, a.last⟩⟩

theorem cellText_append {a b : Str} (ha : CellText a) (hb : CellText b) : CellText (a ++ b) := by
  rw [cellText_iff] at *
  exact ⟨ha.1.append (.inl rfl) hb.1, ha.2.append (.inr rfl) hb.2⟩

theorem prefix_get {d t : Str} {i : Nat} {c : Char} {d' : Str} (hd : d = c :: d') (h : d <+: t.drop i) : t[i]? = some c := by
  obtain ⟨u, hu⟩ := h
  have : (t.drop i)[0]? = some c := by rw [← hu, hd]; rfl
  simpa [List.getElem?_drop] using this

theorem cellText_calm {t : Str} (h : Calm t) (hl : t.getLast? ≠ some '\\') : CellText t :=
  ⟨h.1, fun i hi => (h.2 i '&' (prefix_get rfl hi.1) hi.2.2).2 rfl, fun i hi => (h.2 i '\\' (prefix_get rfl hi.1) hi.2.2).1 rfl, hl⟩

theorem cellText_blank {ws : Str} (h : ∀ x ∈ ws, isSpace x = true) : CellText ws :=
  cellText_calm (calm_plain fun x hx => space_char (h x hx)) (by
    intro hl
    have := h _ (List.mem_of_getLast? hl)
    revert this; decide)

theorem cellText_command {x : Str} (h : Calm x) (hl : x.getLast? = some '}') : CellText ('\\' :: x) := by
  have lv : ∀ i, rawLevel ('\\' :: x) (i + 1) = rawLevel x i := by
    intro i
    have := rawLevel_append_right ['\\'] x i
    rw [show ['\\'] ++ x = '\\' :: x from rfl, show ['\\'].length + i = i + 1 by simp; omega] at this
    rw [this]; simp [rawLevel]
  refine ⟨by rw [List.length_cons, lv, h.1], ?_, ?_, ?_⟩
  · intro i hi
    match i with
    | 0 => have := prefix_get rfl hi.1; simp at this
    | i + 1 =>
      have := prefix_get rfl hi.1
      rw [List.getElem?_cons_succ] at this
      exact (h.2 i _ this (by rw [← lv]; exact hi.2.2)).2 rfl
  · intro i hi
    match i with
    | 0 =>
      obtain ⟨u, hu⟩ := hi.1
      simp at hu
      have : x[0]? = some '\\' := by rw [← hu]; rfl
      exact (h.2 0 _ this rfl).1 rfl
    | i + 1 =>
      have := prefix_get rfl hi.1
      rw [List.getElem?_cons_succ] at this
      exact (h.2 i _ this (by rw [← lv]; exact hi.2.2)).1 rfl
  · rw [List.getLast?_cons, hl]; simp

theorem digit_char {x : Char} (h : isDigit x = true) : x ≠ '{' ∧ x ≠ '}' ∧ x ≠ '&' ∧ x ≠ '\\' := by
  refine ⟨?_, ?_, ?_, ?_⟩ <;> (rintro rfl; revert h; decide)

/-- Everything of the command behind the backslash. -/
theorem span_calm {name : Str} (hn : ∀ x ∈ name, x ≠ '{' ∧ x ≠ '}' ∧ x ≠ '&' ∧ x ≠ '\\') {s : Span} (hs : s.Ok) {body : Str} (hb : RawBalanced body) :
    Calm (s.write name body) ∧ (s.write name body).getLast? = some '}' := by
  obtain ⟨h1, h2, h3, _, h5, _, h7⟩ := hs
  have num : RawBalanced s.num := by
    have := rawLevel_none s.num ⟨fun hx => (digit_char (h5 _ hx)).1 rfl, fun hx => (digit_char (h5 _ hx)).2.1 rfl⟩
    exact ⟨fun i => by rw [this i]; exact Int.le_refl _, this _⟩
  have e : s.write name body = name ++ (s.w1 ++ (('{' :: (s.num ++ ['}'])) ++ (s.w2 ++ (('{' :: (s.spec ++ ['}'])) ++ (s.w3 ++ ('{' :: (body ++ ['}']))))))) := by
    simp [Span.write]
  rw [e]
  have ws : ∀ w : Str, (∀ x ∈ w, isSpace x = true) → Calm w := fun w hw => calm_plain fun x hx => space_char (hw x hx)
  refine ⟨(calm_plain hn).append ((ws _ h1).append ((calm_group num).append ((ws _ h2).append ((calm_group h7).append ((ws _ h3).append
    (calm_group hb)))))), ?_⟩
  rw [← e]
  have : s.write name body = (name ++ (s.w1 ++ '{' :: (s.num ++ '}' :: (s.w2 ++ '{' :: (s.spec ++ '}' :: (s.w3 ++ '{' :: body)))))) ++ ['}'] := by
    simp [Span.write]
  rw [this, List.getLast?_append]; rfl

theorem span_cons (c : Char) (name : Str) (s : Span) (body : Str) : s.write (c :: name) body = c :: s.write name body := rfl

theorem mcol_chars : ∀ x ∈ "multicolumn".toList, x ≠ '{' ∧ x ≠ '}' ∧ x ≠ '&' ∧ x ≠ '\\' := by decide
theorem mrow_chars : ∀ x ∈ "multirow".toList, x ≠ '{' ∧ x ≠ '}' ∧ x ≠ '&' ∧ x ≠ '\\' := by decide
theorem mcol_eq : "\\multicolumn".toList = '\\' :: "multicolumn".toList := rfl
theorem mrow_eq : "\\multirow".toList = '\\' :: "multirow".toList := rfl

theorem span_cell {name : Str} (hn : ∀ x ∈ name, x ≠ '{' ∧ x ≠ '}' ∧ x ≠ '&' ∧ x ≠ '\\') {s : Span} (hs : s.Ok) {body : Str} (hb : RawBalanced body) :
    CellText (s.write ('\\' :: name) body) := by
  rw [span_cons]
  have := span_calm hn hs hb
  exact cellText_command this.1 this.2

theorem calm_raw {t : Str} (h : ∀ i, 0 ≤ rawLevel t i) (h0 : rawLevel t t.length = 0) : RawBalanced t := ⟨h, h0⟩

theorem raw_append {a b : Str} (ha : RawBalanced a) (hb : RawBalanced b) : RawBalanced (a ++ b) := by
  refine ⟨?_, by rw [List.length_append, rawLevel_append_right, ha.2, hb.2]; rfl⟩
  intro i
  by_cases hi : i ≤ a.length
  · rw [rawLevel_append_left a b i hi]; exact ha.1 i
  · have e : i = a.length + (i - a.length) := by omega
    rw [e, rawLevel_append_right, ha.2, Int.zero_add]; exact hb.1 _

theorem raw_plain {t : Str} (h : '{' ∉ t ∧ '}' ∉ t) : RawBalanced t :=
  ⟨fun i => by rw [rawLevel_none t h]; exact Int.le_refl _, rawLevel_none t h _⟩

theorem rawLevel_past (t : Str) : ∀ k, rawLevel t (t.length + k) = rawLevel t t.length
  | 0 => rfl
  | k + 1 => by
    rw [← Nat.add_assoc, rawLevel, rawLevel_past t k, List.getElem?_eq_none (by omega)]; simp

theorem raw_group {t : Str} (h : RawBalanced t) : RawBalanced ('{' :: (t ++ ['}'])) := by
  have hc := (calm_group h).1
  refine ⟨?_, hc⟩
  intro i
  match i with
  | 0 => exact Int.le_refl _
  | i + 1 =>
    by_cases hi : i ≤ t.length
    · rw [rawLevel_open, rawLevel_append_left t _ i hi]
      have := h.1 i; omega
    · have e : i + 1 = ('{' :: (t ++ ['}'])).length + (i + 1 - ('{' :: (t ++ ['}'])).length) := by simp; omega
      rw [e, rawLevel_past, hc]; exact Int.le_refl _

theorem span_raw {name : Str} (hn : '{' ∉ name ∧ '}' ∉ name) {s : Span} (hs : s.Ok) {body : Str} (hb : RawBalanced body) :
    RawBalanced (s.write name body) := by
  obtain ⟨h1, h2, h3, _, h5, _, h7⟩ := hs
  have e : s.write name body = name ++ (s.w1 ++ (('{' :: (s.num ++ ['}'])) ++ (s.w2 ++ (('{' :: (s.spec ++ ['}'])) ++ (s.w3 ++ ('{' :: (body ++ ['}']))))))) := by
    simp [Span.write]
  rw [e]
  have ws : ∀ w : Str, (∀ x ∈ w, isSpace x = true) → RawBalanced w := fun w hw =>
    raw_plain ⟨fun hx => (space_char (hw _ hx)).1 rfl, fun hx => (space_char (hw _ hx)).2.1 rfl⟩
  exact raw_append (raw_plain hn) (raw_append (ws _ h1) (raw_append
    (raw_group (raw_plain ⟨fun hx => (digit_char (h5 _ hx)).1 rfl, fun hx => (digit_char (h5 _ hx)).2.1 rfl⟩))
    (raw_append (ws _ h2) (raw_append (raw_group h7) (raw_append (ws _ h3) (raw_group hb))))))

/-- Every cell of the specification is one cell. -/
theorem src_cell {c : Src} (h : c.Ok) : CellText c.write := by
  cases c with
  | text t => exact h.1
  | cols s b => exact span_cell mcol_chars h.1 h.2.2.1
  | rows s b => exact span_cell mrow_chars h.1 h.2.2.1
  | both s l s' b r =>
    obtain ⟨h1, h2, hl, hr, _, hb, _⟩ := h
    have ws : ∀ w : Str, (∀ x ∈ w, isSpace x = true) → RawBalanced w := fun w hw =>
      raw_plain ⟨fun hx => (space_char (hw _ hx)).1 rfl, fun hx => (space_char (hw _ hx)).2.1 rfl⟩
    exact span_cell mcol_chars h1 (raw_append (ws l hl) (raw_append (span_raw (by decide) h2 hb) (ws r hr)))

theorem cell_text {c : Cell} (h : c.Ok) : CellText c.write :=
  cellText_append (cellText_blank h.1) (cellText_append (src_cell h.2.2) (cellText_blank h.2.1))

/-! The patterns. -/

theorem spacesBrace_at (ws r : Str) (hws : ∀ x ∈ ws, isSpace x = true) : spacesBrace (ws ++ '{' :: r) = some (ws.length + 1) :=
  spacesBrace_hit ws r hws

theorem matchSpan_hit (name : Str) {s : Span} (hs : s.Ok) (body post : Str) :
    matchSpan name (s.write name body ++ post) =
      some (s.num, name.length + (s.w1.length + 1) + s.num.length + 1 + (s.w2.length + 1)) := by
  obtain ⟨h1, h2, _, h4, h5, _, _⟩ := hs
  have e : s.write name body ++ post = name ++ (s.w1 ++ '{' :: (s.num ++ '}' :: (s.w2 ++ '{' :: (s.spec ++ '}' :: (s.w3 ++ '{' :: (body ++ '}' :: post)))))) := by
    simp [Span.write]
  rw [e]
  generalize s.spec ++ '}' :: (s.w3 ++ '{' :: (body ++ '}' :: post)) = z
  have hp : startsWith (name ++ (s.w1 ++ '{' :: (s.num ++ '}' :: (s.w2 ++ '{' :: z)))) name = true := by
    unfold startsWith; rw [List.isPrefixOf_iff_prefix]; exact List.prefix_append _ _
  have hd : (s.w1 ++ '{' :: (s.num ++ '}' :: (s.w2 ++ '{' :: z))).drop (s.w1.length + 1) = s.num ++ '}' :: (s.w2 ++ '{' :: z) := by
    rw [← List.drop_drop, List.drop_left]; rfl
  have ht : (s.num ++ '}' :: (s.w2 ++ '{' :: z)).takeWhile isDigit = s.num := by
    rw [List.takeWhile_append_of_pos h5]
    simp [show isDigit '}' = false by decide]
  have hd2 : (s.w1 ++ '{' :: (s.num ++ '}' :: (s.w2 ++ '{' :: z))).drop (s.w1.length + 1 + s.num.length) = '}' :: (s.w2 ++ '{' :: z) := by
    rw [← List.drop_drop, hd, List.drop_left]
  unfold matchSpan
  rw [if_pos hp]
  simp only [List.drop_left, spacesBrace_hit s.w1 _ h1, hd, ht, List.isEmpty_iff, h4, if_false, hd2, spacesBrace_hit s.w2 _ h2, Option.map_some]

theorem matchSpan_name {name t : Str} {x : Str × Nat} (h : matchSpan name t = some x) : name <+: t := by
  unfold matchSpan at h
  split at h
  · rename_i hp; unfold startsWith at hp; rwa [List.isPrefixOf_iff_prefix] at hp
  · cases h

theorem searchWith_none {m : Str → Option Nat} : ∀ (t : Str), (∀ k, m (t.drop k) = none) → searchWith m t = none
  | [], h => by have := h 0; simp at this; simp [searchWith, this]
  | c :: t, h => by
    have h0 := h 0
    rw [List.drop_zero] at h0
    rw [searchWith, h0]
    simp only
    rw [searchWith_none t (fun k => by have := h (k + 1); simpa using this)]
    rfl

theorem contains_of_drop {t n : Str} {k : Nat} (h : n <+: t.drop k) : Contains t n := by
  obtain ⟨u, hu⟩ := h
  exact ⟨t.take k, u, by rw [List.append_assoc, hu, List.take_append_drop]⟩

theorem searchSpan_none {name t : Str} (h : ¬ Contains t name) : searchSpan name t = none := by
  unfold searchSpan
  rw [searchWith_none t]
  intro k
  cases hm : matchSpan name (t.drop k) with
  | none => rfl
  | some x => exact absurd (contains_of_drop (matchSpan_name hm)) h

theorem matchMakecell_name {t : Str} {x : Nat} (h : matchMakecell t = some x) : "\\makecell".toList <+: t ∨ "\\shortstack".toList <+: t := by
  unfold matchMakecell at h
  simp only [Option.or_eq_some_iff] at h
  rcases h with h | ⟨_, h⟩
  · left
    split at h
    · rename_i hp; unfold startsWith at hp; rwa [List.isPrefixOf_iff_prefix] at hp
    · cases h
  · right
    split at h
    · rename_i hp; unfold startsWith at hp; rwa [List.isPrefixOf_iff_prefix] at hp
    · cases h

theorem makecell_none {t : Str} (h1 : ¬ Contains t "\\makecell".toList) (h2 : ¬ Contains t "\\shortstack".toList) :
    searchWith matchMakecell t = none := by
  apply searchWith_none
  intro k
  cases hm : matchMakecell (t.drop k) with
  | none => rfl
  | some x =>
    rcases matchMakecell_name hm with h | h
    · exact absurd (contains_of_drop h) h1
    · exact absurd (contains_of_drop h) h2

/-- A command found behind a text without backslashes. -/
theorem searchSpan_hit {name' : Str} {s : Span} (hs : s.Ok) (pre body post : Str) (hpre : '\\' ∉ pre) :
    searchSpan ('\\' :: name') (pre ++ (s.write ('\\' :: name') body ++ post)) =
      some (s.num, pre.length, pre.length + (('\\' :: name').length + (s.w1.length + 1) + s.num.length + 1 + (s.w2.length + 1))) := by
  have hm := matchSpan_hit ('\\' :: name') hs body post
  unfold searchSpan
  rw [searchWith_skip pre (s.write ('\\' :: name') body ++ post)
    (('\\' :: name').length + (s.w1.length + 1) + s.num.length + 1 + (s.w2.length + 1))]
  · simp only [List.drop_left, hm, Option.map_some]
  · intro x hx t
    cases hq : matchSpan ('\\' :: name') (x :: t) with
    | none => rfl
    | some y =>
      have := matchSpan_name hq
      rw [List.cons_prefix_cons] at this
      exact absurd (this.1 ▸ hx) hpre
  · rw [hm]; rfl
  · simp [Span.write]

/-- **The content and the number of a span command**; whatever stands before it (without a backslash) or behind it is dropped. -/
theorem takeSpan_hit {name' : Str} {s : Span} (hs : s.Ok) (pre body post : Str) (hpre : '\\' ∉ pre) (hb : Wrappable '{' '}' body) :
    takeSpan ('\\' :: name') (pre ++ (s.write ('\\' :: name') body ++ post)) = (strip body, digitsVal s.num) := by
  unfold takeSpan
  rw [searchSpan_hit hs pre body post hpre]
  simp only
  have e1 : pre ++ (s.write ('\\' :: name') body ++ post) = (pre ++ (('\\' :: name') ++ (s.w1 ++ '{' :: (s.num ++ '}' :: s.w2)))) ++
      (wrapAll '{' '}' [([], s.spec), (s.w3, body)] ++ post) := by
    simp [Span.write, wrapAll]
  have e2 : pre.length + (('\\' :: name').length + (s.w1.length + 1) + s.num.length + 1 + (s.w2.length + 1)) - 1 =
      (pre ++ (('\\' :: name') ++ (s.w1 ++ '{' :: (s.num ++ '}' :: s.w2)))).length := by
    simp; omega
  rw [e1, e2, List.drop_left]
  have hw : WellWrapped '{' '}' [([], s.spec), (s.w3, body)] := by
    intro e he
    simp at he
    rcases he with rfl | rfl
    · exact ⟨by simp, hs.2.2.2.2.2.1⟩
    · exact ⟨hs.2.2.1, hb⟩
  have := seqBlocks_wrap '{' '}' (by decide) (by decide) (by decide) [([], s.spec), (s.w3, body)] post hw
  rw [show [([], s.spec), (s.w3, body)].length = 2 from rfl] at this
  rw [this]
  simp

theorem takeSpan_none {name t : Str} (h : ¬ Contains t name) : takeSpan name t = (t, 1) := by
  unfold takeSpan; rw [searchSpan_none h]

/-! Commands inside commands. -/

theorem contains_cons_bs {x kw : Str} (hx : '\\' ∉ x) (h : Contains ('\\' :: x) ('\\' :: kw)) : kw <+: x := by
  obtain ⟨a, b, e⟩ := h
  cases a with
  | nil => simp at e; exact ⟨b, e.symm⟩
  | cons c a => simp at e; exact absurd (by rw [e.2]; simp) hx

theorem contains_nobs {x kw : Str} (hx : '\\' ∉ x) : ¬ Contains x ('\\' :: kw) := by
  rintro ⟨a, b, e⟩; exact hx (by rw [e]; simp)

/-- A command can occur in a span only at its name, in the second argument and in its content. -/
theorem contains_span {kw name : Str} (hk : '{' ∉ kw ∧ '}' ∉ kw ∧ ∀ x ∈ kw, isSpace x = false) (hn : '\\' ∉ name) {s : Span} (hs : s.Ok) {body : Str}
    (h : Contains (s.write ('\\' :: name) body) ('\\' :: kw)) :
    kw <+: name ∨ Contains s.spec ('\\' :: kw) ∨ Contains body ('\\' :: kw) := by
  obtain ⟨h1, h2, h3, _, h5, _, _⟩ := hs
  have ko : '{' ∉ '\\' :: kw := by simp [hk.1]
  have kc : '}' ∉ '\\' :: kw := by simp [hk.2.1]
  have nb : ∀ w : Str, (∀ x ∈ w, isSpace x = true) → '\\' ∉ w := fun w hw hx => (space_char (hw _ hx)).2.2.2 rfl
  have e : s.write ('\\' :: name) body = ('\\' :: (name ++ s.w1)) ++ '{' :: (s.num ++ '}' :: (s.w2 ++ '{' :: (s.spec ++ '}' :: (s.w3 ++ '{' :: (body ++ ['}']))))) := by
    simp [Span.write]
  rw [e] at h
  rcases contains_split ko h with h | h
  · left
    have := contains_cons_bs (by intro hx; rcases List.mem_append.1 hx with hx | hx; exact hn hx; exact nb _ h1 hx) h
    exact prefix_blanks hk.2.2 h1 this
  · rcases contains_split kc h with h | h
    · exact absurd h (contains_nobs fun hx => (digit_char (h5 _ hx)).2.2.2 rfl)
    · rcases contains_split ko h with h | h
      · exact absurd h (contains_nobs (nb _ h2))
      · rcases contains_split kc h with h | h
        · exact .inr (.inl h)
        · rcases contains_split ko h with h | h
          · exact absurd h (contains_nobs (nb _ h3))
          · rcases contains_split kc h with h | h
            · exact .inr (.inr h)
            · exact absurd h (contains_nobs (by simp))

theorem span_makecell {name : Str} (hn : '\\' ∉ name) (h1 : ¬ "makecell".toList <+: name) (h2 : ¬ "shortstack".toList <+: name) {s : Span}
    (hs : s.Ok) {body : Str} (hq : Quiet s.spec)
    (hb : ¬ Contains body "\\makecell".toList ∧ ¬ Contains body "\\shortstack".toList) :
    ¬ Contains (s.write ('\\' :: name) body) "\\makecell".toList ∧ ¬ Contains (s.write ('\\' :: name) body) "\\shortstack".toList := by
  constructor
  · intro h
    rcases contains_span (kw := "makecell".toList) (by decide) hn hs h with h | h | h
    · exact h1 h
    · exact hq.2.2.1 h
    · exact hb.1 h
  · intro h
    rcases contains_span (kw := "shortstack".toList) (by decide) hn hs h with h | h | h
    · exact h2 h
    · exact hq.2.2.2 h
    · exact hb.2 h

theorem contains_around {l x r kw : Str} (hl : ∀ y ∈ l, isSpace y = true) (hr : ∀ y ∈ r, isSpace y = true) (hk : ∀ y ∈ kw, isSpace y = false)
    (hk0 : kw ≠ []) (h : Contains (l ++ (x ++ r)) kw) : Contains x kw := by
  induction l with
  | nil =>
    rw [List.nil_append] at h
    obtain ⟨a, b, e⟩ := h
    rw [List.append_assoc] at e
    rcases List.append_eq_append_iff.1 e with ⟨u, k1, k2⟩ | ⟨u, k1, k2⟩
    · cases kw with
      | nil => exact absurd rfl hk0
      | cons c kw =>
        have h1 := hk c (by simp)
        have h2 := hr c (by rw [k2]; simp)
        rw [h1] at h2; cases h2
    · have := prefix_blanks (d := kw) (q := u) hk hr ⟨b, k2⟩
      obtain ⟨v, hv⟩ := this
      exact ⟨a, v, by rw [k1, ← hv]; simp⟩
  | cons c l ih =>
    have hc : c ∉ kw := fun hx => by
      have h1 := hk c hx
      rw [hl c (by simp)] at h1; cases h1
    rcases contains_split (a := []) hc (by simpa using h) with h | h
    · obtain ⟨a, b, e⟩ := h
      have := congrArg List.length e
      simp at this
      exact absurd (List.length_eq_zero_iff.1 (by omega)) hk0
    · exact ih (fun y hy => hl y (by simp [hy])) h

theorem src_makecell {c : Src} (h : c.Ok) : ¬ Contains c.write "\\makecell".toList ∧ ¬ Contains c.write "\\shortstack".toList := by
  cases c with
  | text t => exact h.2.2.2
  | cols s b => exact span_makecell (name := "multicolumn".toList) (by decide) (by decide) (by decide) h.1 h.2.2.2.1 h.2.2.2.2.2.2
  | rows s b => exact span_makecell (name := "multirow".toList) (by decide) (by decide) (by decide) h.1 h.2.2.2.1 h.2.2.2.2.2.2
  | both s l s' b r =>
    obtain ⟨h1, h2, hl, hr, _, _, q1, q2, q3⟩ := h
    have inner := span_makecell (name := "multirow".toList) (by decide) (by decide) (by decide) h2 q2 q3.2.2
    refine span_makecell (name := "multicolumn".toList) (by decide) (by decide) (by decide) h1 q1 ⟨fun hc => ?_, fun hc => ?_⟩
    · exact inner.1 (contains_around hl hr (by decide) (by decide) hc)
    · exact inner.2 (contains_around hl hr (by decide) (by decide) hc)

theorem contains_strip {t kw : Str} (h : Contains (strip t) kw) : Contains t kw := by
  obtain ⟨a, b, e, _, _⟩ := Content.strip_split t
  rw [e]; exact contains_mono h

theorem strip_ends_eq {t : Str} {c d : Char} (hc : isSpace c = false) (hd : isSpace d = false) (h1 : t.head? = some c) (h2 : t.getLast? = some d) :
    strip t = t := by
  have hl : lstrip t = t := by
    cases t with
    | nil => rfl
    | cons x t => simp at h1; subst h1; simp [lstrip, hc]
  unfold strip
  rw [hl]
  rcases List.eq_nil_or_concat t with rfl | ⟨p, x, rfl⟩
  · rfl
  · simp at h2; subst h2; simp [rstrip, hd]

theorem span_strip {name : Str} {s : Span} (body : Str) :
    strip (s.write ('\\' :: name) body) = s.write ('\\' :: name) body := by
  have e : s.write ('\\' :: name) body = ('\\' :: (name ++ (s.w1 ++ '{' :: (s.num ++ '}' :: (s.w2 ++ '{' :: (s.spec ++ '}' :: (s.w3 ++ '{' :: body))))))) ++ ['}'] := by
    simp [Span.write]
  refine strip_ends_eq (c := '\\') (d := '}') (by decide) (by decide) ?_ ?_
  · rw [e]; rfl
  · rw [e, List.getLast?_append]; rfl

theorem strip_cell {c : Cell} (h : c.Ok) : strip c.write = strip c.src.write := by
  unfold Cell.write
  rw [Content.strip_left h.1, Content.strip_right h.2.1]

theorem wrappable_append {a b : Str} (ha : Wrappable '{' '}' a) (hb : Wrappable '{' '}' b) : Wrappable '{' '}' (a ++ b) := by
  refine ⟨⟨?_, ?_⟩, ?_⟩
  · intro j hj
    by_cases h : j ≤ a.length
    · rw [level_append_left a b _ _ j h]; exact ha.1.1 j h
    · have e : j = a.length + (j - a.length) := by omega
      rw [e, level_append_right a b _ _ ha.2, ha.1.2, Int.zero_add]
      exact hb.1.1 _ (by rw [List.length_append] at hj; omega)
  · rw [List.length_append, level_append_right a b _ _ ha.2, ha.1.2, hb.1.2]; rfl
  · rw [List.length_append, escapedAt_append_right a b ha.2, hb.2]

theorem wrappable_group {a : Str} (ha : Wrappable '{' '}' a) : Wrappable '{' '}' ('{' :: (a ++ ['}'])) := by
  have e0 : escapedAt ['{'] ['{'].length = false := by decide
  have h1 : level ['{'] '{' '}' ['{'].length = 1 := by decide
  have lv : ∀ j, level ('{' :: (a ++ ['}'])) '{' '}' (1 + j) = 1 + level (a ++ ['}']) '{' '}' j := by
    intro j
    have := level_append_right ['{'] (a ++ ['}']) '{' '}' e0 j
    rw [h1] at this; exact this
  have hend : level (a ++ ['}']) '{' '}' (a.length + 1) = -1 := by
    rw [level_append_right a ['}'] _ _ ha.2, ha.1.2]; decide
  refine ⟨⟨?_, ?_⟩, ?_⟩
  · intro j hj
    match j with
    | 0 => exact Int.le_refl _
    | j + 1 =>
      rw [Nat.add_comm, lv]
      by_cases h : j ≤ a.length
      · rw [level_append_left a _ _ _ j h]
        have := ha.1.1 j h; omega
      · have : j = a.length + 1 := by simp at hj; omega
        rw [this, hend]; decide
  · rw [show ('{' :: (a ++ ['}'])).length = 1 + (a.length + 1) by simp; omega, lv, hend]; rfl
  · have := escapedAt_append_right ['{'] (a ++ ['}']) e0 (a.length + 1)
    rw [show ['{'].length + (a.length + 1) = ('{' :: (a ++ ['}'])).length by simp; omega] at this
    rw [show ['{'] ++ (a ++ ['}']) = '{' :: (a ++ ['}']) from rfl] at this
    rw [this, escapedAt_append_right a ['}'] ha.2]; decide

theorem wrappable_space {w : Str} (h : ∀ x ∈ w, isSpace x = true) : Wrappable '{' '}' w :=
  Etool.wrappable_plain w fun x hx => ⟨(space_char (h x hx)).1, (space_char (h x hx)).2.1, (space_char (h x hx)).2.2.2⟩

theorem wrappable_span {s : Span} {b : Str} (hs : s.Ok) (hb : Wrappable '{' '}' b) (name : Str) (hn : Wrappable '{' '}' name) :
    Wrappable '{' '}' (s.write name b) := by
  obtain ⟨h1, h2, h3, _, h5, h6, _⟩ := hs
  have e : s.write name b = name ++ (s.w1 ++ (('{' :: (s.num ++ ['}'])) ++ (s.w2 ++ (('{' :: (s.spec ++ ['}'])) ++ (s.w3 ++ ('{' :: (b ++ ['}']))))))) := by
    simp [Span.write]
  rw [e]
  have num : Wrappable '{' '}' s.num := Etool.wrappable_plain _ fun x hx =>
    ⟨(digit_char (h5 x hx)).1, (digit_char (h5 x hx)).2.1, (digit_char (h5 x hx)).2.2.2⟩
  exact wrappable_append hn (wrappable_append (wrappable_space h1) (wrappable_append (wrappable_group num) (wrappable_append (wrappable_space h2)
    (wrappable_append (wrappable_group h6) (wrappable_append (wrappable_space h3) (wrappable_group hb))))))

theorem wrappable_body {s' : Span} {l b r : Str} (hs : s'.Ok) (hl : ∀ x ∈ l, isSpace x = true) (hr : ∀ x ∈ r, isSpace x = true)
    (hb : Wrappable '{' '}' b) : Wrappable '{' '}' (l ++ (s'.write "\\multirow".toList b ++ r)) :=
  wrappable_append (wrappable_space hl) (wrappable_append (wrappable_span hs hb _
    (Boxes.wrappable_nobrace _ (by decide) (by decide))) (wrappable_space hr))

theorem parseCell_of {α} (f : Str → α) {cell x y : Str} {c r : Nat} (h1 : takeSpan mcol cell = (x, c)) (h2 : takeSpan mrow x = (y, r)) :
    parseCell f cell = if r ≤ 1 ∧ c ≤ 1 then .plain (f y) else .span (f y) r c := by
  unfold parseCell
  simp only [h1, h2]
  by_cases h : 1 < r ∨ 1 < c
  · rw [if_pos h, if_neg (by omega)]
  · rw [if_neg h, if_pos (by omega)]

/-- One cell. -/
theorem parse_src {α} (f : Str → α) {c : Src} (h : c.Ok) : parseCell f (strip c.write) = c.meaning f := by
  cases c with
  | text t =>
    have q := h.2
    exact parseCell_of f (takeSpan_none (fun hc => q.1 (contains_strip hc))) (takeSpan_none (fun hc => q.2.1 (contains_strip hc)))
  | cols s b =>
    obtain ⟨hs, hb, _, _, q⟩ := h
    have hc := takeSpan_hit (name' := "multicolumn".toList) hs [] b [] (by simp) hb
    rw [List.nil_append, List.append_nil, ← span_strip b] at hc
    exact parseCell_of f hc (takeSpan_none (fun hx => q.2.1 (contains_strip hx)))
  | rows s b =>
    obtain ⟨hs, hb, _, qs, q⟩ := h
    have hc := takeSpan_hit (name' := "multirow".toList) hs [] b [] (by simp) hb
    rw [List.nil_append, List.append_nil, ← span_strip b] at hc
    have hno : ¬ Contains (s.write ('\\' :: "multirow".toList) b) "\\multicolumn".toList := by
      intro hx
      rcases contains_span (kw := "multicolumn".toList) (by decide) (by decide) hs hx with hx | hx | hx
      · revert hx; decide
      · exact qs.1 hx
      · exact q.1 hx
    exact parseCell_of f (takeSpan_none (fun hx => hno (contains_strip hx))) hc
  | both s l s' b r =>
    obtain ⟨hs, hs', hl, hr, hb, _, _, _, q⟩ := h
    have hc := takeSpan_hit (name' := "multicolumn".toList) hs [] (l ++ (s'.write "\\multirow".toList b ++ r)) [] (by simp)
      (wrappable_body hs' hl hr hb)
    rw [List.nil_append, List.append_nil, ← span_strip _, Content.strip_left hl, Content.strip_right hr, mrow_eq, span_strip b] at hc
    have hd := takeSpan_hit (name' := "multirow".toList) hs' [] b [] (by simp) hb
    rw [List.nil_append, List.append_nil] at hd
    exact parseCell_of f hc hd

theorem splitCells_row (r : List Cell) (hne : r ≠ []) (h : ∀ c ∈ r, c.Ok) :
    splitCells (strip (joinWith ['&'] (r.map Cell.write))) = r.map fun c => some (strip c.src.write) := by
  have hs := split_row (r.map Cell.write) (by simpa using hne) (by
    intro t ht
    obtain ⟨c, hc, rfl⟩ := List.mem_map.1 ht
    exact cell_text (h c hc))
  rw [C22_split_cells, hs, List.map_map, List.map_map]
  · apply List.map_congr_left
    intro c hc
    simp [strip_cell (h c hc)]
  · rw [hs]
    intro t ht
    rw [List.map_map] at ht
    obtain ⟨c, hc, rfl⟩ := List.mem_map.1 ht
    simp only [Function.comp]
    rw [strip_cell (h c hc)]
    have := src_makecell (h c hc).2.2
    exact makecell_none (fun hx => this.1 (contains_strip hx)) (fun hx => this.2 (contains_strip hx))

theorem parseCells_map {α} (f : Str → α) : ∀ (r : List Cell), (∀ c ∈ r, c.Ok) →
    parseCells f (r.map fun c => some (strip c.src.write)) = some (r.map fun c => c.src.meaning f)
  | [], _ => rfl
  | c :: r, h => by
    rw [List.map_cons, parseCells, parseCells_map f r (fun x hx => h x (by simp [hx])), parse_src f (h c (by simp)).2.2]
    rfl

theorem blank_iff (t : Str) : (strip t).isEmpty = t.all isSpace := by
  obtain ⟨a, b, e, ha, hb⟩ := Content.strip_split t
  rw [Bool.eq_iff_iff, List.isEmpty_iff, List.all_eq_true]
  constructor
  · intro h
    rw [h] at e
    intro x hx
    rw [e] at hx
    simp at hx
    rcases hx with hx | hx
    · exact ha x hx
    · exact hb x hx
  · intro h
    have := Content.strip_left h []
    rw [List.append_nil] at this
    rw [this]; decide

theorem parseRows_map {α} (f : Str → α) : ∀ (rows : List (List Cell)), (∀ r ∈ rows, r ≠ [] ∧ ∀ c ∈ r, c.Ok) →
    parseRows f (((rows.map fun r => joinWith ['&'] (r.map Cell.write)).map strip).filter (fun p => !p.isEmpty)) =
      some ((rows.filter fun r => !blankRow r).map fun r => r.map fun c => c.src.meaning f)
  | [], _ => rfl
  | r :: rows, h => by
    have ih := parseRows_map f rows (fun x hx => h x (by simp [hx]))
    simp only [List.map_cons, List.filter_cons, blank_iff]
    unfold blankRow at *
    by_cases hb : (joinWith ['&'] (r.map Cell.write)).all isSpace = true
    · simp only [hb, Bool.not_true, Bool.false_eq_true, if_false]
      simpa only [blank_iff] using ih
    · simp only [hb, Bool.not_false, if_true]
      rw [parseRows, strip_strip, splitCells_row r (h r (by simp)).1 (h r (by simp)).2, parseCells_map f r (h r (by simp)).2]
      simp only [Option.bind_some]
      rw [ih]
      rfl

theorem trim_eq {α} (t : PCell α → Bool) (rows : List (List (PCell α))) : trimRows t rows = dropEnds (fun c => !t c) rows := by
  have h0 : ∀ r : List (PCell α), r.all (fun c => !t c) = !r.any t := by
    intro r; induction r with
    | nil => rfl
    | cons c r ih => simp [ih]
  have h1 : trimFirst t rows = dropFirst (fun c => !t c) rows := by
    cases rows with
    | nil => rfl
    | cons r rs => simp only [trimFirst, dropFirst, h0]; cases r.any t <;> simp
  unfold trimRows dropEnds
  rw [h1]
  generalize dropFirst (fun c => !t c) rows = l
  unfold trimLast
  rcases List.eq_nil_or_concat l with rfl | ⟨p, x, rfl⟩
  · rfl
  · simp only [List.concat_eq_append, List.getLast?_append, List.getLast?_singleton, Option.some_or, List.reverse_append, List.reverse_cons,
      List.reverse_nil, List.nil_append, List.singleton_append, dropFirst, h0, List.dropLast_concat]
    cases x.any t <;> simp

/-- **C49**: a table written as rows of cells is read as exactly those rows and cells, in order, each with its content and its spans.
Rows of nothing but blanks vanish, and so do a first and a last row whose cells are all empty. -/
theorem C49_table {α} (f : Str → α) (truthy : α → Bool) (rows : List (List Cell)) (hne : rows ≠ [])
    (h : ∀ r ∈ rows, r ≠ [] ∧ ∀ c ∈ r, c.Ok) :
    parseTabular f truthy (tableText rows) =
      some (dropEnds (fun c => !PCell.truthy truthy c) ((rows.filter fun r => !blankRow r).map fun r => r.map fun c => c.src.meaning f)) := by
  unfold parseTabular tableText
  have hs := split_table (rows.map fun r => r.map Cell.write) (by simpa using hne) (by
    intro r hr t ht
    obtain ⟨r', hr', rfl⟩ := List.mem_map.1 hr
    obtain ⟨c, hc, rfl⟩ := List.mem_map.1 ht
    exact cell_text ((h r' hr').2 c hc))
  rw [List.map_map] at hs
  rw [show (rows.map fun r => joinWith ['&'] (r.map Cell.write)) = rows.map (joinWith ['&'] ∘ fun r => r.map Cell.write) from rfl, hs]
  have := parseRows_map f rows h
  rw [show (rows.map fun r => joinWith ['&'] (r.map Cell.write)) = rows.map (joinWith ['&'] ∘ fun r => r.map Cell.write) from rfl] at this
  rw [this, Option.map_some, trim_eq]

/-! What the code does to other cells. -/

theorem searchWith_first {m : Str → Option Nat} : ∀ (pre s : Str) (e : Nat), (∀ k, k < pre.length → m ((pre ++ s).drop k) = none) → m s = some e →
    s ≠ [] → searchWith m (pre ++ s) = some (pre.length, pre.length + e)
  | [], s, e, _, h, hs => by
    cases s with
    | nil => exact absurd rfl hs
    | cons c s => simp [searchWith, h]
  | x :: pre, s, e, hp, h, hs => by
    have ih := searchWith_first pre s e (fun k hk => by have := hp (k + 1) (by simp; omega); simpa using this) h hs
    have h0 : m (x :: (pre ++ s)) = none := by have := hp 0 (by simp); simpa using this
    rw [List.cons_append, searchWith, h0, ih]
    simp; omega

/-- The beginning of a span, up to its content. -/
def opening (name : Str) (s : Span) : Str :=
  name ++ (s.w1 ++ '{' :: (s.num ++ '}' :: (s.w2 ++ '{' :: (s.spec ++ '}' :: (s.w3 ++ ['{'])))))

theorem write_opening (name : Str) (s : Span) (body : Str) : s.write name body = opening name s ++ (body ++ ['}']) := by
  simp [Span.write, opening]

/-- In the beginning of a span there is a backslash at the start only. -/
theorem opening_clean {name : Str} (hn : '\\' ∉ name) {s : Span} (hs : s.Ok) (hspec : '\\' ∉ s.spec) :
    ∃ y, opening ('\\' :: name) s = '\\' :: y ∧ '\\' ∉ y ∧ name <+: y := by
  obtain ⟨h1, h2, h3, _, h5, _, _⟩ := hs
  have nb : ∀ w : Str, (∀ x ∈ w, isSpace x = true) → '\\' ∉ w := fun w hw hx => (space_char (hw _ hx)).2.2.2 rfl
  have nd : '\\' ∉ s.num := fun hx => (digit_char (h5 _ hx)).2.2.2 rfl
  refine ⟨name ++ (s.w1 ++ '{' :: (s.num ++ '}' :: (s.w2 ++ '{' :: (s.spec ++ '}' :: (s.w3 ++ ['{']))))), rfl, ?_, List.prefix_append _ _⟩
  simp [hn, nb _ h1, nb _ h2, nb _ h3, nd, hspec]

theorem first_in_opening {m : Str → Option Nat} (hm : ∀ x t, x ≠ '\\' → m (x :: t) = none) {name y : Str} (hy : '\\' ∉ y) (hn : name <+: y)
    (h0 : ∀ t, m ('\\' :: (name ++ t)) = none) (r : Str) (k : Nat) (hk : k < ('\\' :: y).length) : m ((('\\' :: y) ++ r).drop k) = none := by
  cases k with
  | zero =>
    obtain ⟨u, rfl⟩ := hn
    have := h0 (u ++ r)
    simpa using this
  | succ k =>
    simp only [List.length_cons] at hk
    have hk' : k < y.length := by omega
    rw [List.cons_append, List.drop_succ_cons, List.drop_append_of_le_length (by omega), List.drop_eq_getElem_cons hk', List.cons_append]
    exact hm _ _ fun h => hy (h ▸ List.getElem_mem hk')

theorem parse_one {α} (f : Str → α) (truthy : α → Bool) {t : Str} (ht : CellText t) (hs : strip t = t) (hne : t ≠ []) {c : PCell α}
    (hc : parseCells f (splitCells t) = some [c]) :
    parseTabular f truthy t = some (if PCell.truthy truthy c then [[c]] else []) := by
  have h := split_table [[t]] (by simp) (by simpa using ht)
  have e : joinWith ['\\', '\\'] ([[t]].map (joinWith ['&'])) = t := rfl
  rw [e] at h
  have e2 : (([[t]].map (joinWith ['&'])).map strip).filter (fun p => !p.isEmpty) = [t] := by
    simp [joinWith, hs, hne]
  rw [e2] at h
  unfold parseTabular
  rw [h, parseRows, hs, hc]
  simp only [Option.bind_some, parseRows, Option.map_some, trimRows, trimFirst, List.any_cons, List.any_nil, Bool.or_false]
  cases hq : PCell.truthy truthy c <;> simp [trimLast, hq]

/-- **C49 is false with `\makecell`** in a cell that spans rows or columns: the spans are lost, for every number, every specification
without a command, and every content. -/
theorem C49_violated_makecell {α} (f : Str → α) (truthy : α → Bool) (name : Str) (hname : name = "multicolumn".toList ∨ name = "multirow".toList)
    (s : Span) (hs : s.Ok) (hspec : '\\' ∉ s.spec) (b : Str) (hb : Wrappable '{' '}' b) (hr : RawBalanced b) (q : Quiet b) :
    parseTabular f truthy (s.write ('\\' :: name) ("\\makecell{".toList ++ (b ++ ['}']))) =
      some (if truthy (f b) then [[.plain (f b)]] else []) := by
  have hchars : ∀ x ∈ name, x ≠ '{' ∧ x ≠ '}' ∧ x ≠ '&' ∧ x ≠ '\\' := by rcases hname with rfl | rfl <;> decide
  have hbs : '\\' ∉ name := fun h => (hchars _ h).2.2.2 rfl
  have h0 : ∀ t, matchMakecell ('\\' :: (name ++ t)) = none := by
    intro t; rcases hname with rfl | rfl <;> rfl
  have ecell : "\\makecell{".toList ++ (b ++ ['}']) = "\\makecell".toList ++ ('{' :: (b ++ ['}'])) := rfl
  have hrb : RawBalanced ("\\makecell{".toList ++ (b ++ ['}'])) := by
    rw [ecell]; exact raw_append (raw_plain (by decide)) (raw_group hr)
  have hct : CellText (s.write ('\\' :: name) ("\\makecell{".toList ++ (b ++ ['}']))) := span_cell hchars hs hrb
  have hne : s.write ('\\' :: name) ("\\makecell{".toList ++ (b ++ ['}'])) ≠ [] := by simp [Span.write]
  have key : parseCells f (splitCells (s.write ('\\' :: name) ("\\makecell{".toList ++ (b ++ ['}'])))) = some [.plain (f b)] := by
    have hsplit := split_row [s.write ('\\' :: name) ("\\makecell{".toList ++ (b ++ ['}']))] (by simp) (by simpa using hct)
    have hj : joinWith ['&'] [s.write ('\\' :: name) ("\\makecell{".toList ++ (b ++ ['}']))] = s.write ('\\' :: name) ("\\makecell{".toList ++ (b ++ ['}'])) := rfl
    rw [hj, span_strip] at hsplit
    simp only [List.map_cons, List.map_nil, span_strip] at hsplit
    obtain ⟨y, hy1, hy2, hy3⟩ := opening_clean hbs hs hspec
    have hw : s.write ('\\' :: name) ("\\makecell{".toList ++ (b ++ ['}'])) = ('\\' :: y) ++ ("\\makecell".toList ++ ('{' :: (b ++ '}' :: ['}']))) := by
      rw [write_opening, hy1, ecell]; simp
    have hm : matchMakecell ("\\makecell".toList ++ ('{' :: (b ++ '}' :: ['}']))) = some ("\\makecell".toList.length + 1) := by
      have := matchMakecell_hit "\\makecell".toList (.inl rfl) none (by simp) [] (b ++ '}' :: ['}']) (by simp)
      simpa [Spec.cellOption] using this
    have hsearch := searchWith_first ('\\' :: y) _ _
      (first_in_opening (m := matchMakecell) (fun x t hx => matchMakecell_miss hx t) hy2 hy3 h0 _) hm (by simp)
    rw [← hw] at hsearch
    unfold splitCells
    rw [hsplit]
    simp only [List.map_cons, List.map_nil]
    have hie : (s.write ('\\' :: name) ("\\makecell{".toList ++ (b ++ ['}']))).isEmpty = false := by
      rw [List.isEmpty_eq_false_iff]; exact hne
    rw [hie, hsearch]
    have hdrop : (s.write ('\\' :: name) ("\\makecell{".toList ++ (b ++ ['}']))).drop (('\\' :: y).length + ("\\makecell".toList.length + 1) - 1) =
        '{' :: (b ++ '}' :: ['}']) := by
      rw [hw, show ('\\' :: y).length + ("\\makecell".toList.length + 1) - 1 = (('\\' :: y) ++ "\\makecell".toList).length by
        rw [List.length_append]; omega, ← List.append_assoc, List.drop_left]
    have ex := C01_round_trip [] b ['}'] '{' '}' (by simp) (by decide) (by decide) (by decide) hb.1 hb.2
    rw [List.nil_append] at ex
    simp only [Bool.false_eq_true, if_false, hdrop, ex, Option.map_some]
    rw [parseCells, parseCells, parseCell_of f (takeSpan_none q.1) (takeSpan_none q.2.1)]
    rfl
  exact parse_one f truthy hct (span_strip _) hne key

/-- **C49 is false for columns within rows**: `\multirow{n}{w}{\multicolumn{m}{c}{b}}` spans one row, for every `n`. -/
theorem C49_violated_rows_lost {α} (f : Str → α) (s s' : Span) (hs : s.Ok) (hs' : s'.Ok) (hspec : '\\' ∉ s.spec) (b : Str)
    (hb : Wrappable '{' '}' b) (q : Quiet b) :
    parseCell f (s.write "\\multirow".toList (s'.write "\\multicolumn".toList b)) = (Src.cols s' b).meaning f := by
  obtain ⟨y, hy1, hy2, hy3⟩ := opening_clean (name := "multirow".toList) (by decide) hs hspec
  have hw : s.write "\\multirow".toList (s'.write "\\multicolumn".toList b) = ('\\' :: y) ++ (s'.write ('\\' :: "multicolumn".toList) b ++ ['}']) := by
    rw [write_opening, mrow_eq, hy1]; rfl
  have hm := matchSpan_hit ('\\' :: "multicolumn".toList) hs' b ['}']
  have hm' : (fun t => (matchSpan ('\\' :: "multicolumn".toList) t).map (·.2)) (s'.write ('\\' :: "multicolumn".toList) b ++ ['}']) =
      some (('\\' :: "multicolumn".toList).length + (s'.w1.length + 1) + s'.num.length + 1 + (s'.w2.length + 1)) := by
    simp only [hm, Option.map_some]
  have hf := searchWith_first (m := fun t => (matchSpan ('\\' :: "multicolumn".toList) t).map (·.2)) ('\\' :: y)
    (s'.write ('\\' :: "multicolumn".toList) b ++ ['}']) _ (first_in_opening (m := fun t => (matchSpan ('\\' :: "multicolumn".toList) t).map (·.2))
    (fun x t hx => by
      cases hq : matchSpan ('\\' :: "multicolumn".toList) (x :: t) with
      | none => rfl
      | some z =>
        have := matchSpan_name hq
        rw [List.cons_prefix_cons] at this
        exact absurd this.1.symm hx) hy2 hy3 (fun t => rfl) _) hm' (by simp [Span.write])
  have hsrch : searchSpan ('\\' :: "multicolumn".toList) (s.write "\\multirow".toList (s'.write "\\multicolumn".toList b)) =
      some (s'.num, ('\\' :: y).length, ('\\' :: y).length + (('\\' :: "multicolumn".toList).length + (s'.w1.length + 1) + s'.num.length + 1 + (s'.w2.length + 1))) := by
    unfold searchSpan
    rw [hw, hf]
    simp only [List.drop_left, hm, Option.map_some]
  have ht : takeSpan mcol (s.write "\\multirow".toList (s'.write "\\multicolumn".toList b)) = (strip b, digitsVal s'.num) := by
    unfold takeSpan
    rw [show mcol = '\\' :: "multicolumn".toList from rfl, hsrch]
    simp only
    have e1 : s.write "\\multirow".toList (s'.write "\\multicolumn".toList b) =
        (('\\' :: y) ++ (('\\' :: "multicolumn".toList) ++ (s'.w1 ++ '{' :: (s'.num ++ '}' :: s'.w2)))) ++
        (wrapAll '{' '}' [([], s'.spec), (s'.w3, b)] ++ ['}']) := by
      rw [hw]; simp [Span.write, wrapAll]
    have e2 : ('\\' :: y).length + (('\\' :: "multicolumn".toList).length + (s'.w1.length + 1) + s'.num.length + 1 + (s'.w2.length + 1)) - 1 =
        (('\\' :: y) ++ (('\\' :: "multicolumn".toList) ++ (s'.w1 ++ '{' :: (s'.num ++ '}' :: s'.w2)))).length := by
      simp; omega
    rw [e1, e2, List.drop_left]
    have hww : WellWrapped '{' '}' [([], s'.spec), (s'.w3, b)] := by
      intro e he
      simp at he
      rcases he with rfl | rfl
      · exact ⟨by simp, hs'.2.2.2.2.2.1⟩
      · exact ⟨hs'.2.2.1, hb⟩
    have := seqBlocks_wrap '{' '}' (by decide) (by decide) (by decide) [([], s'.spec), (s'.w3, b)] ['}'] hww
    rw [show [([], s'.spec), (s'.w3, b)].length = 2 from rfl] at this
    rw [this]
    simp
  exact parseCell_of f ht (takeSpan_none fun hx => q.2.1 (contains_strip hx))

/-- **C49 is false for cells with text beside the command**: it is lost, for every such text. -/
theorem C49_violated_beside {α} (f : Str → α) (s : Span) (hs : s.Ok) (pre b post : Str) (hpre : '\\' ∉ pre) (hb : Wrappable '{' '}' b) (q : Quiet b) :
    parseCell f (pre ++ (s.write "\\multicolumn".toList b ++ post)) = (Src.cols s b).meaning f :=
  parseCell_of f (takeSpan_hit (name' := "multicolumn".toList) hs pre b post hpre hb) (takeSpan_none fun hx => q.2.1 (contains_strip hx))

/-- Without a closed content, the column specification becomes the content of the cell. -/
theorem C49_violated_unclosed : parseTabular id (fun s : Str => !s.isEmpty) "\\multicolumn{2}{c}{a & b".toList =
    some [[.span "c".toList 1 2]] := by decide +kernel

/- Non-vacuity (tests). -/
example : parseTabular id (fun s : Str => !s.isEmpty)
    "a & \\multicolumn{2}{c}{ b } \\\\ & \\multirow{3}{*}{x & y} & \\multicolumn {2} {c} {\\multirow{2}{*}{z}} \\\\ \\\\ &".toList =
    some [[.plain "a".toList, .span "b".toList 1 2], [.plain [], .span "x & y".toList 3 1, .span "z".toList 2 2]] := by decide +kernel
instance (t : Str) : Decidable (RawBalanced t) :=
  decidable_of_iff ((∀ i, i ≤ t.length → 0 ≤ rawLevel t i) ∧ rawLevel t t.length = 0)
    ⟨fun ⟨h1, h2⟩ => ⟨fun i => by
      by_cases h : i ≤ t.length
      · exact h1 i h
      · rw [show i = t.length + (i - t.length) by omega, rawLevel_past, h2]; exact Int.le_refl _, h2⟩, fun ⟨h1, h2⟩ => ⟨fun i _ => h1 i, h2⟩⟩
example : (Src.both ⟨" ".toList, "2".toList, [], "|c|".toList, " ".toList⟩ " ".toList ⟨[], "3".toList, [], "*".toList, []⟩ "x {&} y".toList " ".toList).Ok := by
  have nq : ∀ t : Str, '\\' ∉ t → Quiet t := fun t h => ⟨contains_nobs h, contains_nobs h, contains_nobs h, contains_nobs h⟩
  refine ⟨⟨by decide, by decide, by decide, by decide, by decide, by decide +kernel, by decide +kernel⟩,
    ⟨by decide, by decide, by decide, by decide, by decide, by decide +kernel, by decide +kernel⟩, by decide, by decide, by decide +kernel, by decide +kernel,
    nq _ (by decide), nq _ (by decide), nq _ (by decide)⟩
example : parseTabular id (fun s : Str => !s.isEmpty) "\\multirow{2}{*}{\\makecell{a \\\\ b}} & x".toList =
    some [[.plain "a \\\\ b".toList, .plain "x".toList]] := by decide +kernel

end L2J.Tab
