import Verif.Props.C71a
import Verif.Props.C44
import Verif.Props.C49
import Verif.Props.C50
/-! C71: a tabular environment as a whole. -/
namespace L2J.Tab
open L2J.Spec Flat

theorem cleaned {β} (l : List (FTok β)) : (cleanCell l).orNone = cellHolds l := by
  cases l with
  | nil => rfl
  | cons t l =>
    cases l with
    | nil =>
      obtain ⟨a, b, c⟩ := t
      cases b with
      | none =>
        cases a with
        | none => rfl
        | some s => cases s <;> rfl
      | some b => cases a <;> rfl
    | cons u l =>
      obtain ⟨a, b, c⟩ := t
      cases b with
      | none => cases a <;> rfl
      | some b => cases a <;> rfl

/-- A text without the commands of cells: nothing is taken out. -/
theorem structLoop_quiet {p : Pat} {b n : Nat} {s : Str} (h : p s = none) : structLoop p b (s.length + 1) n s = (s, []) := by
  unfold structLoop
  simp only [h]

theorem extract_quiet {s : Str} (h : Quiet s) : extractStructures s = (s, []) := by
  have h1 : structLoop (fun s => (searchSpan mcol s).map (·.2)) 2 (s.length + 1) 0 s = (s, []) :=
    structLoop_quiet (by rw [searchSpan_none (show ¬ Contains s mcol from h.1)]; rfl)
  have h2 : structLoop (fun s => (searchSpan mrow s).map (·.2)) 2 (s.length + 1) 0 s = (s, []) :=
    structLoop_quiet (by rw [searchSpan_none (show ¬ Contains s mrow from h.2.1)]; rfl)
  have h3 : structLoop (searchWith matchMakecell) 1 (s.length + 1) 0 s = (s, []) := structLoop_quiet (makecell_none h.2.2.1 h.2.2.2)
  unfold extractStructures structPatterns
  simp [structAll, h1, h2, h3]

/-- The content of flattened tokens, the references numbered from `n` on. -/
def contentFrom {β} : Nat → List (FTok β) → Str
  | _, [] => []
  | n, t :: ts =>
    match t.inline with
    | some s => s ++ contentFrom n ts
    | none => refKey n ++ contentFrom (n + 1) ts

theorem contentFrom_some {β} {t : FTok β} {s : Str} (h : t.inline = some s) (n : Nat) (ts : List (FTok β)) : contentFrom n (t :: ts) = s ++ contentFrom n ts := by
  rw [contentFrom, h]

theorem contentFrom_none {β} {t : FTok β} (h : t.inline = none) (n : Nat) (ts : List (FTok β)) : contentFrom n (t :: ts) = refKey n ++ contentFrom (n + 1) ts := by
  rw [contentFrom, h]

/-- The tokens that become references. -/
def objs {β} (l : List (FTok β)) : List (FTok β) := l.filter fun t => t.inline.isNone

theorem fold_content {β} : ∀ (ts : List (FTok β)) (st : FState β), (ts.foldl flattenStep st).content = st.content ++ contentFrom st.counter ts
  | [], st => by simp [contentFrom]
  | t :: ts, st => by
    rw [List.foldl_cons, fold_content ts]
    unfold flattenStep
    cases h : t.inline with
    | some s => simp [contentFrom_some h]
    | none => simp [contentFrom_none h]

theorem contentFrom_append {β} : ∀ (a : List (FTok β)) (b : List (FTok β)) (n : Nat),
    contentFrom n (a ++ b) = contentFrom n a ++ contentFrom (n + (objs a).length) b
  | [], b, n => by simp [contentFrom, objs]
  | t :: a, b, n => by
    rw [List.cons_append]
    cases h : t.inline with
    | some s =>
      have : objs (t :: a) = objs a := by simp [objs, h]
      rw [contentFrom_some h, contentFrom_some h, contentFrom_append a b n, this, List.append_assoc]
    | none =>
      have : objs (t :: a) = t :: objs a := by simp [objs, h]
      rw [contentFrom_none h, contentFrom_none h, contentFrom_append a b (n + 1), this, List.append_assoc, List.length_cons,
        show n + 1 + (objs a).length = n + ((objs a).length + 1) by omega]

theorem runs_objs {β} : ∀ (ts : List (FTok β)) (w : Str), (runs w ts).1.map (·.2) = objs ts
  | [], w => rfl
  | t :: ts, w => by
    cases h : t.inline with
    | some s => rw [inline_some h, runs_objs ts]; simp [objs, h]
    | none => rw [inline_none h, List.map_cons, runs_objs ts]; simp [objs, h]

theorem objs_append {β} (a b : List (FTok β)) : objs (a ++ b) = objs a ++ objs b := List.filter_append ..

theorem cell_content {β} (bare : β) (last : Str) : ∀ (parts : List (Str × FTok β)), (∀ e ∈ parts, e.2.inline = none) → ∀ n,
    contentFrom n (RCell.toks bare ⟨parts, last⟩) = Flat.cellText (numberRuns n parts) last ∧ objs (RCell.toks bare ⟨parts, last⟩) = parts.map (·.2)
  | [], _, n => by
    constructor
    · simp [RCell.toks, contentFrom, FTok.inline, numberRuns]
    · simp [RCell.toks, objs, FTok.inline]
  | e :: parts, h, n => by
    have h0 := h e (by simp)
    have ih := cell_content bare last parts (fun x hx => h x (by simp [hx])) (n + 1)
    have e1 : RCell.toks bare ⟨e :: parts, last⟩ = ⟨some e.1, none, bare⟩ :: e.2 :: RCell.toks bare ⟨parts, last⟩ := rfl
    rw [e1]
    constructor
    · rw [numberRuns, cellText_cons, ← ih.1]
      rw [contentFrom_some (s := e.1) rfl, contentFrom_none h0]
    · rw [List.map_cons, ← ih.2]
      unfold objs
      rw [List.filter_cons_of_neg (by simp [FTok.inline]), List.filter_cons_of_pos (by rw [h0]; rfl)]

/-- The cells of a row as texts, their objects numbered from `n` on. -/
def numRow {β} : Nat → List (RCell β) → List Cell
  | _, [] => []
  | n, c :: cs => ⟨[], .text (Flat.cellText (numberRuns n c.parts) c.last), []⟩ :: numRow (n + c.parts.length) cs

/-- The objects of a row. -/
def rowObjs {β} (r : List (RCell β)) : List (FTok β) := r.flatMap fun c => c.parts.map (·.2)

/-- The rows as texts. -/
def numRows {β} : Nat → List (List (RCell β)) → List (List Cell)
  | _, [] => []
  | n, r :: rs => numRow n r :: numRows (n + (rowObjs r).length) rs

theorem row_content {β} (bare : β) : ∀ (r : List (RCell β)), (∀ c ∈ r, c.Ok) → ∀ n,
    contentFrom n (glue [⟨some ['&'], none, bare⟩] (r.map (RCell.toks bare))) = joinWith ['&'] ((numRow n r).map Cell.write) ∧
    objs (glue [⟨some ['&'], none, bare⟩] (r.map (RCell.toks bare))) = rowObjs r
  | [], _, n => ⟨rfl, rfl⟩
  | [c], h, n => by
    have := cell_content bare c.last c.parts (fun e he => ((h c (by simp)).1 e he).2) n
    exact ⟨by simpa [glue, numRow, Cell.write, Src.write, joinWith] using this.1, by simpa [glue, rowObjs] using this.2⟩
  | c :: d :: r, h, n => by
    have h1 := cell_content bare c.last c.parts (fun e he => ((h c (by simp)).1 e he).2) n
    have ih := row_content bare (d :: r) (fun x hx => h x (by simp [hx])) (n + c.parts.length)
    have e1 : glue [⟨some ['&'], none, bare⟩] ((c :: d :: r).map (RCell.toks bare)) =
        RCell.toks bare c ++ ([⟨some ['&'], none, bare⟩] ++ glue [⟨some ['&'], none, bare⟩] ((d :: r).map (RCell.toks bare))) := by
      simp [glue]
    have e2 : objs ([⟨some ['&'], none, bare⟩] : List (FTok β)) = [] := rfl
    have e3 : rowObjs (c :: d :: r) = c.parts.map (·.2) ++ rowObjs (d :: r) := rfl
    rw [e1]
    constructor
    · rw [contentFrom_append, contentFrom_append, h1.1, h1.2, e2, List.length_map, List.length_nil, Nat.add_zero, ih.1]
      simp [numRow, joinWith, Cell.write, Src.write, contentFrom, FTok.inline]
    · rw [objs_append, objs_append, h1.2, e2, ih.2, e3]; rfl

theorem rows_content {β} (bare : β) : ∀ (rows : List (List (RCell β))), (∀ r ∈ rows, ∀ c ∈ r, c.Ok) → ∀ n,
    contentFrom n (tableToks bare rows) = tableText (numRows n rows) ∧ objs (tableToks bare rows) = rows.flatMap rowObjs
  | [], _, n => ⟨rfl, rfl⟩
  | [r], h, n => by
    have := row_content bare r (h r (by simp)) n
    exact ⟨by simpa [tableToks, glue, numRows, tableText, joinWith] using this.1, by simpa [tableToks, glue] using this.2⟩
  | r :: q :: rows, h, n => by
    have h1 := row_content bare r (h r (by simp)) n
    have ih := rows_content bare (q :: rows) (fun x hx => h x (by simp [hx])) (n + (rowObjs r).length)
    have e1 : tableToks bare (r :: q :: rows) = glue [⟨some ['&'], none, bare⟩] (r.map (RCell.toks bare)) ++
        ([⟨some ['\\', '\\'], none, bare⟩] ++ tableToks bare (q :: rows)) := by
      simp [tableToks, glue]
    have e2 : objs ([⟨some ['\\', '\\'], none, bare⟩] : List (FTok β)) = [] := rfl
    rw [e1]
    constructor
    · rw [contentFrom_append, contentFrom_append, h1.1, h1.2, e2, List.length_nil, Nat.add_zero, ih.1]
      simp [numRows, tableText, joinWith, contentFrom, FTok.inline]
    · rw [objs_append, objs_append, h1.2, e2, ih.2, List.flatMap_cons]; rfl

/-- A word has none of these characters. -/
theorem word_plain {s : Str} (h : Word s) : ∀ x ∈ s, x ≠ '{' ∧ x ≠ '}' ∧ x ≠ '&' ∧ x ≠ '\\' := by
  intro x hx
  refine ⟨?_, ?_, ?_, ?_⟩ <;> rintro rfl
  · exact h.2.1 hx
  · exact h.2.2.1 hx
  · exact h.2.2.2.1 hx
  · exact h.1 hx

theorem natStr_digit (n : Nat) : ∀ x ∈ natStr n, x ≠ '{' ∧ x ≠ '}' ∧ x ≠ '&' ∧ x ≠ '\\' := by
  intro x hx
  refine ⟨?_, ?_, ?_, ?_⟩ <;> rintro rfl
  all_goals exact absurd (natStr_digits n _ hx) (by decide)

theorem ref_plain (n : Nat) : ∀ x ∈ refKey n, x ≠ '{' ∧ x ≠ '}' ∧ x ≠ '&' ∧ x ≠ '\\' := by
  intro x hx
  rw [refKey_eq] at hx
  simp only [List.mem_cons, List.mem_append, List.not_mem_nil, or_false] at hx
  rcases hx with rfl | rfl | hx | hx | rfl | rfl
  · decide
  · decide
  · revert x; decide
  · exact natStr_digit n x hx
  · decide
  · decide

theorem text_plain {β} (last : Str) (hl : Word last) : ∀ (parts : List (Str × FTok β)) (n : Nat), (∀ e ∈ parts, Word e.1) →
    ∀ x ∈ Flat.cellText (numberRuns n parts) last, x ≠ '{' ∧ x ≠ '}' ∧ x ≠ '&' ∧ x ≠ '\\'
  | [], n, _ => word_plain hl
  | e :: parts, n, h => by
    intro x hx
    rw [numberRuns, cellText_cons] at hx
    simp only [List.mem_append] at hx
    rcases hx with hx | hx | hx
    · exact word_plain (h e (by simp)) x hx
    · exact ref_plain n x hx
    · exact text_plain last hl parts (n + 1) (fun e he => h e (by simp [he])) x hx

theorem text_ok {t : Str} (h : ∀ x ∈ t, x ≠ '{' ∧ x ≠ '}' ∧ x ≠ '&' ∧ x ≠ '\\') : (⟨[], .text t, []⟩ : Cell).Ok := by
  refine ⟨by simp, by simp, cellText_calm (calm_plain h) ?_, ?_⟩
  · intro hl
    exact (h _ (List.mem_of_getLast? hl)).2.2.2 rfl
  · have : '\\' ∉ t := fun hb => (h _ hb).2.2.2 rfl
    exact ⟨contains_nobs this, contains_nobs this, contains_nobs this, contains_nobs this⟩

theorem numRow_ok {β} : ∀ (r : List (RCell β)), (∀ c ∈ r, c.Ok) → ∀ n, ∀ c ∈ numRow n r, c.Ok
  | [], _, n => by simp [numRow]
  | c :: r, h, n => by
    intro x hx
    rw [numRow] at hx
    rcases List.mem_cons.1 hx with rfl | hx
    · exact text_ok (text_plain _ (h c (by simp)).2 _ _ fun e he => ((h c (by simp)).1 e he).1)
    · exact numRow_ok r (fun y hy => h y (by simp [hy])) _ x hx

theorem numRow_ne {β} {r : List (RCell β)} (h : r ≠ []) (n : Nat) : numRow n r ≠ [] := by
  cases r with
  | nil => exact absurd rfl h
  | cons c r => simp [numRow]

theorem numRows_ok {β} : ∀ (rows : List (List (RCell β))), (∀ r ∈ rows, r ≠ [] ∧ ∀ c ∈ r, c.Ok) → ∀ n, ∀ r ∈ numRows n rows, r ≠ [] ∧ ∀ c ∈ r, c.Ok
  | [], _, n => by simp [numRows]
  | r :: rows, h, n => by
    intro x hx
    rw [numRows] at hx
    rcases List.mem_cons.1 hx with rfl | hx
    · exact ⟨numRow_ne (h r (by simp)).1 n, numRow_ok r (h r (by simp)).2 n⟩
    · exact numRows_ok rows (fun y hy => h y (by simp [hy])) _ x hx

theorem text_numbered {β} (last : Str) : ∀ (parts : List (Str × FTok β)) (n : Nat), RCell.text n ⟨parts, last⟩ = Flat.cellText (numberRuns n parts) last
  | [], n => rfl
  | e :: parts, n => by
    rw [numberRuns, cellText_cons, ← text_numbered last parts (n + 1)]
    unfold RCell.text
    simp only [List.mapIdx_cons, weave, Nat.add_zero]
    rw [List.append_assoc]
    have : (fun (i : Nat) (e : Str × FTok β) => (e.1, placeholder (n + (i + 1)))) = fun i e => (e.1, placeholder (n + 1 + i)) := by
      funext i x
      rw [show n + (i + 1) = n + 1 + i by omega]
    rw [this]
    rfl

/-- The text of a cell without the blanks at its ends. -/
theorem strip_numbered {β} (c : RCell β) (n : Nat) :
    strip (Flat.cellText (numberRuns n c.parts) c.last) = Flat.cellText (numberRuns n c.trim.parts) c.trim.last := by
  obtain ⟨parts, last⟩ := c
  cases parts with
  | nil => rfl
  | cons e l =>
    simp only [RCell.trim, numberRuns, cellText_cons]
    have hr : ∀ x, rstrip (refKey n ++ x) = refKey n ++ rstrip x := by
      intro x
      obtain ⟨q, hq⟩ : ∃ q, refKey n = q ++ ['`'] := ⟨'`' :: '|' :: ("REF_".toList ++ (natStr n ++ ['|'])), by rw [refKey_eq]; simp⟩
      rw [hq, List.append_assoc, List.append_assoc]
      exact rstrip_append q x '`' (by decide)
    have hrr : ∀ (l : List (Str × FTok β)) (m : Nat), rstrip (refKey m ++ Flat.cellText (numberRuns (m + 1) l) last) =
        refKey m ++ Flat.cellText (numberRuns (m + 1) l) (rstrip last) := by
      intro l
      induction l with
      | nil =>
        intro m
        obtain ⟨q, hq⟩ : ∃ q, refKey m = q ++ ['`'] := ⟨'`' :: '|' :: ("REF_".toList ++ (natStr m ++ ['|'])), by rw [refKey_eq]; simp⟩
        rw [hq, List.append_assoc, List.append_assoc]
        exact rstrip_append q _ '`' (by decide)
      | cons f l ih =>
        intro m
        rw [numberRuns, cellText_cons, cellText_cons]
        have : rstrip (refKey m ++ (f.1 ++ (refKey (m + 1) ++ Flat.cellText (numberRuns (m + 1 + 1) l) last))) =
            refKey m ++ (f.1 ++ rstrip (refKey (m + 1) ++ Flat.cellText (numberRuns (m + 1 + 1) l) last)) := by
          generalize Flat.cellText (numberRuns (m + 1 + 1) l) last = z
          have hk : ∀ p : Str, rstrip (p ++ (refKey (m + 1) ++ z)) = p ++ rstrip (refKey (m + 1) ++ z) := by
            intro p
            obtain ⟨q, hq⟩ : ∃ q, refKey (m + 1) = q ++ ['`'] := ⟨'`' :: '|' :: ("REF_".toList ++ (natStr (m + 1) ++ ['|'])), by rw [refKey_eq]; simp⟩
            rw [hq, List.append_assoc, show p ++ (q ++ (['`'] ++ z)) = (p ++ q) ++ '`' :: z by simp, rstrip_append _ _ _ (by decide),
              show q ++ (['`'] ++ z) = q ++ '`' :: z from rfl, rstrip_append _ _ _ (by decide)]
            simp
          rw [← List.append_assoc, hk, List.append_assoc]
        rw [this, ih (m + 1)]
    unfold strip
    have hl : lstrip (e.1 ++ (refKey n ++ Flat.cellText (numberRuns (n + 1) l) last)) = lstrip e.1 ++ (refKey n ++ Flat.cellText (numberRuns (n + 1) l) last) := by
      unfold lstrip
      rw [List.dropWhile_append]
      by_cases h : (e.1.dropWhile isSpace).isEmpty = true
      · rw [if_pos h, List.isEmpty_iff.1 h, refKey_eq]
        simp only [List.cons_append, List.nil_append]
        rw [List.dropWhile_cons_of_neg (by decide)]
      · rw [if_neg h]
    rw [hl]
    have hk : ∀ (p z : Str), rstrip (p ++ (refKey n ++ z)) = p ++ rstrip (refKey n ++ z) := by
      intro p z
      obtain ⟨q, hq⟩ : ∃ q, refKey n = q ++ ['`'] := ⟨'`' :: '|' :: ("REF_".toList ++ (natStr n ++ ['|'])), by rw [refKey_eq]; simp⟩
      rw [hq, List.append_assoc, show p ++ (q ++ (['`'] ++ z)) = (p ++ q) ++ '`' :: z by simp, rstrip_append _ _ _ (by decide),
        show q ++ (['`'] ++ z) = q ++ '`' :: z from rfl, rstrip_append _ _ _ (by decide)]
      simp
    rw [hk, hrr]

theorem contains_suffix {a b k : Str} (h : Contains b k) : Contains (a ++ b) k := by
  obtain ⟨x, y, rfl⟩ := h
  exact ⟨a ++ x, y, by simp⟩

theorem contains_prefix {a b k : Str} (h : Contains a k) : Contains (a ++ b) k := by
  obtain ⟨x, y, rfl⟩ := h
  exact ⟨x, y ++ b, by simp⟩

theorem calm_lstrip {s : Str} (h : ¬ Confusing s) : ¬ Confusing (lstrip s) := by
  intro hc
  apply h
  have := List.takeWhile_append_dropWhile (p := isSpace) (l := s)
  unfold Confusing
  rw [← this]
  exact contains_suffix hc

theorem calm_rstrip {s : Str} (h : ¬ Confusing s) : ¬ Confusing (rstrip s) := by
  intro hc
  apply h
  obtain ⟨ws, _, h2⟩ := rstrip_eq s
  rw [h2]
  exact contains_prefix hc

theorem trim_calm {β} {c : RCell β} (h : c.Ok) : (∀ e ∈ c.trim.parts, ¬ Confusing e.1) ∧ ¬ Confusing c.trim.last := by
  obtain ⟨parts, last⟩ := c
  cases parts with
  | nil => exact ⟨by simp [RCell.trim], calm_rstrip (calm_lstrip h.2.2.2.2.2)⟩
  | cons e l =>
    refine ⟨?_, calm_rstrip h.2.2.2.2.2⟩
    intro x hx
    rcases List.mem_cons.1 hx with rfl | hx
    · exact calm_lstrip (h.1 e (by simp)).1.2.2.2.2
    · exact (h.1 x (by simp [hx])).1.2.2.2.2

theorem trim_objs {β} (c : RCell β) : c.trim.parts.map (·.2) = c.parts.map (·.2) := by
  obtain ⟨parts, last⟩ := c
  cases parts <;> rfl

theorem numberRuns_words {β} : ∀ (l : List (Str × FTok β)) (n : Nat), ∀ e ∈ numberRuns n l, n ≤ e.2 ∧ e.2 < n + l.length ∧ ∃ t, (e.1, t) ∈ l
  | [], n => by simp [numberRuns]
  | x :: l, n => by
    intro e he
    rcases List.mem_cons.1 he with rfl | he
    · exact ⟨by simp, by simp, x.2, by simp⟩
    · obtain ⟨h1, h2, t, h3⟩ := numberRuns_words l (n + 1) e he
      exact ⟨by omega, by simp; omega, t, by simp [h3]⟩

theorem numberRuns_increasing {β} : ∀ (l : List (Str × FTok β)) (n : Nat), ((numberRuns n l).map (·.2)).Pairwise (· < ·)
  | [], n => by simp [numberRuns]
  | x :: l, n => by
    simp only [numberRuns, List.map_cons, List.pairwise_cons]
    refine ⟨?_, numberRuns_increasing l (n + 1)⟩
    intro i hi
    obtain ⟨e, he, rfl⟩ := List.mem_map.1 hi
    have := (numberRuns_words l (n + 1) e he).1
    omega

/-- The objects of a cell are found. -/
theorem cellToks_objs {β} (bare : β) (last : Str) : ∀ (parts : List (Str × FTok β)) (pre post : List (FTok β)),
    cellToks bare (fun i => (pre ++ (parts.map (·.2) ++ post))[i - 1]?) (numberRuns (pre.length + 1) parts) last = unruns bare (parts, last)
  | [], pre, post => rfl
  | x :: parts, pre, post => by
    have ih := cellToks_objs bare last parts (pre ++ [x.2]) post
    simp only [List.length_append, List.length_cons, List.length_nil, Nat.zero_add, List.append_assoc, List.singleton_append] at ih
    unfold cellToks unruns at ih ⊢
    simp only [numberRuns, List.flatMap_cons, List.append_assoc, List.map_cons, List.cons_append]
    simp only [List.append_assoc] at ih
    rw [ih]
    simp

/-- References not in the text are not found. -/
theorem no_refs {β} {ts : List (FTok β)} {a : Nat} {s : Str} (h : ¬ Confusing s) : (Flat.numbered a ts).any (fun e => (findSub e.1 s).isSome) = false := by
  rw [List.any_eq_false]
  intro e he
  obtain ⟨i, _, _, hi⟩ := numbered_keys ts a e he
  rw [hi]
  intro hf
  obtain ⟨x, y, hxy⟩ := (findSub_contains _ (refKey_ne_nil i) s).1 hf
  apply h
  refine ⟨x ++ ['`'], natStr i ++ ['|', '`'] ++ y, ?_⟩
  rw [hxy, refKey_eq]
  simp

/-- What a cell holds after its text was numbered. -/
theorem value_cell {β} (bare : β) (parse : Str → List (FTok β)) (c : RCell β) (h : c.Ok) (pre post : List (FTok β))
    (hp : c.parts ≠ [] → ∀ n, ∃ b, parse (c.trim.text n) = [⟨some (c.trim.text n), none, b⟩]) :
    cellValue bare parse (Flat.numbered 1 (pre ++ (c.parts.map (·.2) ++ post))) (strip (Flat.cellText (numberRuns (pre.length + 1) c.parts) c.last)) =
      c.value bare parse := by
  have hc := trim_calm h
  unfold cellValue
  simp only [strip_strip]
  rw [strip_numbered]
  cases hparts : c.parts with
  | nil =>
    have e1 : c.trim = ⟨[], strip c.last⟩ := by unfold RCell.trim; rw [hparts]
    have e2 : Flat.cellText (numberRuns (pre.length + 1) c.trim.parts) c.trim.last = strip c.last := by rw [e1]; rfl
    rw [e2, no_refs (by have := hc.2; rwa [e1] at this)]
    rw [if_neg (by simp), cleaned]
    unfold RCell.value
    rw [hparts]
  | cons e l =>
    have hne : c.parts ≠ [] := by rw [hparts]; simp
    have e1 : Flat.cellText (numberRuns (pre.length + 1) c.trim.parts) c.trim.last = c.trim.text (pre.length + 1) := (text_numbered _ _ _).symm
    obtain ⟨b, hb⟩ := hp hne (pre.length + 1)
    have hobj := trim_objs c
    rw [← hparts, ← hobj]
    have hfound : (Flat.numbered 1 (pre ++ (c.trim.parts.map (·.2) ++ post))).any (fun e => (findSub e.1 (c.trim.text (pre.length + 1))).isSome) = true := by
      rw [List.any_eq_true]
      have hmem : ∀ (pre : List (FTok β)) (a : Nat) (x : FTok β) (post : List (FTok β)), (refKey (a + pre.length), x) ∈ Flat.numbered a (pre ++ x :: post) := by
        intro pre
        induction pre with
        | nil => intro a x post; simp [Flat.numbered]
        | cons y pre ih =>
          intro a x post
          have := ih (a + 1) x post
          simp only [List.cons_append, Flat.numbered, List.length_cons, List.mem_cons]
          rw [show a + (pre.length + 1) = a + 1 + pre.length by omega]
          exact .inr this
      cases ht : c.trim.parts with
      | nil => rw [ht, hparts] at hobj; simp at hobj
      | cons f m =>
        refine ⟨(refKey (1 + pre.length), f.2), by simpa using hmem pre 1 f.2 (m.map (·.2) ++ post), ?_⟩
        refine (findSub_contains _ (refKey_ne_nil _) _).2 ?_
        rw [← e1, ht, numberRuns, cellText_cons]
        exact ⟨f.1, Flat.cellText (numberRuns (pre.length + 1 + 1) m) c.trim.last, by rw [Nat.add_comm 1]; simp⟩
    rw [e1, hfound, if_pos rfl, hb]
    have hx : expandCell bare (Flat.numbered 1 (pre ++ (c.trim.parts.map (·.2) ++ post))) [⟨some (c.trim.text (pre.length + 1)), none, b⟩] =
        unruns bare (c.trim.parts, c.trim.last) := by
      have hst : ∀ l : List (FTok β), l.map (addStyles ((none : Option (List Str)).getD [])) = l := by
        intro l; induction l with
        | nil => rfl
        | cons a l ih => rw [List.map_cons, ih]; rfl
      simp only [expandCell, List.flatMap_cons, List.flatMap_nil, List.append_nil, expandCellTok]
      rw [hst, ← e1, chunkLoop_numbered bare _ 1 _ _ ⟨?_, hc.2⟩ (numberRuns_increasing _ _) ?_]
      · exact cellToks_objs bare c.trim.last c.trim.parts pre post
      · intro x hx
        obtain ⟨_, _, t, ht⟩ := numberRuns_words _ _ x hx
        exact hc.1 _ ht
      · intro x hx
        have := numberRuns_words _ _ x hx
        simp only [List.length_append, List.length_map]
        omega
    rw [hx]
    have hv : c.value bare parse = .toks (unruns bare (c.trim.parts, c.trim.last)) := by
      unfold RCell.value; rw [hparts]
    rw [hv]
    cases hu : unruns bare (c.trim.parts, c.trim.last) with
    | nil =>
      exfalso
      cases ht : c.trim.parts with
      | nil => rw [ht, hparts] at hobj; simp at hobj
      | cons f m => rw [ht] at hu; simp [unruns] at hu
    | cons y ys => rfl

/-- A text with references (and no commands or groups) is read as that text. -/
def _root_.L2J.Spec.KeepsRefs {β} (parse : Str → List (FTok β)) (rows : List (List (RCell β))) : Prop :=
  ∀ r ∈ rows, ∀ c ∈ r, c.parts ≠ [] → ∀ n, ∃ b, parse (c.trim.text n) = [⟨some (c.trim.text n), none, b⟩]

theorem row_values {β} (bare : β) (parse : Str → List (FTok β)) : ∀ (r : List (RCell β)), (∀ c ∈ r, c.Ok) →
    (∀ c ∈ r, c.parts ≠ [] → ∀ n, ∃ b, parse (c.trim.text n) = [⟨some (c.trim.text n), none, b⟩]) → ∀ (pre post : List (FTok β)),
    (numRow (pre.length + 1) r).map (fun c => c.src.meaning (cellValue bare parse (Flat.numbered 1 (pre ++ (rowObjs r ++ post))))) =
      r.map fun c => .plain (c.value bare parse)
  | [], _, _, pre, post => rfl
  | c :: r, h, hp, pre, post => by
    have ih := row_values bare parse r (fun x hx => h x (by simp [hx])) (fun x hx => hp x (by simp [hx])) (pre ++ c.parts.map (·.2)) post
    have h1 := value_cell bare parse c (h c (by simp)) pre (rowObjs r ++ post) (hp c (by simp))
    have e1 : rowObjs (c :: r) = c.parts.map (·.2) ++ rowObjs r := rfl
    simp only [List.length_append, List.length_map] at ih
    rw [numRow, List.map_cons, List.map_cons, e1]
    congr 1
    · simp only [Src.meaning, Src.rowspan, Src.colspan, Src.body, Nat.le_refl, and_self, if_true, List.append_assoc]
      rw [h1]
    · rw [← ih, show pre.length + 1 + c.parts.length = pre.length + c.parts.length + 1 by omega]
      simp only [List.append_assoc]

theorem row_blank {β} : ∀ (r : List (RCell β)), r ≠ [] → ∀ n, Spec.blankRow (numRow n r) = RCell.blankRow r
  | [], h, _ => absurd rfl h
  | [c], _, n => by
    obtain ⟨parts, last⟩ := c
    unfold Spec.blankRow RCell.blankRow
    simp only [numRow, List.map_cons, List.map_nil, joinWith, Cell.write, Src.write, List.nil_append, List.append_nil]
    cases parts with
    | nil => rfl
    | cons e l =>
      rw [numberRuns, cellText_cons, refKey_eq]
      simp [show isSpace '`' = false by decide]
  | c :: d :: r, _, n => by
    unfold Spec.blankRow
    simp only [numRow, List.map_cons, joinWith, List.all_append]
    have : (['&'] : Str).all isSpace = false := by decide
    rw [this]
    simp [RCell.blankRow]

theorem rows_values {β} (bare : β) (parse : Str → List (FTok β)) : ∀ (rows : List (List (RCell β))), (∀ r ∈ rows, r ≠ [] ∧ ∀ c ∈ r, c.Ok) →
    KeepsRefs parse rows → ∀ (pre post : List (FTok β)),
    (((numRows (pre.length + 1) rows).filter fun r => !Spec.blankRow r).map fun r =>
      r.map fun c => c.src.meaning (cellValue bare parse (Flat.numbered 1 (pre ++ (rows.flatMap rowObjs ++ post))))) =
      (rows.filter fun r => !RCell.blankRow r).map fun r => r.map fun c => .plain (c.value bare parse)
  | [], _, _, pre, post => rfl
  | r :: rows, h, hp, pre, post => by
    have ih := rows_values bare parse rows (fun x hx => h x (by simp [hx])) (fun x hx => hp x (by simp [hx])) (pre ++ rowObjs r) post
    have h1 := row_values bare parse r (h r (by simp)).2 (hp r (by simp)) pre (rows.flatMap rowObjs ++ post)
    have h2 := row_blank r (h r (by simp)).1 (pre.length + 1)
    simp only [List.length_append, List.append_assoc] at ih
    rw [numRows, List.filter_cons, List.filter_cons, h2, List.flatMap_cons,
      show pre.length + 1 + (rowObjs r).length = pre.length + (rowObjs r).length + 1 by omega]
    simp only [List.append_assoc]
    cases RCell.blankRow r
    · simp only [Bool.not_false, if_true, List.map_cons]
      rw [h1, ih]
    · simp only [Bool.not_true]
      simpa using ih

/-- **C71**, the head of a table: whatever the two readers do, the token has the name of the environment and the last argument (without the blanks at its ends) as the
specification of the columns, the cells are read from what follows that argument, and the end is the end of the environment. -/
theorem C71_head {β} (process : Str → Str ⊕ List (FTok β)) (bare : β) (parse : Str → List (FTok β)) (t : TableSrc) (ht : t.Ok) (rest : Str) :
    handle process bare parse (t.write ++ rest) =
      match parseTabular (cellValue bare parse (prepare process (rstrip t.body)).2) Value.truthy (prepare process (rstrip t.body)).1 with
      | none => .raised
      | some rows => .ok ⟨t.env, some (strip t.spec), some rows⟩ t.write.length := by
  unfold handle
  rw [start_eq t ht rest]
  rfl

theorem emptyCell_eq {β} : (fun c : PCell (Value β) => !PCell.truthy Value.truthy c) = emptyCell := by
  funext c
  cases c with
  | span a r k => rfl
  | plain a =>
    cases a with
    | null => rfl
    | text s => cases s <;> rfl
    | toks l => cases l <;> rfl

/-- **C71**: a tabular environment whose cells are texts with formulas and other objects between them becomes one token: its rows and cells are those that were written, and
each cell holds its texts and its objects in order (a cell without objects: what the cell reader makes of its text). Rows of nothing but blanks vanish, and so do a first and
a last row whose cells are all empty. Of the first reading it is asked that it gives the tokens of the table in order, however it splits the texts, and of the cell reader that
it keeps texts with references in them. -/
theorem C71_objects {β} (process : Str → Str ⊕ List (FTok β)) (bare : β) (parse : Str → List (FTok β)) (t : TableSrc) (ht : t.Ok) (rest : Str)
    (hq : Quiet (rstrip t.body)) (rows : List (List (RCell β))) (hne : rows ≠ []) (h : ∀ r ∈ rows, r ≠ [] ∧ ∀ c ∈ r, c.Ok)
    (toks : List (FTok β)) (hp : process (rstrip t.body) = .inr toks) (hr : runs [] toks = runs [] (tableToks bare rows)) (hk : KeepsRefs parse rows) :
    handle process bare parse (t.write ++ rest) = .ok ⟨t.env, some (strip t.spec),
      some (dropEnds emptyCell ((rows.filter fun r => !RCell.blankRow r).map fun r => r.map fun c => .plain (c.value bare parse)))⟩
      t.write.length := by
  rw [C71_head process bare parse t ht rest]
  have hc := rows_content bare rows (fun r hr => (h r hr).2) 1
  have hfl : flattenTokens toks = (tableText (numRows 1 rows), Flat.numbered 1 (rows.flatMap rowObjs)) := by
    have h1 : flattenTokens toks = flattenTokens (tableToks bare rows) := by rw [flatten_eq, flatten_eq, hr]
    have h2 : (flattenTokens (tableToks bare rows)).1 = tableText (numRows 1 rows) := by
      rw [← hc.1]
      have := fold_content (tableToks bare rows) ({} : FState β)
      simpa [flattenTokens] using this
    have h3 : (flattenTokens (tableToks bare rows)).2 = Flat.numbered 1 (rows.flatMap rowObjs) := by
      rw [flatten_eq, ← hc.2, ← runs_objs _ []]
    rw [h1, ← h2, ← h3]
  have hpre : prepare process (rstrip t.body) = (tableText (numRows 1 rows), Flat.numbered 1 (rows.flatMap rowObjs)) := by
    unfold prepare
    rw [extract_quiet hq]
    simp only [hp, flattenAny, hfl]
    rfl
  rw [hpre]
  simp only
  have hne' : numRows 1 rows ≠ [] := by
    cases rows with
    | nil => exact absurd rfl hne
    | cons r rows => simp [numRows]
  rw [C49_table _ Value.truthy (numRows 1 rows) hne' (numRows_ok rows h 1), emptyCell_eq]
  have := rows_values bare parse rows h hk [] []
  simp only [List.length_nil, Nat.zero_add, List.nil_append, List.append_nil] at this
  simp only [this]

/-- **C71**: a tabular environment whose cells are texts without objects, spans of columns and of rows: if the first reading leaves its text as it is, the cells are those that were
written, each with its spans, holding what the cell reader makes of its text. Missing: cells that contain cells taken out before (`C50_round_trip_partial`). -/
theorem C71_spans_partial {β} (process : Str → Str ⊕ List (FTok β)) (bare : β) (parse : Str → List (FTok β)) (t : TableSrc) (ht : t.Ok) (rest : Str)
    (rows : List (List Cell)) (hne : rows ≠ []) (h : ∀ r ∈ rows, r ≠ [] ∧ ∀ c ∈ r, c.Ok) (hb : rstrip t.body = tableText rows)
    (hm : ¬ Contains (tableText rows) mark) (hn : ∀ e ∈ (extractStructures (tableText rows)).2, ¬ Contains e.2 mark)
    (hp : flattenAny (process (extractStructures (tableText rows)).1) = ((extractStructures (tableText rows)).1, [])) :
    handle process bare parse (t.write ++ rest) = .ok ⟨t.env, some (strip t.spec),
      some (dropEnds emptyCell ((rows.filter fun r => !Spec.blankRow r).map fun r =>
        r.map fun c => c.src.meaning fun s => cellHolds (parse (strip s))))⟩ t.write.length := by
  rw [C71_head process bare parse t ht rest, hb]
  have hpre : prepare process (tableText rows) = (tableText rows, []) := by
    unfold prepare
    simp only [hp]
    rw [C50_round_trip_partial _ hm hn]
  rw [hpre]
  simp only
  have hf : cellValue bare parse [] = fun s => cellHolds (parse (strip s)) := by
    funext s
    unfold cellValue
    rw [← cleaned]
    exact if_neg (by simp)
  rw [hf, C49_table _ Value.truthy rows hne h, emptyCell_eq]

theorem noEnd_search {kw name text : Str} (h : NoDelim kw name text) (pos : Nat) : (L2J.delimRe kw name).searchPos text pos = none := by
  unfold Re.searchPos
  rcases Re.searchFrom_spec (L2J.delimRe kw name) (text.drop pos) (text.take pos).reverse with ⟨h1, _⟩ | ⟨k, m, hk, h1, h2, _⟩
  · rw [h1]; rfl
  · exfalso
    obtain ⟨d, tail, e, hd, _⟩ := delimRe_some kw name _ _ m h2
    exact h (text.take pos ++ (text.drop pos).take k) d tail (by
      rw [List.append_assoc, List.append_assoc, ← e, List.take_append_drop, List.take_append_drop]) hd

/-- C71: the beginning of a table whose end is missing is no table, and only it is passed over. -/
theorem C71_unclosed {β} (process : Str → Str ⊕ List (FTok β)) (bare : β) (parse : Str → List (FTok β)) (gap kind : Str) (star : Bool) (rest : Str)
    (hg : ∀ x ∈ gap, isSpace x = true) (hk : kind ∈ tableKinds)
    (hn : NoDelim "\\end".toList (kind ++ (if star then ['*'] else [])) (("\\begin".toList ++ gap ++ '{' :: (kind ++ (if star then ['*'] else []) ++ ['}'])) ++ rest)) :
    handle process bare parse (("\\begin".toList ++ gap ++ '{' :: (kind ++ (if star then ['*'] else []) ++ ['}'])) ++ rest) =
      .none ("\\begin".toList ++ gap ++ '{' :: (kind ++ (if star then ['*'] else []) ++ ['}'])).length := by
  obtain ⟨m, hm, hl⟩ := tableRe_match gap kind star rest hg hk
  have hv := envType_eq gap kind star hg hk
  have hb : startsWith ("\\begin".toList ++ gap ++ '{' :: (kind ++ (if star then ['*'] else []) ++ ['}'])) "\\begin".toList = true := by
    unfold startsWith
    rw [List.isPrefixOf_iff_prefix, List.append_assoc]
    exact List.prefix_append _ _
  have hf : ∀ text name, NoDelim "\\end".toList name text → findMatchingEnvBlock text name 0 = none := by
    intro text name h
    unfold findMatchingEnvBlock extractNestedPattern
    rw [List.drop_zero]
    cases (L2J.beginRe name).searchPos text 0 with
    | none => rfl
    | some x =>
      obtain ⟨a, b⟩ := x
      simp only
      have : nestLoop (L2J.beginRe name) (endRe name) text (text.length + 1) b 1 = none := by
        rw [nestLoop, endRe_eq, noEnd_search h]
        simp
      rw [this]
  unfold handle start
  rw [hm]
  simp only [hl, List.take_left, hb, if_true, hv, hf _ _ hn]

/-- C71, violated: a group at the beginning of the first cell is taken for the specification of the columns (and is lost from the cell): `\begin{tabular}{cc}{\bf A} & B`. -/
theorem C71_violated_group {β} (process : Str → Str ⊕ List (FTok β)) (bare : β) (parse : Str → List (FTok β)) (t : TableSrc) (spec w g body : Str)
    (ha : t.args = [([], spec)]) (hb : t.body = w ++ '{' :: (g ++ '}' :: body))
    (ht : TableSrc.Ok { t with args := [([], spec), (w, g)], body := body }) (rest : Str) :
    handle process bare parse (t.write ++ rest) =
      match parseTabular (cellValue bare parse (prepare process (rstrip body)).2) Value.truthy (prepare process (rstrip body)).1 with
      | none => .raised
      | some rows => .ok ⟨t.env, some (strip g), some rows⟩ t.write.length := by
  have hi : ({ t with args := [([], spec), (w, g)], body := body } : TableSrc).inner = t.inner := by
    unfold TableSrc.inner
    simp only [ha, hb, wrapAll, List.nil_append]
    congr 1
    simp
  have hw : ({ t with args := [([], spec), (w, g)], body := body } : TableSrc).write = t.write := by
    unfold TableSrc.write
    rw [hi]
    rfl
  have := C71_head process bare parse _ ht rest
  rw [hw] at this
  exact this

/-- C71, violated: the position behind the width of a `tabularx` is not seen: the width is taken for the specification of the columns, and position and specification become
part of the first cell. -/
theorem C71_violated_position {β} (process : Str → Str ⊕ List (FTok β)) (bare : β) (parse : Str → List (FTok β)) (t : TableSrc) (ht : t.Ok) (width : Str)
    (ha : t.args = [([], width)]) (pos spec cells : Str) (hb : t.body = '[' :: (pos ++ ']' :: '{' :: (spec ++ '}' :: cells))) (rest : Str) :
    handle process bare parse (t.write ++ rest) =
      match parseTabular (cellValue bare parse (prepare process ('[' :: (pos ++ ']' :: '{' :: (spec ++ '}' :: rstrip cells)))).2) Value.truthy
          (prepare process ('[' :: (pos ++ ']' :: '{' :: (spec ++ '}' :: rstrip cells)))).1 with
      | none => .raised
      | some rows => .ok ⟨t.env, some (strip width), some rows⟩ t.write.length := by
  have h := C71_head process bare parse t ht rest
  have h1 : t.spec = width := by unfold TableSrc.spec; rw [ha]; rfl
  have h2 : rstrip t.body = '[' :: (pos ++ ']' :: '{' :: (spec ++ '}' :: rstrip cells)) := by
    rw [hb, show '[' :: (pos ++ ']' :: '{' :: (spec ++ '}' :: cells)) = ('[' :: (pos ++ ']' :: '{' :: spec)) ++ '}' :: cells by simp,
      rstrip_append _ _ _ (by decide)]
    simp
  rw [h1, h2] at h
  exact h

/-- C71, violated: `\tabularnewline` in a table between `\tabular` and `\endtabular` is taken for the beginning of a table in it: the table has no end, and its
text is not read as a table. -/
theorem C71_violated_newline : start "\\tabular{cc} a & b \\tabularnewline c & d \\endtabular".toList = .unclosed 8 := by decide +kernel

/-- Without it the table is found. -/
example : start "\\tabular{cc} a & b \\\\ c & d \\endtabular x".toList = .found ⟨"tabular".toList, some "cc".toList, " a & b \\\\ c & d".toList, 39⟩ := by
  decide +kernel

theorem noDelim_of {kw name t : Str} (h : ¬ Contains t kw) : NoDelim kw name t := by
  rintro u d v rfl ⟨ws, _, rfl⟩
  exact h ⟨u, ws ++ '{' :: (name ++ ['}']) ++ v, by simp⟩

theorem plain_body {name t : Str} (h1 : ¬ Contains t "\\begin".toList) (h2 : ¬ Contains t "\\end".toList) : EnvBody name t :=
  .plain t (noDelim_of h1) (noDelim_of h2)

theorem not_in {t k : Str} (hk : k ≠ []) (h : (findSub k t).isNone = true) : ¬ Contains t k := by
  rw [← findSub_contains k hk t]; cases hf : findSub k t <;> simp_all

/-- A table without end. -/
example : handle (fun s => .inl s) 0 (fun s => [⟨some s, none, 0⟩]) "\\begin{tabular*}{cc} a & b".toList = .none 16 :=
  C71_unclosed _ _ _ [] "tabular".toList true "{cc} a & b".toList (by simp) (by decide) (noDelim_of (not_in (by decide) (by decide +kernel)))

/-- A table with a position, a width and a specification. -/
def _root_.L2J.Spec.sampleTable (body : Str) : TableSrc :=
  ⟨[' '], "tabularx".toList, true, some ([' '], ['t']), [([], "4cm".toList), (['\n'], "l|@{}c ".toList)], body, []⟩

theorem sample_ok (body : Str) (h1 : ¬ Contains (sampleTable body).inner "\\begin".toList) (h2 : ¬ Contains (sampleTable body).inner "\\end".toList) : (sampleTable body).Ok := by
  refine ⟨by simp [sampleTable]; decide, by simp [sampleTable], by simp [sampleTable, tableKinds], ?_, ?_, .inl rfl, plain_body h1 h2⟩
  · intro p hp
    simp only [sampleTable, Option.mem_def, Option.some.injEq] at hp
    subst hp
    refine ⟨by decide, ?_⟩
    unfold Wrappable Balanced
    decide +kernel
  · intro e he
    simp only [sampleTable, List.mem_cons, List.not_mem_nil, or_false] at he
    rcases he with rfl | rfl
    · refine ⟨by decide, ?_⟩
      unfold Wrappable Balanced
      decide +kernel
    · refine ⟨by decide, ?_⟩
      unfold Wrappable Balanced
      decide +kernel

/-- A table with two formulas in it: the token has both, where they were. -/
example : handle (fun _ => .inr [⟨some "Size ".toList, none, 0⟩, ⟨none, none, 7⟩, ⟨some " of & b \\\\ c &".toList, none, 0⟩, ⟨none, none, 8⟩]) 0
    (fun s => if s = [] then [] else [⟨some s, none, 0⟩]) ((sampleTable " Size $x$ of & b \\\\ c & $y$\n".toList).write ++ " more".toList) =
    .ok ⟨"tabularx*".toList, some "l|@{}c".toList,
      some [[.plain (.toks [⟨some "Size ".toList, none, 0⟩, ⟨none, none, 7⟩, ⟨some " of".toList, none, 0⟩]), .plain (.text ['b'])],
        [.plain (.text ['c']), .plain (.toks [⟨none, none, 8⟩])]]⟩ (sampleTable " Size $x$ of & b \\\\ c & $y$\n".toList).write.length := by
  have hw : ∀ s : Str, ('\\' ∉ s ∧ '{' ∉ s ∧ '}' ∉ s ∧ '&' ∉ s) → (findSub "|REF_".toList s).isNone = true → Word s := fun s h1 h2 =>
    ⟨h1.1, h1.2.1, h1.2.2.1, h1.2.2.2, not_in (by decide) h2⟩
  have hc : ∀ (c : RCell Nat), c ∈ ([⟨[("Size ".toList, ⟨none, none, 7⟩)], " of ".toList⟩, ⟨[], " b ".toList⟩] : List (RCell Nat)) ∨
      c ∈ ([⟨[], " c ".toList⟩, ⟨[([], ⟨none, none, 8⟩)], []⟩] : List (RCell Nat)) → c.Ok := by
    intro c hc
    simp only [List.mem_cons, List.not_mem_nil, or_false] at hc
    rcases hc with (rfl | rfl) | rfl | rfl
    all_goals
      refine ⟨?_, hw _ (by decide) (by decide)⟩
      intro e he
      simp only [List.mem_cons, List.not_mem_nil, or_false] at he
    · subst he; exact ⟨hw _ (by decide) (by decide), rfl⟩
    · subst he; exact ⟨hw _ (by decide) (by decide), rfl⟩
  have hb : rstrip (sampleTable " Size $x$ of & b \\\\ c & $y$\n".toList).body = " Size $x$ of & b \\\\ c & $y$".toList := by decide +kernel
  rw [C71_objects _ 0 _ (sampleTable " Size $x$ of & b \\\\ c & $y$\n".toList)
    (sample_ok _ (not_in (by decide) (by decide +kernel)) (not_in (by decide) (by decide +kernel))) " more".toList
    (by rw [hb]; exact ⟨not_in (by decide) (by decide +kernel), not_in (by decide) (by decide +kernel), not_in (by decide) (by decide +kernel), not_in (by decide) (by decide +kernel)⟩)
    [[⟨[("Size ".toList, ⟨none, none, 7⟩)], " of ".toList⟩, ⟨[], " b ".toList⟩], [⟨[], " c ".toList⟩, ⟨[([], ⟨none, none, 8⟩)], []⟩]] (by simp)
    (by
      intro r hr
      simp only [List.mem_cons, List.not_mem_nil, or_false] at hr
      rcases hr with rfl | rfl
      · exact ⟨by simp, fun c h => hc c (.inl h)⟩
      · exact ⟨by simp, fun c h => hc c (.inr h)⟩)
    _ rfl (by decide +kernel) (by
      intro r hr c hc' hne n
      refine ⟨0, if_neg ?_⟩
      intro h0
      have := text_numbered c.trim.last c.trim.parts n
      have h2 := trim_objs c
      rw [show (⟨c.trim.parts, c.trim.last⟩ : RCell Nat) = c.trim from rfl, h0] at this
      cases hp : c.trim.parts with
      | nil => rw [hp] at h2; exact hne (by simpa using h2.symm)
      | cons e l => rw [hp, numberRuns, cellText_cons, refKey_eq] at this; simp at this)]
  rfl

/-- A table with a span of two columns. -/
example : handle (fun s => .inl s) 0 (fun s => if s = [] then [] else [⟨some s, none, 0⟩])
    ((sampleTable "\\multicolumn{2}{c}{both} \\\\ a & b ".toList).write) =
    .ok ⟨"tabularx*".toList, some "l|@{}c".toList, some [[.span (.text "both".toList) 1 2], [.plain (.text ['a']), .plain (.text ['b'])]]⟩
      (sampleTable "\\multicolumn{2}{c}{both} \\\\ a & b ".toList).write.length := by
  have hb : rstrip (sampleTable "\\multicolumn{2}{c}{both} \\\\ a & b ".toList).body =
      tableText [[⟨[], .cols ⟨[], ['2'], [], ['c'], []⟩ "both".toList, [' ']⟩], [⟨[' '], .text ['a'], [' ']⟩, ⟨[' '], .text ['b'], []⟩]] := by decide +kernel
  have e := C71_spans_partial (fun s => .inl s) 0 (fun s => if s = [] then [] else [⟨some s, none, 0⟩])
    (sampleTable "\\multicolumn{2}{c}{both} \\\\ a & b ".toList) (sample_ok _ (not_in (by decide) (by decide +kernel)) (not_in (by decide) (by decide +kernel))) []
    [[⟨[], .cols ⟨[], ['2'], [], ['c'], []⟩ "both".toList, [' ']⟩], [⟨[' '], .text ['a'], [' ']⟩, ⟨[' '], .text ['b'], []⟩]] (by simp)
    (by
      intro r hr
      have hq : ∀ s : Str, '\\' ∉ s → Quiet s := fun s h => ⟨contains_nobs h, contains_nobs h, contains_nobs h, contains_nobs h⟩
      simp only [List.mem_cons, List.not_mem_nil, or_false] at hr
      rcases hr with rfl | rfl <;> refine ⟨by simp, ?_⟩ <;> intro c hc <;> simp only [List.mem_cons, List.not_mem_nil, or_false] at hc
      · subst hc
        refine ⟨by simp, by decide, ⟨by simp, by simp, by simp, by simp, by decide, ?_, raw_plain (by decide)⟩, ?_, raw_plain (by decide), hq _ (by decide), hq _ (by decide)⟩ <;>
        · unfold Wrappable Balanced
          decide +kernel
      · rcases hc with rfl | rfl
        · exact ⟨by decide, by decide, (text_ok (t := ['a']) (by decide)).2.2⟩
        · exact ⟨by decide, by decide, (text_ok (t := ['b']) (by decide)).2.2⟩)
    hb (not_in (by decide) (by decide +kernel)) (by
      intro x hx
      have : (extractStructures (tableText [[⟨[], .cols ⟨[], ['2'], [], ['c'], []⟩ "both".toList, [' ']⟩], [⟨[' '], .text ['a'], [' ']⟩, ⟨[' '], .text ['b'], []⟩]])).2 =
          [("`|TABLE_STRUCT_0|`".toList, "\\multicolumn{2}{c}{both}".toList)] := by decide +kernel
      rw [this] at hx
      simp only [List.mem_cons, List.not_mem_nil, or_false] at hx
      subst hx
      exact not_in (by decide) (by decide +kernel)) rfl
  rw [List.append_nil] at e
  rw [e]
  rfl

theorem one_arg_ok (body : Str) (h0 : (body.dropWhile isSpace).head? ≠ some '{')
    (h1 : ¬ Contains (⟨[], "tabularx".toList, false, none, [([], "4cm".toList)], body, []⟩ : TableSrc).inner "\\begin".toList)
    (h2 : ¬ Contains (⟨[], "tabularx".toList, false, none, [([], "4cm".toList)], body, []⟩ : TableSrc).inner "\\end".toList) :
    (⟨[], "tabularx".toList, false, none, [([], "4cm".toList)], body, []⟩ : TableSrc).Ok := by
  refine ⟨by simp, by simp, by simp [tableKinds], by simp, ?_, .inr ⟨rfl, h0⟩, plain_body h1 h2⟩
  intro e he
  simp only [List.mem_cons, List.not_mem_nil, or_false] at he
  subst he
  refine ⟨by simp, ?_⟩
  unfold Wrappable Balanced
  decide +kernel

/-- `\begin{tabularx}{4cm}[t]{lc}a & b\end{tabularx}`: the specification of the columns is "4cm". -/
example : handle (fun s => .inl s) 0 (fun s => [⟨some s, none, 0⟩])
    ((⟨[], "tabularx".toList, false, none, [([], "4cm".toList)], "[t]{lc}a & b".toList, []⟩ : TableSrc).write ++ []) =
    .ok ⟨"tabularx".toList, some "4cm".toList, some [[.plain (.text "[t]{lc}a".toList), .plain (.text ['b'])]]⟩ 47 := by
  have e := C71_violated_position (fun s => .inl s) 0 (fun s => [⟨some s, none, 0⟩]) _ (one_arg_ok "[t]{lc}a & b".toList (by decide) (not_in (by decide) (by decide +kernel)) (not_in (by decide) (by decide +kernel)))
    "4cm".toList rfl ['t'] "lc".toList "a & b".toList rfl []
  exact e.trans rfl

/-- `\begin{tabular}{cc}{A x} & B\end{tabular}`: the specification of the columns is "A x", and the first cell is empty. -/
example : handle (fun s => .inl s) 0 (fun s => if s = [] then [] else [⟨some s, none, 0⟩])
    ((⟨[], "tabular".toList, false, none, [([], "cc".toList)], "{A x} & B".toList, []⟩ : TableSrc).write ++ []) =
    .ok ⟨"tabular".toList, some "A x".toList, some [[.plain .null, .plain (.text ['B'])]]⟩ 41 := by
  have ht : (⟨[], "tabular".toList, false, none, [([], "cc".toList), ([], "A x".toList)], " & B".toList, []⟩ : TableSrc).Ok := by
    refine ⟨by simp, by simp, by simp [tableKinds], by simp, ?_, .inl rfl, plain_body (not_in (by decide) (by decide +kernel)) (not_in (by decide) (by decide +kernel))⟩
    intro e he
    simp only [List.mem_cons, List.not_mem_nil, or_false] at he
    rcases he with rfl | rfl
    all_goals
      refine ⟨by simp, ?_⟩
      unfold Wrappable Balanced
      decide +kernel
  rw [C71_violated_group (fun s => .inl s) 0 _ ⟨[], "tabular".toList, false, none, [([], "cc".toList)], "{A x} & B".toList, []⟩ "cc".toList [] "A x".toList " & B".toList rfl rfl ht []]
  rfl

end L2J.Tab
