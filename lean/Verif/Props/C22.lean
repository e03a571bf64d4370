import Verif.Lemmas.Tabular
import Verif.Lemmas.EnvBlock
import Verif.Props.C01
import Verif.Spec.Wrapped
/-! C22: table rows and cells are split only at top-level separators. -/
namespace L2J
open Spec

/-- C22, what the code does for every text: the parts are the stretches between the leftmost non-overlapping
cuts, stripped; for rows the empty ones are dropped. `RawCutAt` counts escaped braces as braces. -/
theorem C22_split_raw (content d : Str) (hd : d ≠ []) (hb1 : '{' ∉ d) (hb2 : '}' ∉ d) :
    ∃ ps, Pieces content (RawCutAt content d) d.length 0 ps ∧ joinWith d ps = content ∧
      splitLatexContent content d false = ps.map strip ∧
      splitLatexContent content d true = (ps.map strip).filter (fun p => !p.isEmpty) := by
  have h := splitRaw_pieces d hd hb1 hb2 content.length content (Nat.le_refl _) [] 0 [] 0
    (Nat.le_refl _) (by simp [slice]) rfl (by intro j _ h; simp at h)
  refine ⟨splitRaw d 0 [] 0 [] content, h, ?_, splitLoop_cells .., splitLoop_rows ..⟩
  have := pieces_join (d := d) (fun i (hi : RawCutAt content d i) => hi.1) h
  simpa using this

/-- C22 for cells (`split_latex_content(row, "&")`), for every row without escaped braces: the parts are exactly the
stretches between the unescaped separators outside braces, stripped; rejoining the unstripped parts gives the
row back. -/
theorem C22_cells_partial (row : Str) (hne : NoEscapedBrace row) (cells : List Str) :
    splitLatexContent row ['&'] false = cells ↔
      ∃ ps, Pieces row (CutAt row ['&']) 1 0 ps ∧ joinWith ['&'] ps = row ∧ cells = ps.map strip := by
  obtain ⟨ps, h1, h2, h3, _⟩ := C22_split_raw row ['&'] (by simp) (by decide) (by decide)
  have hc : ∀ i, RawCutAt row ['&'] i ↔ CutAt row ['&'] i := fun i => by
    unfold RawCutAt CutAt; rw [rawLevel_eq_level row hne]
  have h1' := pieces_congr hc h1
  constructor
  · rintro rfl; exact ⟨ps, h1', h2, h3⟩
  · rintro ⟨qs, g1, _, rfl⟩
    rw [h3, pieces_unique (by simp) h1' g1]

/-- C22 for rows (`split_rows`), for every table body without escaped braces. -/
theorem C22_rows_partial (body : Str) (hne : NoEscapedBrace body) (rows : List Str) :
    splitRows body = rows ↔
      ∃ ps, Pieces body (CutAt body ['\\', '\\']) 2 0 ps ∧ joinWith ['\\', '\\'] ps = body ∧
        rows = (ps.map strip).filter (fun p => !p.isEmpty) := by
  obtain ⟨ps, h1, h2, _, h3⟩ := C22_split_raw body ['\\', '\\'] (by simp) (by decide) (by decide)
  have hc : ∀ i, RawCutAt body ['\\', '\\'] i ↔ CutAt body ['\\', '\\'] i := fun i => by
    unfold RawCutAt CutAt; rw [rawLevel_eq_level body hne]
  have h1' := pieces_congr hc h1
  unfold splitRows
  constructor
  · rintro rfl; exact ⟨ps, h1', h2, h3⟩
  · rintro ⟨qs, g1, _, rfl⟩
    rw [h3, pieces_unique (by simp) h1' g1]

/-- A row in which a brace, escaped or not, is opened before the first separator and nothing is closed is one cell. -/
theorem single_cell (a b : Str) (ha : ∀ c ∈ a, c ≠ '&' ∧ c ≠ '{' ∧ c ≠ '}') (hb : '}' ∉ b) :
    splitLatexContent (a ++ '\\' :: '{' :: b) ['&'] false = [strip (a ++ '\\' :: '{' :: b)] := by
  have inner : ∀ (b : Str), '}' ∉ b → ∀ rev (lvl : Int) cur, 0 < lvl →
      splitRaw ['&'] 0 rev lvl cur b = [cur.reverse ++ b] := by
    intro b
    induction b with
    | nil => intro _ rev lvl cur _; simp [splitRaw]
    | cons x b ih =>
      intro hb rev lvl cur hl
      simp only [List.mem_cons, not_or] at hb
      simp only [splitRaw]
      split
      · rw [ih hb.2 _ _ _ (by omega)]; simp
      · rw [if_neg (fun h => hb.1 h.symm)]
        rw [if_neg (by simp; intro _ h; omega), ih hb.2 _ _ _ hl]; simp
  have outer : ∀ (a : Str), (∀ c ∈ a, c ≠ '&' ∧ c ≠ '{' ∧ c ≠ '}') → ∀ rev cur,
      splitRaw ['&'] 0 rev 0 cur (a ++ '\\' :: '{' :: b) = [cur.reverse ++ (a ++ '\\' :: '{' :: b)] := by
    intro a
    induction a with
    | nil =>
      intro _ rev cur
      simp only [List.nil_append, splitRaw]
      rw [if_neg (by decide), if_neg (by decide), if_neg (by simp [startsWith, List.isPrefixOf]), if_pos trivial]
      rw [inner b hb _ _ _ (by omega)]; simp
    | cons x a ih =>
      intro ha rev cur
      obtain ⟨h1, h2, h3⟩ := ha x (by simp)
      simp only [List.cons_append, splitRaw]
      rw [if_neg h2, if_neg h3, if_neg (by simp [startsWith, List.isPrefixOf, h1.symm])]
      rw [ih (fun c hc => ha c (by simp [hc]))]; simp
  unfold splitLatexContent
  rw [splitLoop_cells, outer a ha]
  simp

/-- C22, violated by the code: escaped braces are counted. After `\{` at top level, no separator cuts any more
until a `\}`: for every plain `a` and `b` and every `c` without closing braces, the row `a \{ b & c` is returned
as a single cell although its separator is unescaped and outside braces. -/
theorem C22_violated_escaped_brace (a b c : Str)
    (ha : ∀ x ∈ a, x ≠ '&' ∧ x ≠ '{' ∧ x ≠ '}' ∧ x ≠ '\\')
    (hb : ∀ x ∈ b, x ≠ '&' ∧ x ≠ '{' ∧ x ≠ '}' ∧ x ≠ '\\') (hc : '}' ∉ c) :
    let row := a ++ '\\' :: '{' :: (b ++ '&' :: c)
    splitLatexContent row ['&'] false = [strip row] ∧ CutAt row ['&'] (a.length + 2 + b.length) := by
  intro row
  refine ⟨single_cell a _ (fun x hx => ⟨(ha x hx).1, (ha x hx).2.1, (ha x hx).2.2.1⟩) ?_, ?_, ?_, ?_⟩
  · simp only [List.mem_append, List.mem_cons, not_or]
    exact ⟨fun h => (hb _ h).2.2.1 rfl, by decide, hc⟩
  · have : row.drop (a.length + 2 + b.length) = '&' :: c := by
      have : row = (a ++ '\\' :: '{' :: b) ++ '&' :: c := by simp [row]
      rw [this, List.drop_append_of_le_length (by simp; omega), List.drop_eq_nil_of_le (by simp; omega)]
      rfl
    rw [this]
    simp
  · have h := escapedAt_zip ((a ++ '\\' :: '{' :: b).reverse) ('&' :: c)
    have e : (a ++ '\\' :: '{' :: b).reverse.reverse ++ '&' :: c = row := by simp [row]
    have l : (a ++ '\\' :: '{' :: b).reverse.length = a.length + 2 + b.length := by simp; omega
    rw [e, l] at h
    rw [h, ← List.reverse_reverse b]
    generalize hr : b.reverse = r
    cases r with
    | nil => simp [isEscaped_cons]
    | cons y r =>
      have : y ≠ '\\' := (hb y (by rw [← List.mem_reverse, hr]; simp)).2.2.2
      simp [isEscaped_cons, this]
  · have plain : ∀ (p s q : Str), (∀ x ∈ s, x ≠ '&' ∧ x ≠ '{' ∧ x ≠ '}' ∧ x ≠ '\\') →
        level (p ++ (s ++ q)) '{' '}' (p.length + s.length) = level (p ++ (s ++ q)) '{' '}' p.length := by
      intro p s
      induction s generalizing p with
      | nil => intro q _; rfl
      | cons x s ih =>
        intro q hs
        have h1 := ih (p ++ [x]) q (fun y hy => hs y (by simp [hy]))
        have h2 := level_zip_succ p.reverse (s ++ q) x '{' '}'
        obtain ⟨g1, g2, g3, g4⟩ := hs x (by simp)
        simp only [List.reverse_reverse, List.length_reverse, delta, beq_eq_false_iff_ne.2 g2,
          beq_eq_false_iff_ne.2 g3, Bool.false_and, Bool.false_eq_true, if_false, Int.add_zero] at h2
        simp only [List.append_assoc, List.singleton_append, List.length_append, List.length_singleton] at h1
        simp only [List.cons_append, List.length_cons]
        rw [show p.length + (s.length + 1) = p.length + 1 + s.length by omega, h1, h2]
    have e1 : row = (a ++ ['\\', '{']) ++ (b ++ '&' :: c) := by simp [row]
    have h1 := plain (a ++ ['\\', '{']) b ('&' :: c) hb
    rw [← e1] at h1
    simp only [List.length_append, List.length_cons, List.length_nil] at h1
    have h2 := plain [] a ('\\' :: '{' :: (b ++ '&' :: c)) ha
    simp only [List.nil_append, List.length_nil, Nat.zero_add, level] at h2
    have h3 := level_zip_succ a.reverse ('{' :: (b ++ '&' :: c)) '\\' '{' '}'
    have h4 := level_zip_succ ('\\' :: a.reverse) (b ++ '&' :: c) '{' '{' '}'
    have hesc : isEscaped a.reverse = false := by
      generalize hr : a.reverse = r
      cases r with
      | nil => rfl
      | cons y r =>
        have : y ≠ '\\' := (ha y (by rw [← List.mem_reverse, hr]; simp)).2.2.2
        simp [isEscaped_cons, this]
    simp only [List.reverse_cons, List.reverse_reverse, List.length_cons, List.length_reverse, List.append_assoc,
      List.singleton_append, delta, isEscaped_cons, hesc] at h3 h4
    simp at h3 h4
    change level row '{' '}' (a.length + (0 + 1 + 1) + b.length) = 0
    rw [h1]
    change level row '{' '}' (a.length + 1 + 1) = 0
    show level (a ++ '\\' :: '{' :: (b ++ '&' :: c)) '{' '}' (a.length + 1 + 1) = 0
    rw [h4, h3, h2]

/-- `split_cells` keeps a cell in which neither `\makecell` nor `\shortstack` occurs. -/
theorem C22_split_cells (row : Str)
    (h : ∀ c ∈ splitLatexContent row ['&'] false, searchWith matchMakecell c = none) :
    splitCells row = (splitLatexContent row ['&'] false).map some := by
  unfold splitCells
  apply List.map_congr_left
  intro c hc
  simp [h c hc]

/-- The optional argument of `\makecell`, as written. -/
def Spec.cellOption : Option (Str × Str) → Str
  | none => []
  | some (ws, a) => ws ++ '[' :: (a ++ [']'])

theorem spacesBrace_hit (ws r : Str) (hws : ∀ x ∈ ws, isSpace x = true) : spacesBrace (ws ++ '{' :: r) = some (ws.length + 1) := by
  unfold spacesBrace
  rw [takeWhile_ws ws r hws]
  simp

theorem spacesBracket_hit (ws a r : Str) (hws : ∀ x ∈ ws, isSpace x = true) (ha : ']' ∉ a) :
    spacesBracket (ws ++ '[' :: (a ++ ']' :: r)) = some (ws.length + a.length + 2) := by
  unfold spacesBracket
  have h1 : (ws ++ '[' :: (a ++ ']' :: r)).takeWhile isSpace = ws := by
    rw [List.takeWhile_append_of_pos hws]
    simp [show isSpace '[' = false by decide]
  have h2 : (a ++ ']' :: r).takeWhile (· != ']') = a := by
    rw [List.takeWhile_append_of_pos]
    · simp
    · intro x hx; simp only [bne_iff_ne]; rintro rfl; exact ha hx
  simp [h1, h2]

theorem spacesBracket_miss (ws r : Str) (hws : ∀ x ∈ ws, isSpace x = true) : spacesBracket (ws ++ '{' :: r) = none := by
  unfold spacesBracket
  rw [takeWhile_ws ws r hws]
  simp

theorem searchWith_skip {m : Str → Option Nat} : ∀ (pre s : Str) (e : Nat), (∀ x ∈ pre, ∀ t, m (x :: t) = none) → m s = some e →
    s ≠ [] → searchWith m (pre ++ s) = some (pre.length, pre.length + e)
  | [], s, e, _, h, hs => by
    cases s with
    | nil => exact absurd rfl hs
    | cons c s => simp [searchWith, h]
  | x :: pre, s, e, hp, h, hs => by
    have ih := searchWith_skip pre s e (fun y hy => hp y (by simp [hy])) h hs
    rw [List.cons_append, searchWith, hp x (by simp) _, ih]
    simp; omega

theorem matchMakecell_miss {x : Char} (hx : x ≠ '\\') (t : Str) : matchMakecell (x :: t) = none := by
  have h' : ¬ '\\' = x := fun h => hx h.symm
  simp [matchMakecell, startsWith, List.isPrefixOf, h']

theorem matchMakecell_hit (name : Str) (hn : name = "\\makecell".toList ∨ name = "\\shortstack".toList)
    (opt : Option (Str × Str)) (ho : ∀ wa, opt = some wa → (∀ x ∈ wa.1, isSpace x = true) ∧ ']' ∉ wa.2) (ws r : Str)
    (hws : ∀ x ∈ ws, isSpace x = true) :
    matchMakecell (name ++ (Spec.cellOption opt ++ (ws ++ '{' :: r))) = some (name.length + (Spec.cellOption opt).length + ws.length + 1) := by
  have key : (spacesBracket (Spec.cellOption opt ++ (ws ++ '{' :: r)) = none ∧
      spacesBrace (Spec.cellOption opt ++ (ws ++ '{' :: r)) = some ((Spec.cellOption opt).length + ws.length + 1)) ∨
      (spacesBracket (Spec.cellOption opt ++ (ws ++ '{' :: r)) = some (Spec.cellOption opt).length ∧
        spacesBrace (ws ++ '{' :: r) = some (ws.length + 1)) := by
    cases opt with
    | none =>
      left
      simp only [Spec.cellOption, List.nil_append, List.length_nil, Nat.zero_add]
      exact ⟨spacesBracket_miss ws r hws, spacesBrace_hit ws r hws⟩
    | some wa =>
      right
      obtain ⟨w0, a⟩ := wa
      obtain ⟨h1, h2⟩ := ho _ rfl
      have e : Spec.cellOption (some (w0, a)) ++ (ws ++ '{' :: r) = w0 ++ '[' :: (a ++ ']' :: (ws ++ '{' :: r)) := by simp [Spec.cellOption]
      have el : (Spec.cellOption (some (w0, a))).length = w0.length + a.length + 2 := by simp [Spec.cellOption]; omega
      rw [el, e]
      exact ⟨spacesBracket_hit w0 a (ws ++ '{' :: r) h1 h2, spacesBrace_hit ws r hws⟩
  have pre : ∀ (n x : Str), startsWith (n ++ x) n = true := by
    intro n x; unfold startsWith; rw [List.isPrefixOf_iff_prefix]; exact List.prefix_append _ _
  unfold matchMakecell
  rcases hn with rfl | rfl
  · rcases key with ⟨k1, k2⟩ | ⟨k1, k2⟩
    · simp only [pre, if_true, List.drop_left, k1, k2, Option.map_some, Option.some_or]
      congr 1; omega
    · simp only [pre, if_true, List.drop_left, k1, k2, Option.map_some, Option.some_or]
      congr 1
  · have hno : startsWith ("\\shortstack".toList ++ (Spec.cellOption opt ++ (ws ++ '{' :: r))) "\\makecell".toList = false := by
      rfl
    rcases key with ⟨k1, k2⟩ | ⟨k1, k2⟩
    · simp only [hno, pre, if_true, List.drop_left, k1, k2, Bool.false_eq_true, if_false, Option.none_or, Option.map_some]
      congr 1; omega
    · simp only [hno, pre, if_true, List.drop_left, k1, k2, Bool.false_eq_true, if_false, Option.none_or, Option.map_some]
      congr 1

/-- **C22, `\makecell`**: a cell with a `\makecell` or `\shortstack` becomes the argument of that command, whatever its braces hold.
(Text before and behind the command in the same cell is lost: see `C22_violated_makecell`.) -/
theorem C22_makecell (row : Str) (i : Nat) (pre name : Str) (opt : Option (Str × Str)) (ws body post : Str) (hpre : '\\' ∉ pre)
    (hn : name = "\\makecell".toList ∨ name = "\\shortstack".toList)
    (ho : ∀ wa, opt = some wa → (∀ x ∈ wa.1, isSpace x = true) ∧ ']' ∉ wa.2) (hws : ∀ x ∈ ws, isSpace x = true)
    (hb : Spec.Wrappable '{' '}' body)
    (hi : (splitLatexContent row ['&'] false)[i]? =
      some (pre ++ (name ++ (Spec.cellOption opt ++ (ws ++ '{' :: (body ++ '}' :: post)))))) :
    (splitCells row)[i]? = some (some body) := by
  have hne : name ++ (Spec.cellOption opt ++ (ws ++ '{' :: (body ++ '}' :: post))) ≠ [] := by simp
  have hs := searchWith_skip pre _ _ (fun x hx t => matchMakecell_miss (fun h => hpre (h ▸ hx)) t)
    (matchMakecell_hit name hn opt ho ws (body ++ '}' :: post) hws) hne
  unfold splitCells
  rw [List.getElem?_map, hi]
  have h1 : (pre ++ (name ++ (Spec.cellOption opt ++ (ws ++ '{' :: (body ++ '}' :: post))))).isEmpty = false := by
    rw [List.isEmpty_eq_false_iff]; simp
  have h2 : (pre ++ (name ++ (Spec.cellOption opt ++ (ws ++ '{' :: (body ++ '}' :: post))))).drop
      (pre.length + (name.length + (Spec.cellOption opt).length + ws.length + 1) - 1) = '{' :: (body ++ '}' :: post) := by
    have e1 : pre.length + (name.length + (Spec.cellOption opt).length + ws.length + 1) - 1 =
        (pre ++ (name ++ (Spec.cellOption opt ++ ws))).length := by simp; omega
    have e2 : pre ++ (name ++ (Spec.cellOption opt ++ (ws ++ '{' :: (body ++ '}' :: post)))) =
        (pre ++ (name ++ (Spec.cellOption opt ++ ws))) ++ '{' :: (body ++ '}' :: post) := by simp
    rw [e1, e2, List.drop_left]
  have ex := C01_round_trip [] body post '{' '}' (by simp) (by decide) (by decide) (by decide) hb.1 hb.2
  rw [List.nil_append] at ex
  simp only [Option.map_some, h1, Bool.false_eq_true, if_false, hs, h2, ex]

/-- **C22 is false with `\makecell`**: what stands beside the command in the cell is lost. -/
theorem C22_violated_makecell : splitCells "total \\makecell{a} 5 & b".toList = [some "a".toList, some "b".toList] := by
  decide +kernel

/- Non-vacuity (tests). -/
example : splitLatexContent "a & {b & c} & \\& d &".toList ['&'] false
    = ["a".toList, "{b & c}".toList, "\\& d".toList, []] := by decide +kernel
example : splitRows "a \\\\ {b \\\\ c} \\\\ \\\\ d\\&".toList
    = ["a".toList, "{b \\\\ c}".toList, "d\\&".toList] := by decide +kernel
example : NoEscapedBrace "a & {b & c} \\& d".toList := by
  intro i h
  by_cases hi : i < 17
  · have : ∀ i, i < 17 → ("a & {b & c} \\& d".toList[i]? = some '{' ∨ "a & {b & c} \\& d".toList[i]? = some '}') →
        escapedAt "a & {b & c} \\& d".toList i = false := by decide +kernel
    exact this i hi h
  · have : "a & {b & c} \\& d".toList[i]? = none := List.getElem?_eq_none (by simp; omega)
    rw [this] at h; simp at h
example : splitLatexContent "a \\{ b & c & d".toList ['&'] false = ["a \\{ b & c & d".toList] := by decide +kernel
example : splitCells "x & \\makecell[l]{a & b} & \\shortstack{u".toList
    = [some "x".toList, some "a & b".toList, none] := by decide +kernel

end L2J
