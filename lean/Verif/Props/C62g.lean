import Verif.Props.C62f
/-! C62: where the property fails. -/
namespace L2J.Fmt
open Defn Cmds L2J.Spec

/-- The alternative does not match on the word, whatever comes behind it, also if the name goes on. -/
def altMissAny (a : Alt) (w : Str) : Bool :=
  if a.head.isPrefixOf w then (a.tail.may (w.drop a.head.length)).isEmpty
  else !w.isPrefixOf a.head

theorem altMissAny_dead {a : Alt} {w X : Str} (h : altMissAny a w = true) : Dead a.re (w ++ X) := by
  unfold altMissAny at h
  by_cases h1 : a.head.isPrefixOf w = true
  · rw [if_pos h1] at h
    intro rev g
    rw [List.isPrefixOf_iff_prefix] at h1
    obtain ⟨t, rfl⟩ := h1
    rw [List.drop_left] at h
    show (((Re.lit a.head).run ⟨rev, a.head ++ t ++ X, g⟩).map _).flatMap _ = []
    rw [Re.run_lit, if_pos (by rw [List.isPrefixOf_iff_prefix, List.append_assoc]; exact ⟨_, rfl⟩)]
    simp only [List.map_cons, List.map_nil, List.flatMap_cons, List.flatMap_nil, List.append_nil]
    rw [List.append_assoc, List.drop_left]
    exact may_dead h X _ _
  · rw [if_neg h1] at h
    rw [List.isPrefixOf_iff_prefix] at h1
    refine Dead.seq (Dead.group 0 (Dead.lit fun hp => ?_))
    rcases prefix_split hp with h2 | ⟨c, t, h2, h3⟩
    · exact h1 h2
    · rw [List.isPrefixOf_iff_prefix.2 ⟨_, h2.symm⟩] at h; cases h

theorem make_dead_any {n : Str} (hc : ¬ Contains n "maketitle".toList) : Dead makeAlt.re ('\\' :: n) := by
  have hd : Dead makeTail n := by
    intro rev g
    refine List.eq_nil_iff_forall_not_mem.2 fun st hst => ?_
    simp only [makeTail, Re.run, List.mem_flatMap] at hst
    obtain ⟨s1, h1, s2, h2, -⟩ := hst
    have hx : ∃ x, n = x ++ s1.rest := by
      rcases List.mem_append.1 h1 with h | h
      · obtain ⟨x, h, _⟩ := mem_plus_chr h; exact ⟨x, h⟩
      · simp [Re.run] at h; exact ⟨[], by simp [h]⟩
    obtain ⟨x, hx⟩ := hx
    obtain ⟨e, _⟩ := lit_inv h2
    exact hc ⟨x, s2.rest, by rw [hx, e, List.append_assoc]⟩
  intro rev g
  show (((Re.lit ['\\']).run ⟨rev, '\\' :: n, g⟩).map _).flatMap _ = []
  rw [Re.run_lit, if_pos (by simp)]
  simp only [List.map_cons, List.map_nil, List.flatMap_cons, List.flatMap_nil, List.append_nil, List.length_cons, List.length_nil, List.drop_succ_cons, List.drop_zero]
  exact hd _ _

/-- C62 fails for `\quad` (and `\space`, ...): there is no check that the name ends, so `\quadratic`, a command of the author's, is a blank and the text `ratic`. -/
theorem C62_violated_name_goes_on (fmt : Str → Option Str → Str) (X : Str) (h : ¬ Contains ("quad".toList ++ X) "maketitle".toList) :
    handle fmt ("\\quad".toList ++ X) = .ok ⟨.text [' '], 5, false⟩ := by
  have hm : ∀ p ∈ table.take 120, altMissAny p.2 "\\quad".toList = true := by decide +kernel
  have hsplit : flat entries = tableA ++ (Act.drop, makeAlt) :: ((tableB.take 106) ++ (Act.spacing, ⟨"\\quad".toList, .eps⟩) :: tableB.drop 107) := rfl
  have hmem : ∀ p, p ∈ tableA ∨ p ∈ tableB.take 106 → p ∈ table.take 120 := by
    intro p hp
    have : table.take 120 = tableA ++ tableB.take 106 := rfl
    rw [this]
    exact List.mem_append.2 hp
  unfold handle
  rw [handleWith_flat, hsplit, firstAlt_append, firstAlt_none (fun p hp => altMissAny_dead (hm p (hmem p (.inl hp))))]
  simp only [Option.none_or]
  have hd : Dead makeAlt.re ("\\quad".toList ++ X) := make_dead_any h
  rw [show firstAlt ("\\quad".toList ++ X) ((Act.drop, makeAlt) :: ((tableB.take 106) ++ (Act.spacing, ⟨"\\quad".toList, .eps⟩) :: tableB.drop 107)) =
    firstAlt ("\\quad".toList ++ X) ((tableB.take 106) ++ (Act.spacing, ⟨"\\quad".toList, .eps⟩) :: tableB.drop 107) by
      conv => lhs; unfold firstAlt
      rw [hd.matchAt []],
    firstAlt_append, firstAlt_none (fun p hp => altMissAny_dead (hm p (hmem p (.inr hp))))]
  simp only [Option.none_or]
  have hq := (Eats.seq (Eats.group 0 (Eats.lit "\\quad".toList X [])) (Eats.eps X _)).matchAt []
  unfold firstAlt
  rw [List.append_nil] at hq
  rw [show Alt.re ⟨"\\quad".toList, .eps⟩ = Re.seq (.group 0 (.lit "\\quad".toList)) .eps from rfl, hq]
  simp only
  unfold Act.run
  have : Match.text ⟨[], "\\quad".toList ++ X, "\\quad".toList.length, [(0, "\\quad".toList)]⟩ = "\\quad".toList := by
    simp only [Match.text]; rw [List.take_left]
  simp only [this]
  rfl

/-- C62 fails for `\labelsep`: all that follows, up to the next closing brace, is lost. -/
theorem C62_violated_labelsep (fmt : Str → Option Str → Str) (ws X rest : Str) (hws : Blank ws) (hX : '}' ∉ X) (h : ∀ c ∈ X.head?, isSpace c = false ∧ c ≠ '{') (hn : NameEnds (ws ++ X))
    (hr : rest = [] ∨ rest.head? = some '}') (hn2 : ws ++ X ≠ []) :
    ∃ n, handle fmt ("\\labelsep".toList ++ (ws ++ X ++ rest)) = .ok ⟨.nothing, n, false⟩ ∧ ("\\labelsep".toList ++ (ws ++ X)).length ≤ n := by
  obtain ⟨y, r, hy, hyr⟩ : ∃ y r, rest = y ++ r ∧ ∀ g, Eats (.opt (.lit ['}'])) y r g g := by
    rcases hr with rfl | hr
    · exact ⟨[], [], rfl, fun g => Eats.optNone (Dead.char (by simp))⟩
    · cases rest with
      | nil => cases hr
      | cons c rest => simp at hr; subst hr; exact ⟨['}'], rest, rfl, fun g => Eats.optSome (Eats.lit _ _ _)⟩
  subst hy
  have hy2 : ∀ c ∈ (y ++ r).head?, c = '}' := by
    rcases hr with hr | hr
    · rw [hr]; simp
    · intro c hc; rw [hr] at hc; simpa using hc.symm
  have hx2 : ∀ c ∈ (X ++ (y ++ r)).head?, isSpace c = false ∧ c ≠ '{' := by
    cases X with
    | nil => intro c hc; rw [hy2 c hc]; decide
    | cons a b => intro c hc; exact h c hc
  have ht : ∀ g, Eats (Fmt.ws (.seq (.opt (.lit ['{'])) (.seq (.star (.chr (· != '}'))) (.opt (.lit ['}']))))) (ws ++ ([] ++ (X ++ y))) r g g := by
    intro g
    refine ws_eats hws ?_ (Eats.seq (Eats.optNone (Dead.char fun hh => ?_)) (Eats.seq (Eats.star_chr _ (fun c hc => by simp; rintro rfl; exact hX hc) (fun c hc => ?_)) (hyr g)))
    · intro c hc; rw [List.nil_append, List.append_assoc] at hc; exact (hx2 c hc).1
    · rw [List.append_assoc] at hh; exact (hx2 '{' hh).2 rfl
    · rw [hy2 c hc]; rfl
  have hX2 : NameEnds (ws ++ ([] ++ (X ++ y)) ++ r) := by
    intro c hc
    cases hw : ws ++ X with
    | nil => exact absurd hw hn2
    | cons a b =>
      apply hn
      rw [show ws ++ ([] ++ (X ++ y)) ++ r = (ws ++ X) ++ (y ++ r) by simp, hw] at hc
      rw [hw]; exact hc
  have := handle_word fmt (locate_at (w := "\\labelsep".toList) (i := 167) (x := (.drop, ⟨"\\labelsep".toList, _⟩)) (by decide +kernel) rfl) (by decide +kernel) hX2 (ht _)
  refine ⟨_, by rw [show ws ++ X ++ (y ++ r) = ws ++ ([] ++ (X ++ y)) ++ r by simp, this]; rfl, ?_⟩
  generalize "\\labelsep".toList = w
  simp [Match.stop]

example : handle (fun n _ => n) "\\labelsep 2pt\nAll of the chapter is lost.".toList = .ok ⟨.nothing, 41, false⟩ := by decide +kernel

/-- C62 fails for `\textbackslash`: there come two backslashes, which are a line break for the next reader. -/
theorem C62_violated_textbackslash (fmt : Str → Option Str → Str) (rest : Str) (hr : WordEnds rest) :
    handle fmt ("\\textbackslash".toList ++ rest) = .ok ⟨.text ['\\', '\\'], 14, false⟩ := by
  have := handle_word fmt (locate_at (w := "\\textbackslash".toList) (i := 198) (x := (.text ['\\', '\\'], ⟨"\\textbackslash".toList, wordEnd⟩)) (by decide +kernel) rfl) (by decide +kernel)
    (t := []) (Spec.WordEnds.name hr) (wordEnd_eats hr)
  rw [List.nil_append] at this
  rw [this]
  rfl

/-- C62 fails for a group inside the argument of `\hspace`: the argument ends at the first closing brace, and the rest of it stays in the text. -/
theorem C62_violated_group_inside (fmt : Str → Option Str → Str) (a b c rest : Str) (ha : '}' ∉ a) (hb : '}' ∉ b) :
    ∃ n, handle fmt ("\\hspace{".toList ++ (a ++ '{' :: (b ++ '}' :: (c ++ '}' :: rest)))) = .ok ⟨.text [' '], n, false⟩ ∧
      ("\\hspace{".toList ++ (a ++ '{' :: (b ++ '}' :: (c ++ '}' :: rest)))).drop n = c ++ '}' :: rest := by
  have := C62_hspace fmt [] [] (a ++ '{' :: b) (c ++ '}' :: rest) (.inl rfl) (by unfold Blank; simp) (by simp) (by simp [ha, hb])
  have e : "\\hspace{".toList ++ (a ++ '{' :: (b ++ '}' :: (c ++ '}' :: rest))) = ("\\hspace".toList ++ ([] ++ ([] ++ '{' :: ((a ++ '{' :: b) ++ ['}'])))) ++ (c ++ '}' :: rest) := by
    rw [show "\\hspace{".toList = "\\hspace".toList ++ ['{'] by decide]
    generalize "\\hspace".toList = w
    simp
  refine ⟨_, by rw [e, List.append_assoc]; exact this, ?_⟩
  rw [e, List.drop_left]

/-- C62 fails for `\pagebreak[4]`: the argument stays in the text. -/
theorem C62_violated_pagebreak (fmt : Str → Option Str → Str) (w : String) (hw : w ∈ lineWords) (X : Str) :
    handle fmt (w.toList ++ '[' :: X) = .ok ⟨.text ['\n'], w.toList.length, false⟩ :=
  C62_line fmt w hw _ (by intro c hc; simp at hc; subst hc; decide)

/-- C62 fails for a stretchable length: `\parskip 3pt plus 1pt` leaves ` plus 1pt`. -/
theorem C62_violated_glue (fmt : Str → Option Str → Str) (w : String) (hw : w ∈ lengthWords) (ws : Str) (x : LengthText) (X : Str) (hws : Blank ws) (hx : x.Ok) :
    ∃ n, handle fmt (w.toList ++ ((ws ++ x.written) ++ " plus".toList ++ X)) = .ok ⟨.nothing, n, false⟩ ∧ (w.toList ++ ((ws ++ x.written) ++ " plus".toList ++ X)).drop n = " plus".toList ++ X := by
  have := C62_length fmt w hw ws [] [] x (" plus".toList ++ X) hws (by unfold Blank; simp) (.inr ⟨rfl, rfl⟩) hx (by intro c hc; simp at hc; subst hc; decide)
  simp only [List.nil_append] at this
  refine ⟨_, by rw [List.append_assoc (ws ++ x.written)]; exact this, ?_⟩
  generalize " plus".toList = pl
  rw [show w.toList ++ ((ws ++ x.written) ++ pl ++ X) = (w.toList ++ (ws ++ x.written)) ++ (pl ++ X) by simp,
    show w.toList.length + (ws ++ x.written).length = (w.toList ++ (ws ++ x.written)).length from List.length_append.symm, List.drop_left]

/-- C62 fails for `\rule[raise]{width}{height}`: it is not seen. -/
theorem C62_violated_rule (X : Str) (h : ¬ Contains ("rule[".toList ++ X) "maketitle".toList) : canHandle ("\\rule[".toList ++ X) = false := by
  have hm : ∀ p ∈ table, altMissAny p.2 "\\rule[".toList = true := by decide +kernel
  have hd : Dead makeAlt.re ("\\rule[".toList ++ X) := make_dead_any h
  rw [canHandle_flat, firstAlt_none]; rfl
  intro p hp
  rw [table_split] at hp
  rcases List.mem_append.1 hp with hp | hp
  · exact altMissAny_dead (hm p (List.mem_append_left _ hp))
  · rcases List.mem_cons.1 hp with rfl | hp
    · exact hd
    · exact altMissAny_dead (hm p (List.mem_append_right _ hp))

/-- C62 fails for an argument that is not closed: the brace stays in the text. -/
theorem C62_violated_unclosed (fmt : Str → Option Str → Str) (w : String) (hw : w ∈ groupWords) (ws X : Str) (hws : Blank ws) (h : extractNestedContent ('{' :: X) '{' '}' = none) :
    handle fmt (w.toList ++ (ws ++ '{' :: X)) = .ok ⟨.nothing, w.toList.length + ws.length, false⟩ := by
  have := handle_word fmt (group_at hw) ((show ∀ w ∈ groupWords, notMake w.toList = true by decide +kernel) w hw)
    (t := ws ++ ['{']) (rest := X) (by rw [List.append_assoc]; exact head_blank hws space_name (by simp; decide)) (open_eats hws)
  have e : w.toList ++ (ws ++ '{' :: X) = w.toList ++ ((ws ++ ['{']) ++ X) := by simp
  rw [e, this]
  unfold Act.run blockEnd
  simp only [Match.stop, List.length_nil, Nat.zero_add, drop_brace, h]
  simp

/-- C62 fails for `\advance` with a value that has a point: the rest of the number stays in the text. -/
theorem C62_violated_advance : handle (fun n _ => n) "\\advance\\textwidth by 2.5pt x".toList = .ok ⟨.nothing, 23, false⟩ := by decide +kernel

/-- C62 fails: `\break` is listed twice, and the first entry, which leaves no newline, decides. -/
theorem C62_violated_break (fmt : Str → Option Str → Str) (rest : Str) (hr : WordEnds rest) : handle fmt ("\\break".toList ++ rest) = .ok ⟨.nothing, 6, false⟩ :=
  C62_silent fmt "\\break" (by decide) rest hr

/-! A number before the command. -/

/-- The characters of numbers. -/
def _root_.L2J.Spec.numChar (c : Char) : Bool := isDigit c || c == '-' || c == '+' || c == '.'

theorem chr_inv {p : Char → Bool} {st st' : MSt} (h : st' ∈ (Re.chr p).run st) : ∃ c, p c = true ∧ st.rest = c :: st'.rest := by
  unfold Re.run at h
  split at h
  · simp at h
  · rename_i x rest hx
    split at h
    · rename_i hp; simp at h; subst h; exact ⟨x, hp, hx⟩
    · simp at h

theorem numRe_inv {st st' : MSt} (h : st' ∈ numRe.run st) : ∃ x, st.rest = x ++ st'.rest ∧ (∀ c ∈ x, numChar c = true) ∧ ∃ y c, x = y ++ [c] ∧ isDigit c = true := by
  have h : st' ∈ ((Re.opt (.chr fun c => c == '-' || c == '+')).run st).flatMap fun s1 => ((Re.star (.chr isDigit)).run s1).flatMap fun s2 => ((Re.opt (.lit ['.'])).run s2).flatMap (Re.plus (.chr isDigit)).run := h
  simp only [List.mem_flatMap] at h
  obtain ⟨s1, h1, s2, h2, s3, h3, h4⟩ := h
  have a1 : ∃ x, st.rest = x ++ s1.rest ∧ ∀ c ∈ x, numChar c = true := by
    rcases List.mem_append.1 h1 with h | h
    · obtain ⟨c, hc, e⟩ := chr_inv h
      exact ⟨[c], e, by simp only [Bool.or_eq_true, beq_iff_eq] at hc; rcases hc with rfl | rfl <;> simp <;> decide⟩
    · simp [Re.run] at h; exact ⟨[], by simp [h], by simp⟩
  rw [run_star_chr] at h2
  obtain ⟨x2, e2, p2⟩ := mem_charRuns _ _ _ _ _ h2
  have a3 : ∃ x, s2.rest = x ++ s3.rest ∧ ∀ c ∈ x, numChar c = true := by
    rcases List.mem_append.1 h3 with h | h
    · exact ⟨['.'], (lit_inv h).1, by simp; decide⟩
    · simp [Re.run] at h; exact ⟨[], by simp [h], by simp⟩
  obtain ⟨x1, e1, p1⟩ := a1
  obtain ⟨x3, e3, p3⟩ := a3
  obtain ⟨x4, e4, p4⟩ := mem_plus_chr h4
  have h40 : x4 ≠ [] := by
    have := Re.run_minLen (Re.plus (.chr isDigit)) _ _ h4
    rintro rfl
    rw [e4] at this
    simp [Re.plus, Re.minLen] at this
    omega
  have dig : ∀ c, isDigit c = true → numChar c = true := by intro c hc; simp [numChar, hc]
  refine ⟨x1 ++ (x2 ++ (x3 ++ x4)), ?_, ?_, x1 ++ (x2 ++ (x3 ++ x4.dropLast)), x4.getLast h40, ?_, p4 _ (List.getLast_mem h40)⟩
  · rw [e1, e2, e3, e4]; simp
  · intro c hc
    simp only [List.mem_append] at hc
    rcases hc with h | h | h | h
    · exact p1 c h
    · exact dig c (p2 c h)
    · exact p3 c h
    · exact dig c (p4 c h)
  · simp [List.dropLast_concat_getLast h40]

theorem startsNumber_dead {s : Str} (h : ∀ x y, s = x ++ y → (∀ c ∈ x, numChar c = true) → (∃ y c, x = y ++ [c] ∧ isDigit c = true) → False) : startsNumber s = false := by
  unfold startsNumber
  rw [Re.matchAt_eq]
  cases hr : numRe.run ⟨[], s, []⟩ with
  | nil => rfl
  | cons st l =>
    exfalso
    obtain ⟨x, e, p, q⟩ := numRe_inv (st := ⟨[], s, []⟩) (st' := st) (by rw [hr]; simp)
    exact h x _ e p q

theorem digits_start {d : Str} (h0 : d ≠ []) (hd : ∀ c ∈ d, isDigit c = true) : startsNumber d = true := by
  have hok : (⟨[], d, none⟩ : NumText).Ok := ⟨.inl rfl, hd, by simp, fun _ => h0⟩
  have := (num_eats hok (rest := []) (g := []) (by simp)).matchAt []
  simp only [NumText.written, List.nil_append, List.append_nil] at this
  unfold startsNumber
  rw [this]; rfl

/-- C62: before a command such as `\baselineskip`, a number at the end of the text before is removed: what stays is the text up to the last character that is not of the number. -/
theorem C62_strip_number (q d : Str) (c : Char) (hc : numChar c = false) (hn : c ≠ '\n') (hd : ∀ c ∈ d, isDigit c = true) : stripTrailingNumber (q ++ c :: d) = q ++ [c] := by
  have hne : (Re.seq numRe .eos).matchAt [] (q ++ c :: d) = none := by
    rw [Re.matchAt_eq]
    cases hr : (Re.seq numRe .eos).run ⟨[], q ++ c :: d, []⟩ with
    | nil => rfl
    | cons st l =>
      exfalso
      have hst : st ∈ (numRe.run ⟨[], q ++ c :: d, []⟩).flatMap Re.eos.run := by
        rw [show (numRe.run ⟨[], q ++ c :: d, []⟩).flatMap Re.eos.run = (Re.seq numRe .eos).run ⟨[], q ++ c :: d, []⟩ from rfl, hr]; simp
      simp only [List.mem_flatMap] at hst
      obtain ⟨s1, h1, h2⟩ := hst
      obtain ⟨x, e, p, y, z, hx, hz⟩ := numRe_inv h1
      have hrest : s1.rest = [] ∨ s1.rest = ['\n'] := by
        unfold Re.run at h2
        split at h2
        · assumption
        · simp at h2
      simp only at e
      have hmem : c ∈ x ++ s1.rest := by rw [← e]; simp
      rcases List.mem_append.1 hmem with h | h
      · rw [p c h] at hc; cases hc
      · rcases hrest with h3 | h3
        · rw [h3] at h; cases h
        · rw [h3] at h e
          simp at h
          exact hn h
  have hloop : ∀ (e : Str), (∀ c ∈ e, isDigit c = true) → ∀ i, i ≤ e.length → startsNumber ((q ++ c :: e).drop (q.length + 1 + i)) = true ∨ i = e.length := by
    intro e he i hi
    rcases Nat.lt_or_ge i e.length with h | h
    · left
      rw [show q ++ c :: e = (q ++ [c]) ++ e by simp, show q.length + 1 + i = (q ++ [c]).length + i by simp, ← List.drop_drop, List.drop_left]
      exact digits_start (by intro h2; have := congrArg List.length h2; simp at this; omega) (fun c hc => he c (List.mem_of_mem_drop hc))
    · right; omega
  unfold stripTrailingNumber
  rw [if_neg (by simp), hne]
  simp only [Option.isSome_none, Bool.false_eq_true, if_false]
  have key : ∀ i, i ≤ d.length → lastNonNumber (q ++ c :: d) (q.length + 1 + i) = q ++ [c] := by
    intro i
    induction i with
    | zero =>
      intro _
      have : startsNumber ((q ++ c :: d).drop q.length) = false := by
        rw [List.drop_left]
        refine startsNumber_dead fun x y e p ⟨u, v, hx, hv⟩ => ?_
        cases x with
        | nil => simp at hx
        | cons a b => simp at e; rw [← e.1] at p; rw [p c (by simp)] at hc; cases hc
      show (if startsNumber ((q ++ c :: d).drop q.length) then _ else (q ++ c :: d).take (q.length + 1)) = _
      rw [this]
      simp [List.take_append]
      exact List.take_of_length_le (by omega)
    | succ i ih =>
      intro hi
      have h1 : startsNumber ((q ++ c :: d).drop (q.length + 1 + i)) = true := by
        rcases hloop d hd i (by omega) with h | h
        · exact h
        · omega
      show (if startsNumber ((q ++ c :: d).drop (q.length + 1 + i)) then lastNonNumber (q ++ c :: d) (q.length + 1 + i) else _) = _
      rw [h1, if_pos rfl]
      exact ih (by omega)
  have hl : (q ++ c :: d).length = q.length + 1 + d.length := by simp; omega
  rw [hl]
  exact key _ (Nat.le_refl _)

/-- C62: a text that is nothing but a number is removed altogether. -/
theorem C62_strip_number_alone (n : NumText) (h : n.Ok) : stripTrailingNumber n.written = [] := by
  by_cases h0 : n.written.isEmpty = true
  · unfold stripTrailingNumber; rw [if_pos h0]; exact List.isEmpty_iff.1 h0
  · have he : Eats (Re.seq numRe .eos) (n.written ++ []) [] [] [] :=
      Eats.seq (num_eats h (by simp)) (fun rev => by unfold Hd; simp [Re.run])
    have hm := he.matchAt []
    simp only [List.append_nil] at hm
    unfold stripTrailingNumber
    rw [if_neg h0, hm]
    rfl

/-- The alternative without a fixed beginning at a position of the list decides if the ones before do not match. -/
theorem handle_open (fmt : Str → Option Str → Str) {w rest : Str} {i : Nat} {x : Act} {r : Re} {g} (hi : table[i]? = some (x, ⟨[], r⟩)) (hm : ∀ p ∈ table.take i, altMiss p.2 w = true)
    (h14 : 14 ≤ i) (hmk : notMake w = true) (hX : NameEnds rest) (ht : Eats r w rest [(0, [])] g) :
    handle fmt (w ++ rest) = x.run fmt (w ++ rest) ⟨[], w ++ rest, w.length, g⟩ := by
  have hB : tableB = tableB.take (i - 14) ++ (x, ⟨[], r⟩) :: tableB.drop (i - 14 + 1) := by
    have hl : i < table.length := (List.getElem?_eq_some_iff.1 hi).1
    have hlen : tableA.length = 14 := by decide +kernel
    have hc : table = tableA ++ tableB := rfl
    have hg : tableB[i - 14]? = some (x, ⟨[], r⟩) := by
      rw [← hi, hc, List.getElem?_append_right (by omega), hlen]
    obtain ⟨hlt, he⟩ := List.getElem?_eq_some_iff.1 hg
    conv => lhs; rw [← List.take_append_drop (i - 14) tableB]
    rw [List.drop_eq_getElem_cons hlt, he]
  have hmem : ∀ p, p ∈ tableA ∨ p ∈ tableB.take (i - 14) → p ∈ table.take i := by
    intro p hp
    have hlen : tableA.length = 14 := by decide +kernel
    rw [show table = tableA ++ tableB from rfl, List.take_append, hlen, List.mem_append]
    rcases hp with hp | hp
    · exact .inl (by rw [List.take_of_length_le (by omega)]; exact hp)
    · exact .inr hp
  unfold handle
  rw [handleWith_flat, table_split, hB, firstAlt_append, firstAlt_none (fun p hp => altMiss_dead (hm p (hmem p (.inl hp))) hX)]
  simp only [Option.none_or]
  rw [show firstAlt (w ++ rest) ((Act.drop, makeAlt) :: (tableB.take (i - 14) ++ (x, ⟨[], r⟩) :: tableB.drop (i - 14 + 1))) =
    firstAlt (w ++ rest) (tableB.take (i - 14) ++ (x, ⟨[], r⟩) :: tableB.drop (i - 14 + 1)) by
      conv => lhs; unfold firstAlt
      rw [(notMake_dead hmk hX).matchAt []],
    firstAlt_append, firstAlt_none (fun p hp => altMiss_dead (hm p (hmem p (.inr hp))) hX)]
  simp only [Option.none_or]
  have hq := (Eats.seq (Eats.group 0 (Eats.lit [] (w ++ rest) [])) (a := .group 0 (.lit [])) (b := r) (x := []) (y := w) (g1 := [(0, [])]) ht).matchAt []
  rw [List.nil_append] at hq
  unfold firstAlt
  rw [show Alt.re ⟨[], r⟩ = Re.seq (.group 0 (.lit [])) r from rfl, hq]

theorem num_slash {t : Str} (g) : Eats (.opt numRe) [] ('\\' :: t) g g :=
  Eats.optNone (may_dead (w := ['\\']) (by decide +kernel) t)

/-- C62: the units `\p@` and `\z@` vanish, and the number before them does too. -/
theorem C62_units (fmt : Str → Option Str → Str) (w : String) (hw : w = "\\p@" ∨ w = "\\z@") (rest : Str) (hr : NameEnds rest) :
    handle fmt (w.toList ++ rest) = .ok ⟨.nothing, 3, true⟩ := by
  have key : ∀ c, (c == 'p' || c == 'z') = true → Eats (.seq (.opt numRe) (.seq (.lit ['\\']) (.seq (.chr fun c => c == 'p' || c == 'z') (.seq (.lit ['@']) (.nlook (.chr isNameChar))))))
      ['\\', c, '@'] rest [(0, [])] [(0, [])] := by
    intro c hc
    refine Eats.seq (x := []) (g1 := [(0, [])]) (num_slash _) (Eats.seq (x := ['\\']) (y := [c, '@']) (g1 := [(0, [])]) (Eats.lit _ _ _)
      (Eats.seq (x := [c]) (y := ['@']) (g1 := [(0, [])]) (Eats.chr _ hc) (Eats.seq (x := ['@']) (y := []) (g1 := [(0, [])]) (Eats.lit _ _ _) ?_)))
    intro rev
    cases rest with
    | nil => simp [Hd, Re.run]
    | cons x rest => simp [Hd, Re.run, hr x (by simp)]
  rcases hw with rfl | rfl
  · exact handle_open fmt (w := "\\p@".toList) (i := 223) (by rfl) (by decide +kernel) (by decide) (by decide +kernel) hr (key 'p' rfl)
  · exact handle_open fmt (w := "\\z@".toList) (i := 223) (by rfl) (by decide +kernel) (by decide) (by decide +kernel) hr (key 'z' rfl)

example : handle (fun n _ => n) "\\p@ x".toList = .ok ⟨.nothing, 3, true⟩ := by decide +kernel

theorem digit_nospace' {c : Char} (h : isSpace c = true) : isDigit c = false := by
  cases hd : isDigit c with
  | false => rfl
  | true => rw [Envs.digit_nospace c hd] at h; cases h

/-- C62: `\baselineskip` without a length behind it vanishes, and the number before it does too. -/
theorem C62_baselineskip (fmt : Str → Option Str → Str) (ws rest : Str) (hws : Blank ws)
    (hr : ∀ c ∈ rest.head?, c = '\\' ∨ (layoutStart c = false ∧ isSpace c = false ∧ isNameChar c = false)) :
    handle fmt ("\\baselineskip".toList ++ (ws ++ rest)) = .ok ⟨.nothing, "\\baselineskip".toList.length, true⟩ := by
  have hs : ∀ c ∈ rest.head?, isSpace c = false := fun c hc => by
    rcases hr c hc with rfl | h
    · decide
    · exact h.2.1
  have hn : NameEnds (ws ++ rest) := head_blank hws space_name fun c hc => by
    rcases hr c hc with rfl | h
    · decide
    · exact h.2.2
  have hd : Dead numRe rest := by
    cases rest with
    | nil => 
      intro rev g
      refine List.eq_nil_iff_forall_not_mem.2 fun x hx => ?_
      have h1 := Re.run_minLen _ _ _ hx
      have h2 : numRe.minLen = 1 := by decide
      rw [h2] at h1
      simp at h1
    | cons c t =>
      rcases hr c (by simp) with rfl | h
      · exact may_dead (w := ['\\']) (by decide +kernel) t
      · exact num_dead h.1
  have hb : ∀ c t, isSpace c = true → Dead numRe (c :: t) := fun c t hc => num_dead (by
    simp only [layoutStart, Bool.or_eq_false_iff, beq_eq_false_iff_ne]
    refine ⟨⟨⟨⟨⟨?_, ?_⟩, ?_⟩, ?_⟩, ?_⟩, digit_nospace' hc⟩ <;> (rintro rfl; revert hc; decide))
  have ht : Eats (.seq (.opt numRe) (.seq (.lit "\\baselineskip".toList) (.opt (Fmt.ws pointsRe)))) "\\baselineskip".toList (ws ++ rest) [(0, [])] [(0, [])] := by
    refine Eats.seq (x := []) (y := "\\baselineskip".toList) (g1 := [(0, [])]) (num_slash (t := "baselineskip".toList ++ (ws ++ rest)) _) ?_
    have := Eats.seq (x := "\\baselineskip".toList) (y := []) (rest := ws ++ rest) (g1 := [(0, [])]) (Eats.lit _ _ _) (Eats.optNone (a := Fmt.ws pointsRe) (g := [(0, [])])
      (Dead.spaces hws hs (fun c t hc => Dead.seq (hb c t hc)) (Dead.seq hd)))
    rwa [List.append_nil] at this
  rw [handle_open fmt (w := "\\baselineskip".toList) (i := 114) (by rfl) (by decide +kernel) (by decide) (by decide +kernel) hn ht]
  unfold Act.run
  have h1 : Match.text ⟨[], "\\baselineskip".toList ++ (ws ++ rest), "\\baselineskip".toList.length, [(0, [])]⟩ = "\\baselineskip".toList := by
    simp only [Match.text]; rw [List.take_left]
  simp only [h1]
  rfl

end L2J.Fmt
