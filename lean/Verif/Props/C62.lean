import Verif.Lemmas.May
import Verif.Model.Formatting
import Verif.Props.C61e
import Verif.Spec.Layout
/-! C62: layout commands leave no trace. First, which pattern of the table decides. -/
namespace L2J.Fmt
open Defn Cmds L2J.Spec

/-- The patterns, alternative by alternative. -/
def flat (l : List Entry) : List (Act × Alt) := l.flatMap fun e => e.alts.map fun a => (e.act, a)

/-- The first alternative that matches. -/
def firstAlt (s : Str) : List (Act × Alt) → Option (Act × Match)
  | [] => none
  | (x, a) :: l =>
    match a.re.matchAt [] s with
    | some m => some (x, m)
    | none => firstAlt s l

theorem firstAlt_append (s : Str) : ∀ (k l : List (Act × Alt)), firstAlt s (k ++ l) = (firstAlt s k).or (firstAlt s l)
  | [], l => by simp [firstAlt]
  | (x, a) :: k, l => by
    simp only [List.cons_append, firstAlt]
    cases a.re.matchAt [] s with
    | some m => rfl
    | none => exact firstAlt_append s k l

theorem alts_first (s : Str) (x : Act) : ∀ (l : List Alt), firstAlt s (l.map fun a => (x, a)) = ((altsRe l).matchAt [] s).map fun m => (x, m)
  | [] => rfl
  | a :: l => by
    have ih := alts_first s x l
    simp only [List.map_cons, firstAlt, altsRe, ih, Re.matchAt_eq]
    rw [show (Re.alt a.re (altsRe l)).run ⟨[], s, []⟩ = a.re.run ⟨[], s, []⟩ ++ (altsRe l).run ⟨[], s, []⟩ from rfl]
    cases h : a.re.run ⟨[], s, []⟩ <;> simp

theorem firstEntry_flat (s : Str) : ∀ (l : List Entry), (firstEntry s l).map (fun e => (e.1.act, e.2)) = firstAlt s (flat l)
  | [] => rfl
  | e :: l => by
    have ih := firstEntry_flat s l
    unfold flat at *
    rw [List.flatMap_cons, firstAlt_append, alts_first, ← ih]
    rw [show firstEntry s (e :: l) = (match (altsRe e.alts).matchAt [] s with | some m => some (e, m) | none => firstEntry s l) from rfl]
    cases (altsRe e.alts).matchAt [] s <;> simp

theorem handleWith_flat (fmt : Str → Option Str → Str) (l : List Entry) (s : Str) : handleWith fmt l s =
    match firstAlt s (flat l) with
    | none => .ok ⟨.nothing, 0, false⟩
    | some (x, m) => x.run fmt s m := by
  rw [← firstEntry_flat]
  unfold handleWith
  cases firstEntry s l <;> rfl

/-- The alternative does not match on the word, whatever comes behind it. -/
def altMiss (a : Alt) (w : Str) : Bool :=
  if a.head.isPrefixOf w then (a.tail.may (w.drop a.head.length)).isEmpty
  else if w.isPrefixOf a.head then (a.head.drop w.length).head?.any isNameChar
  else true

theorem prefix_split {a b X : Str} (h : a <+: b ++ X) : a <+: b ∨ ∃ c t, a = b ++ c :: t ∧ c :: t <+: X := by
  obtain ⟨r, hr⟩ := h
  rcases List.append_eq_append_iff.1 hr with ⟨u, h1, h2⟩ | ⟨u, h1, h2⟩
  · exact .inl ⟨u, h1.symm⟩
  · cases u with
    | nil => exact .inl ⟨[], by simpa using h1⟩
    | cons c t => exact .inr ⟨c, t, h1, ⟨r, h2.symm⟩⟩

theorem altMiss_dead {a : Alt} {w X : Str} (h : altMiss a w = true) (hX : NameEnds X) : Dead a.re (w ++ X) := by
  unfold Alt.re
  unfold altMiss at h
  by_cases h1 : a.head.isPrefixOf w = true
  · rw [if_pos h1] at h
    rw [List.isPrefixOf_iff_prefix] at h1
    obtain ⟨t, rfl⟩ := h1
    rw [List.drop_left] at h
    intro rev g
    rw [show (Re.seq (.group 0 (.lit a.head)) a.tail).run ⟨rev, a.head ++ t ++ X, g⟩ = ((Re.group 0 (.lit a.head)).run ⟨rev, a.head ++ t ++ X, g⟩).flatMap a.tail.run from rfl]
    show (((Re.lit a.head).run ⟨rev, a.head ++ t ++ X, g⟩).map _).flatMap _ = []
    rw [Re.run_lit, if_pos (by rw [List.isPrefixOf_iff_prefix, List.append_assoc]; exact ⟨_, rfl⟩)]
    simp only [List.map_cons, List.map_nil, List.flatMap_cons, List.flatMap_nil, List.append_nil]
    rw [List.append_assoc, List.drop_left]
    exact may_dead h X _ _
  · rw [if_neg h1] at h
    rw [List.isPrefixOf_iff_prefix] at h1
    refine Dead.seq (Dead.group 0 (Dead.lit fun hp => ?_))
    rcases prefix_split hp with h2 | ⟨c, t, h2, h3⟩
    · exact h1 h2
    · rw [if_pos (by rw [List.isPrefixOf_iff_prefix]; exact ⟨_, h2.symm⟩), h2, List.drop_left] at h
      obtain ⟨r, hr⟩ := h3
      have := hX c (by rw [← hr]; simp)
      simp [this] at h

/-- The alternative the word belongs to. -/
def scan (w : Str) : List (Act × Alt) → Option (Act × Alt)
  | [] => none
  | (x, a) :: l => if a.head = w then some (x, a) else if altMiss a w then scan w l else none

theorem scan_hit {w t rest : Str} {x : Act} {a : Alt} {g} (hX : NameEnds (t ++ rest)) (ht : Eats a.tail t rest [(0, w)] g) : ∀ {l : List (Act × Alt)}, scan w l = some (x, a) →
    firstAlt (w ++ (t ++ rest)) l = some (x, ⟨[], w ++ (t ++ rest), w.length + t.length, g⟩)
  | [], h => by cases h
  | (y, b) :: l, h => by
    unfold scan at h
    split at h
    · rename_i hb
      injection h with h; injection h with h1 h2
      subst h1 h2
      have := (Eats.seq (Eats.group 0 (Eats.lit b.head (t ++ rest) [])) (hb ▸ ht)).matchAt []
      subst hb
      rw [List.append_assoc, List.length_append] at this
      unfold firstAlt
      rw [show b.re.matchAt [] (b.head ++ (t ++ rest)) = _ from this]
    · split at h
      · rename_i hm
        unfold firstAlt
        rw [(altMiss_dead hm hX).matchAt []]
        exact scan_hit hX ht h
      · cases h

theorem scan_split {w t rest : Str} {x : Act} {a : Alt} {g} (hX : NameEnds (t ++ rest)) (ht : Eats a.tail t rest [(0, w)] g) (y : Act) (b : Alt) (hb : Dead b.re (w ++ (t ++ rest))) :
    ∀ {k l : List (Act × Alt)}, scan w (k ++ l) = some (x, a) →
    firstAlt (w ++ (t ++ rest)) (k ++ (y, b) :: l) = some (x, ⟨[], w ++ (t ++ rest), w.length + t.length, g⟩)
  | [], l, h => by
    simp only [List.nil_append, firstAlt, hb.matchAt []]
    exact scan_hit hX ht h
  | (z, c) :: k, l, h => by
    simp only [List.cons_append, scan] at h
    split at h
    · rename_i hc
      injection h with h; injection h with h1 h2
      subst h1 h2
      have := (Eats.seq (Eats.group 0 (Eats.lit c.head (t ++ rest) [])) (hc ▸ ht)).matchAt []
      subst hc
      rw [List.append_assoc, List.length_append] at this
      simp only [List.cons_append, firstAlt]
      rw [show c.re.matchAt [] (c.head ++ (t ++ rest)) = _ from this]
    · split at h
      · rename_i hm
        simp only [List.cons_append, firstAlt]
        rw [(altMiss_dead hm hX).matchAt []]
        exact scan_split hX ht y b hb h
      · cases h

/-! `\...maketitle`. -/

def makeTail : Re := .seq (.opt nameRe) (.seq (.lit "maketitle".toList) wordEnd)

theorem mem_charRuns (p : Char → Bool) (g : List (Nat × Str)) : ∀ (rest rev : Str) (st : MSt), st ∈ charRuns p g rev rest → ∃ x, rest = x ++ st.rest ∧ ∀ c ∈ x, p c = true
  | [], rev, st, h => by simp [charRuns] at h; exact ⟨[], by simp [h], by simp⟩
  | y :: rest, rev, st, h => by
    unfold charRuns at h
    split at h
    · rename_i hp
      rcases List.mem_append.1 h with h | h
      · obtain ⟨x, h1, h2⟩ := mem_charRuns p g rest (y :: rev) st h
        exact ⟨y :: x, by rw [h1]; rfl, by simpa [hp] using h2⟩
      · simp at h; exact ⟨[], by simp [h], by simp⟩
    · simp at h; exact ⟨[], by simp [h], by simp⟩

theorem mem_plus_chr {p : Char → Bool} {st st' : MSt} (h : st' ∈ (Re.plus (.chr p)).run st) : ∃ x, st.rest = x ++ st'.rest ∧ ∀ c ∈ x, p c = true := by
  rw [run_plus_chr] at h
  split at h
  · simp at h
  · rename_i y rest hy
    split at h
    · rename_i hp
      obtain ⟨x, h1, h2⟩ := mem_charRuns _ _ _ _ _ h
      exact ⟨y :: x, by rw [hy, h1]; rfl, by simpa [hp] using h2⟩
    · simp at h

theorem make_dead {n X : Str} (hX : NameEnds X) (hc : ¬ Contains n "maketitle".toList) : Dead makeTail (n ++ X) := by
  intro rev g
  refine List.eq_nil_iff_forall_not_mem.2 fun st hst => ?_
  simp only [makeTail, Re.run, List.mem_flatMap] at hst
  obtain ⟨s1, h1, s2, h2, -⟩ := hst
  have hx : ∃ x, n ++ X = x ++ s1.rest ∧ ∀ c ∈ x, isNameChar c = true := by
    rcases List.mem_append.1 h1 with h | h
    · exact mem_plus_chr h
    · simp [Re.run] at h; exact ⟨[], by simp [h], by simp⟩
  obtain ⟨x, hx, hx2⟩ := hx
  rw [Re.run_lit] at h2
  split at h2
  · rename_i hp
    rw [List.isPrefixOf_iff_prefix] at hp
    obtain ⟨y, hy⟩ := hp
    rw [← hy, ← List.append_assoc] at hx
    have hall : ∀ c ∈ x ++ "maketitle".toList, isNameChar c = true := by
      intro c hc
      rcases List.mem_append.1 hc with h | h
      · exact hx2 c h
      · exact (show ∀ c ∈ "maketitle".toList, isNameChar c = true by decide) c h
    rcases prefix_split ⟨y, hx.symm⟩ with ⟨u, hu⟩ | ⟨c, t, h3, h4⟩
    · exact hc ⟨x, u, hu.symm⟩
    · obtain ⟨r, hr⟩ := h4
      have := hX c (by rw [← hr]; simp)
      rw [hall c (by rw [h3]; simp)] at this
      cases this
  · simp at h2

/-- The list of the patterns without the one for `\...maketitle`. -/
def tableA : List (Act × Alt) := (flat entries).take 14
def tableB : List (Act × Alt) := (flat entries).drop 15

def makeAlt : Alt := ⟨['\\'], makeTail⟩

theorem table_split : flat entries = tableA ++ (Act.drop, makeAlt) :: tableB := rfl

/-- The alternative for a word. -/
def locate (w : Str) : Option (Act × Alt) := scan w (tableA ++ tableB)

/-- A word that does not end in `maketitle`. -/
def notMake (w : Str) : Bool := w.head? == some '\\' && (findSub "maketitle".toList w.tail).isNone

theorem notMake_dead {w X : Str} (h : notMake w = true) (hX : NameEnds X) : Dead makeAlt.re (w ++ X) := by
  unfold notMake at h
  simp only [Bool.and_eq_true, beq_iff_eq, Option.isNone_iff_eq_none] at h
  obtain ⟨h1, h3⟩ := h
  cases w with
  | nil => cases h1
  | cons c n =>
    simp at h1
    subst h1
    refine fun rev g => ?_
    have hd : Dead makeTail (n ++ X) := make_dead hX fun hab => by
      have := (findSub_contains _ (by decide) _).2 hab
      rw [show findSub "maketitle".toList n = none from h3] at this
      cases this
    show (((Re.lit ['\\']).run ⟨rev, '\\' :: (n ++ X), g⟩).map _).flatMap _ = []
    rw [Re.run_lit, if_pos (by simp)]
    simp only [List.map_cons, List.map_nil, List.flatMap_cons, List.flatMap_nil, List.append_nil, List.length_cons, List.length_nil, List.drop_succ_cons, List.drop_zero]
    exact hd _ _

/-- The pattern of the word decides. -/
theorem handle_word (fmt : Str → Option Str → Str) {w t rest : Str} {x : Act} {a : Alt} {g} (hl : locate w = some (x, a)) (hm : notMake w = true) (hX : NameEnds (t ++ rest))
    (ht : Eats a.tail t rest [(0, w)] g) :
    handle fmt (w ++ (t ++ rest)) = x.run fmt (w ++ (t ++ rest)) ⟨[], w ++ (t ++ rest), w.length + t.length, g⟩ := by
  unfold handle
  rw [handleWith_flat, table_split, scan_split hX ht Act.drop makeAlt (notMake_dead hm hX) hl]

/-- The position of the alternative. -/
def scanPos (w : Str) : List (Act × Alt) → Nat → Option Nat
  | [], _ => none
  | (_, a) :: l, n => if a.head = w then some n else if altMiss a w then scanPos w l (n + 1) else none

theorem scan_pos {w : Str} : ∀ {l : List (Act × Alt)} {n i : Nat}, scanPos w l n = some i → n ≤ i ∧ scan w l = l[i - n]?
  | [], _, _, h => by cases h
  | (x, a) :: l, n, i, h => by
    unfold scanPos at h
    unfold scan
    split at h
    · rename_i ha
      injection h with h; subst h
      simp [ha]
    · rename_i ha
      split at h
      · rename_i hm
        obtain ⟨h1, h2⟩ := scan_pos h
        rw [if_neg ha, if_pos hm, h2, show i - n = (i - (n + 1)) + 1 by omega, List.getElem?_cons_succ]
        exact ⟨by omega, rfl⟩
      · cases h

def table : List (Act × Alt) := tableA ++ tableB

theorem locate_at {w : Str} {i : Nat} {x : Act × Alt} (h : scanPos w table 0 = some i) (h2 : table[i]? = some x) : locate w = some x := by
  rw [show locate w = scan w table from rfl, (scan_pos h).2, Nat.sub_zero]
  exact h2

theorem locate_all {ws : List String} {ps : List Nat} {f : String → Act × Alt} (h1 : ws.map (fun w => scanPos w.toList table 0) = ps.map some)
    (h2 : ps.map (fun i => table[i]?) = ws.map fun w => some (f w)) {w : String} (hw : w ∈ ws) : locate w.toList = some (f w) := by
  induction ws generalizing ps with
  | nil => cases hw
  | cons v ws ih =>
    cases ps with
    | nil => cases h1
    | cons i ps =>
      simp only [List.map_cons, List.cons.injEq] at h1 h2
      rcases List.mem_cons.1 hw with rfl | hw
      · exact locate_at h1.1 h2.1
      · exact ih h1.2 h2.2 hw

theorem _root_.L2J.Spec.WordEnds.name {X : Str} (h : WordEnds X) : NameEnds X := by
  intro c hc
  obtain ⟨h1, h2⟩ := h c hc
  simp only [isWord, Bool.or_eq_false_iff] at h1
  simp [isNameChar, isLetter, h1, h2]

theorem wordEnd_eats {rest : Str} {g} (h : WordEnds rest) : Eats wordEnd [] rest g g := by
  intro rev
  have : (Re.chr isWord).run ⟨rev, rest, g⟩ = [] := Dead.chr isWord (fun c hc => (h c hc).1) rev g
  show (if ((Re.chr isWord).run ⟨rev, rest, g⟩).isEmpty then [_] else []).head? = _
  rw [this]
  rfl

/-! Words. -/

theorem silent_at {w : String} (hw : w ∈ silentWords) : locate w.toList = some (.drop, ⟨w.toList, wordEnd⟩) :=
  locate_all (f := fun w => (.drop, ⟨w.toList, wordEnd⟩)) (ps := [10, 14, 15, 16, 17, 22, 23, 27, 28, 29, 30, 31, 32, 33, 34, 35, 36, 37, 38, 39, 40, 41, 42, 43, 44, 45, 46, 47, 48, 64,
    65, 66, 67, 68, 69, 70, 71, 72, 73, 74, 75, 76, 84, 91, 92, 115, 116, 118, 119, 135, 159, 160, 161, 162, 164, 165, 166,
    177, 178, 181, 182, 183, 184, 191, 202, 210, 211, 212, 213, 214, 215, 216, 217, 218, 219, 220, 221, 233, 234, 238, 239])
    (by decide +kernel) rfl hw

theorem line_at {w : String} (hw : w ∈ lineWords) : locate w.toList = some (.text ['\n'], ⟨w.toList, wordEnd⟩) :=
  locate_all (f := fun w => (.text ['\n'], ⟨w.toList, wordEnd⟩)) (ps := [49, 50, 51, 52, 53, 54, 55, 56]) (by decide +kernel) rfl hw

theorem blank_at {w : String} (hw : w ∈ blankWords) : locate w.toList = some (.spacing, ⟨w.toList, .eps⟩) :=
  locate_all (f := fun w => (.spacing, ⟨w.toList, .eps⟩)) (ps := [120, 121, 122, 123, 124, 125, 126]) (by decide +kernel) rfl hw

/-- C62: a layout command without an argument leaves nothing, and nothing else is taken. -/
theorem C62_silent (fmt : Str → Option Str → Str) (w : String) (hw : w ∈ silentWords) (rest : Str) (hr : WordEnds rest) :
    handle fmt (w.toList ++ rest) = .ok ⟨.nothing, w.toList.length, false⟩ := by
  have := handle_word fmt (silent_at hw) ((show ∀ w ∈ silentWords, notMake w.toList = true by decide +kernel) w hw) (t := []) (Spec.WordEnds.name hr) (wordEnd_eats hr)
  simpa [Act.run, Match.stop] using this

/-- C62: a command that ends the page or the line leaves a newline. -/
theorem C62_line (fmt : Str → Option Str → Str) (w : String) (hw : w ∈ lineWords) (rest : Str) (hr : WordEnds rest) :
    handle fmt (w.toList ++ rest) = .ok ⟨.text ['\n'], w.toList.length, false⟩ := by
  have := handle_word fmt (line_at hw) ((show ∀ w ∈ lineWords, notMake w.toList = true by decide +kernel) w hw) (t := []) (Spec.WordEnds.name hr) (wordEnd_eats hr)
  simpa [Act.run, Match.stop] using this

/-- C62: a command for a blank leaves a blank. -/
theorem C62_blank (fmt : Str → Option Str → Str) (w : String) (hw : w ∈ blankWords) (rest : Str) (hr : NameEnds rest) :
    handle fmt (w.toList ++ rest) = .ok ⟨.text [' '], w.toList.length, false⟩ := by
  have := handle_word fmt (blank_at hw) ((show ∀ w ∈ blankWords, notMake w.toList = true by decide +kernel) w hw) (t := []) hr (Eats.eps _ _)
  rw [List.nil_append] at this
  have ht : Match.text ⟨[], w.toList ++ rest, w.toList.length + ([] : Str).length, [(0, w.toList)]⟩ = w.toList := by simp [Match.text]
  rw [this]
  simp only [Act.run, ht]
  rw [if_neg ((show ∀ w ∈ blankWords, w.toList ≠ "\\!".toList by decide +kernel) w hw)]
  simp [Match.stop]

example : handle (fun n _ => n) "\\noindent\\textbf{x}".toList = .ok ⟨.nothing, 9, false⟩ := by decide +kernel
example : WordEnds "\\textbf{x}".toList := by unfold WordEnds; decide +kernel
example : handle (fun n _ => n) "\\newpage Text".toList = .ok ⟨.text ['\n'], 8, false⟩ := by decide +kernel
example : handle (fun n _ => n) "\\quad x".toList = .ok ⟨.text [' '], 5, false⟩ := by decide +kernel

end L2J.Fmt
