import Verif.Props.C62c
import Verif.Props.C53
/-! C62, continued: for every text — where the answer ends, when it raises, and that cleaning a formula gets on. -/
namespace L2J.Fmt
open Defn Cmds L2J.Spec

theorem firstAlt_mem {s : Str} {x : Act} {m : Match} : ∀ {l : List (Act × Alt)}, firstAlt s l = some (x, m) → ∃ a, (x, a) ∈ l ∧ a.re.matchAt [] s = some m
  | [], h => by cases h
  | (y, a) :: l, h => by
    unfold firstAlt at h
    split at h
    · rename_i n hn
      injection h with h; injection h with h1 h2
      subst h1 h2
      exact ⟨a, by simp, hn⟩
    · obtain ⟨b, h1, h2⟩ := firstAlt_mem h
      exact ⟨b, by simp [h1], h2⟩

theorem canHandle_flat (s : Str) : canHandle s = (firstAlt s (flat entries)).isSome := by
  rw [← firstEntry_flat]
  unfold canHandle
  cases firstEntry s entries <;> rfl

theorem blockEnd_le (s : Str) (p : Nat) (o c : Char) (ho : o ≠ '\\') (hp : p ≤ s.length) : p + blockEnd (s.drop p) o c ≤ s.length := by
  unfold blockEnd
  split
  · rename_i v e h
    have := (C01_content_balanced _ o c ho v e h).2.1
    rw [List.length_drop] at this
    omega
  · omega

theorem blocks_le (s : Str) (p : Nat) (o c : Char) (hc : c ≠ '\\') (n : Nat) (hp : p ≤ s.length) : p + (seqBlocks (s.drop p) o c (some n)).2 ≤ s.length := by
  have := (C02_position (s.drop p) o c hc n).1
  rw [List.length_drop] at this
  omega

/-- Where an action ends. -/
theorem run_bounds {fmt : Str → Option Str → Str} {x : Act} {s : Str} {m : Match} {r : Result} (h1 : m.stop ≤ s.length) (h2 : 1 ≤ m.stop) (h3 : x ≠ .drop → 2 ≤ m.stop)
    (h : x.run fmt s m = .ok r) : r.stop ≤ s.length ∧ 0 < r.stop := by
  have plain : ∀ (o : Out) (b : Bool), (Except.ok ⟨o, m.stop, b⟩ : Except Unit Result) = .ok r → r.stop ≤ s.length ∧ 0 < r.stop := by
    intro o b h; injection h with h; subst h; exact ⟨h1, h2⟩
  have at_ : ∀ (o : Out) (b : Bool) (k : Nat), x ≠ .drop → m.stop - 1 + k ≤ s.length → (Except.ok ⟨o, m.stop - 1 + k, b⟩ : Except Unit Result) = .ok r → r.stop ≤ s.length ∧ 0 < r.stop := by
    intro o b k hx hk h; injection h with h; subst h; have := h3 hx; exact ⟨hk, by show 0 < m.stop - 1 + k; omega⟩
  cases x with
  | drop => exact plain _ _ h
  | text t => exact plain _ _ h
  | number => exact plain _ _ h
  | strips => exact plain _ _ h
  | lineskip => exact plain _ _ h
  | spacing => exact plain _ _ h
  | nested => exact at_ _ _ _ (by simp) (blockEnd_le s _ '{' '}' (by decide) (by omega)) h
  | blocks n => exact at_ _ _ _ (by simp) (blocks_le s _ '{' '}' (by decide) n (by omega)) h
  | ensuremath => exact at_ _ _ _ (by simp) (blockEnd_le s _ '{' '}' (by decide) (by omega)) h
  | declare => exact at_ _ _ _ (by simp) (blocks_le s _ '{' '}' (by decide) _ (by omega)) h
  | titlecontents =>
    unfold Act.run titleEnd at h
    have := h3 (by simp)
    injection h with h; subst h
    have a1 := blocks_le s (m.stop - 1) '{' '}' (by decide) 1 (by omega)
    have a2 := blocks_le s _ '[' ']' (by decide) 1 a1
    have a3 := blocks_le s _ '{' '}' (by decide) 4 a2
    have a4 := blocks_le s _ '[' ']' (by decide) 1 a3
    exact ⟨a4, by simp only; omega⟩
  | classSetup =>
    unfold Act.run at h
    simp only at h
    split at h
    · exact at_ _ _ _ (by simp) (blockEnd_le s _ '[' ']' (by decide) (by omega)) h
    · exact plain _ _ h
  | phantom =>
    unfold Act.run at h
    simp only at h
    split at h
    · rename_i v e hx
      have := (C01_content_balanced _ '{' '}' (by decide) v e hx).2.1
      rw [List.length_drop] at this
      exact at_ _ _ e (by simp) (by omega) h
    · split at h
      · cases h
      · exact at_ _ _ 0 (by simp) (by omega) h

theorem table_minLen : ∀ p ∈ flat entries, 1 ≤ p.2.re.minLen ∧ (p.1 ≠ .drop → 2 ≤ p.2.re.minLen) := by decide +kernel

theorem handleWith_bounds {fmt : Str → Option Str → Str} {l : List Entry} (hl : ∀ e ∈ l, e ∈ entries) {s : Str} {r : Result} (h : handleWith fmt l s = .ok r) :
    r.stop ≤ s.length ∧ ((firstAlt s (flat l)).isSome = true → 0 < r.stop) ∧ (firstAlt s (flat l) = none → r = ⟨.nothing, 0, false⟩) := by
  rw [handleWith_flat] at h
  cases hf : firstAlt s (flat l) with
  | none => rw [hf] at h; injection h with h; subst h; simp
  | some p =>
    obtain ⟨x, m⟩ := p
    rw [hf] at h
    obtain ⟨a, ha, hm⟩ := firstAlt_mem hf
    have hmem : (x, a) ∈ flat entries := by
      unfold flat at ha ⊢
      simp only [List.mem_flatMap] at ha ⊢
      obtain ⟨e, h1, h2⟩ := ha
      exact ⟨e, hl e h1, h2⟩
    have hb := match_bounds hm
    have ht := table_minLen _ hmem
    have := run_bounds (fmt := fmt) (x := x) hb.2 (Nat.le_trans ht.1 hb.1) (fun hx => Nat.le_trans (ht.2 hx) hb.1) h
    exact ⟨this.1, fun _ => this.2, fun h => by cases h⟩

/-- C62: where the answer ends: never behind the text; behind its start exactly if the text begins with a layout command. -/
theorem C62_bounds (fmt : Str → Option Str → Str) (s : Str) (r : Result) (h : handle fmt s = .ok r) :
    r.stop ≤ s.length ∧ (canHandle s = true ↔ 0 < r.stop) ∧ (canHandle s = false → r = ⟨.nothing, 0, false⟩) := by
  obtain ⟨h1, h2, h3⟩ := handleWith_bounds (fun _ h => h) h
  rw [canHandle_flat]
  refine ⟨h1, ⟨h2, fun h => ?_⟩, fun h => h3 (by simpa using h)⟩
  cases hf : firstAlt s (flat entries) with
  | some p => rfl
  | none => rw [h3 hf] at h; simp at h

/-- C62: the call raises for nothing but a `\hphantom`. -/
theorem C62_raises (fmt : Str → Option Str → Str) (s : Str) (h : handle fmt s = .error ()) : "\\hphantom".toList <+: s := by
  unfold handle at h
  rw [handleWith_flat] at h
  cases hf : firstAlt s (flat entries) with
  | none => rw [hf] at h; cases h
  | some p =>
    obtain ⟨x, m⟩ := p
    rw [hf] at h
    obtain ⟨a, ha, hm⟩ := firstAlt_mem hf
    cases x with
    | phantom =>
      unfold Act.run at h
      simp only at h
      split at h
      · cases h
      · split at h
        · rename_i hs
          unfold startsWith Match.text at hs
          rw [List.isPrefixOf_iff_prefix, (match_rev hm).2] at hs
          exact hs.trans (List.take_prefix _ _)
        · cases h
    | classSetup => unfold Act.run at h; simp only at h; split at h <;> cases h
    | _ => cases h

/-- Where a layout command can begin. -/
def _root_.L2J.Spec.layoutStart (c : Char) : Bool := c == '\\' || c == '%' || c == '-' || c == '+' || c == '.' || isDigit c

theorem num_dead {c : Char} {t : Str} (h : layoutStart c = false) : Dead numRe (c :: t) := by
  simp only [layoutStart, Bool.or_eq_false_iff, beq_eq_false_iff_ne] at h
  obtain ⟨⟨⟨⟨⟨h1, h2⟩, h3⟩, h4⟩, h5⟩, h6⟩ := h
  intro rev g
  have e1 : (Re.opt (.chr fun c => c == '-' || c == '+')).run ⟨rev, c :: t, g⟩ = [⟨rev, c :: t, g⟩] := by simp [Re.opt, Re.run, h3, h4]
  have e2 : (Re.star (.chr isDigit)).run ⟨rev, c :: t, g⟩ = [⟨rev, c :: t, g⟩] := by simp [run_star_chr, charRuns, h6]
  have e3 : (Re.opt (.lit ['.'])).run ⟨rev, c :: t, g⟩ = [⟨rev, c :: t, g⟩] := by
    have : ¬ (c == '.') = true := by simp [h5]
    simp [Re.opt, Re.run, Re.lit, h5]
  have e4 : (Re.plus (.chr isDigit)).run ⟨rev, c :: t, g⟩ = [] := by simp [Re.plus, Re.run, h6]
  show ((Re.opt (.chr fun c => c == '-' || c == '+')).run ⟨rev, c :: t, g⟩).flatMap _ = []
  rw [e1]
  simp only [List.flatMap_cons, List.flatMap_nil, List.append_nil]
  show ((Re.star (.chr isDigit)).run ⟨rev, c :: t, g⟩).flatMap _ = []
  rw [e2]
  simp only [List.flatMap_cons, List.flatMap_nil, List.append_nil]
  show ((Re.opt (.lit ['.'])).run ⟨rev, c :: t, g⟩).flatMap _ = []
  rw [e3]
  simp only [List.flatMap_cons, List.flatMap_nil, List.append_nil]
  exact e4

theorem optNum_dead {c : Char} {t : Str} {b : Re} (h : layoutStart c = false) (hb : Dead b (c :: t)) : Dead (.seq (.opt numRe) b) (c :: t) := by
  intro rev g
  show ((Re.opt numRe).run ⟨rev, c :: t, g⟩).flatMap b.run = []
  rw [show (Re.opt numRe).run ⟨rev, c :: t, g⟩ = numRe.run ⟨rev, c :: t, g⟩ ++ [⟨rev, c :: t, g⟩] from rfl, num_dead h rev g]
  simp only [List.nil_append, List.flatMap_cons, List.flatMap_nil, List.append_nil]
  exact hb rev g

theorem firstAlt_none {s : Str} : ∀ {l : List (Act × Alt)}, (∀ p ∈ l, Dead p.2.re s) → firstAlt s l = none
  | [], _ => rfl
  | (x, a) :: l, h => by
    unfold firstAlt
    rw [(h (x, a) (by simp)).matchAt []]
    exact firstAlt_none fun p hp => h p (by simp [hp])

/-- The table: where its alternatives begin with nothing fixed. -/
theorem table_heads : ∀ p ∈ table, p.2.head = [] ∨ (p.2.head.head?.any fun c => c == '\\' || c == '%') = true := by decide +kernel

theorem table_open_pos : ∀ i ∈ List.range table.length, (table[i]?.any fun p => p.2.head.isEmpty) = true → i = 114 ∨ i = 223 := by decide +kernel

theorem table_open {p : Act × Alt} (hp : p ∈ table) (h : p.2.head = []) :
    p = (Act.lineskip, ⟨[], .seq (.opt numRe) (.seq (.lit "\\baselineskip".toList) (.opt (Fmt.ws pointsRe)))⟩) ∨
    p = (Act.strips, ⟨[], .seq (.opt numRe) (.seq (.lit ['\\']) (.seq (.chr fun c => c == 'p' || c == 'z') (.seq (.lit ['@']) (.nlook (.chr isNameChar)))))⟩) := by
  obtain ⟨i, hi, he⟩ := List.mem_iff_getElem.1 hp
  have h1 : table[i]? = some p := by rw [List.getElem?_eq_getElem hi, he]
  rcases table_open_pos i (by simp [hi]) (by rw [h1]; simp [h]) with rfl | rfl
  · left
    have h2 : table[114]? = some (Act.lineskip, ⟨[], .seq (.opt numRe) (.seq (.lit "\\baselineskip".toList) (.opt (Fmt.ws pointsRe)))⟩) := rfl
    rw [h2] at h1; injection h1 with h1; exact h1.symm
  · right
    have h2 : table[223]? = some (Act.strips, ⟨[], .seq (.opt numRe) (.seq (.lit ['\\']) (.seq (.chr fun c => c == 'p' || c == 'z') (.seq (.lit ['@']) (.nlook (.chr isNameChar)))))⟩) := rfl
    rw [h2] at h1; injection h1 with h1; exact h1.symm

/-- C62: text that begins with neither a command, a comment nor a number is left alone. -/
theorem C62_text (fmt : Str → Option Str → Str) (c : Char) (t : Str) (h : layoutStart c = false) : canHandle (c :: t) = false ∧ handle fmt (c :: t) = .ok ⟨.nothing, 0, false⟩ := by
  have hc : c ≠ '\\' ∧ c ≠ '%' := by
    constructor <;> (rintro rfl; revert h; decide)
  have lits : ∀ (d : Str) (b : Re), (d.head?.any fun c => c == '\\' || c == '%') = true → Dead (Re.seq (.group 0 (.lit d)) b) (c :: t) := by
    intro d b hd
    refine Dead.seq (Dead.group 0 (Dead.lit ?_))
    rintro ⟨u, hu⟩
    cases d with
    | nil => simp at hd
    | cons e d =>
      simp at hu hd
      rw [hu.1] at hd
      rcases hd with h | h
      · exact hc.1 h
      · exact hc.2 h
  have all : ∀ p ∈ flat entries, Dead p.2.re (c :: t) := by
    intro p hp
    rw [table_split] at hp
    by_cases hm : p = (Act.drop, makeAlt)
    · rw [hm]; exact lits ['\\'] makeTail (by decide)
    · have hp : p ∈ table := by
        unfold table
        rcases List.mem_append.1 hp with h | h
        · exact List.mem_append_left _ h
        · rcases List.mem_cons.1 h with h | h
          · exact absurd h hm
          · exact List.mem_append_right _ h
      rcases table_heads p hp with h0 | h0
      · have := table_open hp h0
        have e : ∀ b : Re, Dead b (c :: t) → Dead (Re.seq (.group 0 (.lit [])) b) (c :: t) := by
          intro b hb rev g
          show (((Re.lit []).run ⟨rev, c :: t, g⟩).map _).flatMap b.run = []
          simp only [Re.lit, Re.run, List.map_cons, List.map_nil, List.flatMap_cons, List.flatMap_nil, List.append_nil]
          exact hb _ _
        rcases this with h1 | h1
        · rw [h1]
          refine e _ (optNum_dead h (Dead.seq (Dead.lit ?_)))
          rintro ⟨u, hu⟩
          exact hc.1 (by have := congrArg List.head? hu; simpa using this.symm)
        · rw [h1]
          exact e _ (optNum_dead h (Dead.seq (Dead.char (by simpa using hc.1))))
      · exact lits _ _ h0
  have hn := firstAlt_none all
  constructor
  · rw [canHandle_flat, hn]; rfl
  · unfold handle; rw [handleWith_flat, hn]

example : layoutStart 'T' = false := by decide +kernel

end L2J.Fmt
