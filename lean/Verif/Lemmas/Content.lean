import Verif.Model.Content
import Verif.Lemmas.EnvBlock
/-! Lemmas about the patterns of Model/Content. -/
namespace L2J.Content
open L2J.Cmds

/-- The word `u` is `s` up to case. -/
def ciEq : Str → Str → Bool
  | [], [] => true
  | c :: cs, x :: xs => ciChar c x && ciEq cs xs
  | _, _ => false

theorem ciEq_length : ∀ {s u : Str}, ciEq s u = true → u.length = s.length
  | [], [], _ => rfl
  | c :: cs, x :: xs, h => by
    simp only [ciEq, Bool.and_eq_true] at h
    simp [ciEq_length h.2]
  | [], _ :: _, h => by simp [ciEq] at h
  | _ :: _, [], h => by simp [ciEq] at h

theorem ciLit_run (g : List (Nat × Str)) : ∀ (s rev rest : Str),
    (ciLit s).run ⟨rev, rest, g⟩ =
      if ciEq s (rest.take s.length) then [⟨(rest.take s.length).reverse ++ rev, rest.drop s.length, g⟩] else []
  | [], rev, rest => by simp [ciLit, Re.run, ciEq]
  | c :: cs, rev, [] => by simp [ciLit, Re.run, ciEq]
  | c :: cs, rev, x :: rest => by
    have ih := ciLit_run g cs (x :: rev) rest
    by_cases h : ciChar c x = true
    · simp only [ciLit, Re.run, h, if_true, List.flatMap_cons, List.flatMap_nil, List.append_nil, ih]
      simp [ciEq, h]
    · simp [ciLit, Re.run, h, ciEq]

theorem ciLit_mem {s rev rest : Str} {g} {st : MSt} :
    st ∈ (ciLit s).run ⟨rev, rest, g⟩ ↔ ∃ u t, rest = u ++ t ∧ ciEq s u = true ∧ st = ⟨u.reverse ++ rev, t, g⟩ := by
  rw [ciLit_run]
  constructor
  · intro h
    split at h
    · rename_i hc
      simp at h
      exact ⟨rest.take s.length, rest.drop s.length, by simp, hc, h⟩
    · cases h
  · rintro ⟨u, t, rfl, hc, rfl⟩
    have hl := ciEq_length hc
    rw [← hl, List.take_left, List.drop_left, if_pos hc]
    simp

theorem ciAlts_mem {rev rest : Str} {g} {st : MSt} : ∀ {l : List Str},
    st ∈ (ciAlts l).run ⟨rev, rest, g⟩ ↔
      ∃ u t, rest = u ++ t ∧ (l.any fun w => ciEq w u) = true ∧ st = ⟨u.reverse ++ rev, t, g⟩
  | [] => by simp [ciAlts, Re.run]
  | [w] => by simp [ciAlts, ciLit_mem]
  | w :: w' :: ws => by
    have ih := @ciAlts_mem rev rest g st (w' :: ws)
    simp only [ciAlts, Re.run, List.mem_append, ih, ciLit_mem]
    constructor
    · rintro (⟨u, t, h1, h2, h3⟩ | ⟨u, t, h1, h2, h3⟩)
      · exact ⟨u, t, h1, by simp [h2], h3⟩
      · exact ⟨u, t, h1, by rw [List.any_cons, h2]; simp, h3⟩
    · rintro ⟨u, t, h1, h2, h3⟩
      rw [List.any_cons, Bool.or_eq_true] at h2
      rcases h2 with h2 | h2
      · exact Or.inl ⟨u, t, h1, h2, h3⟩
      · exact Or.inr ⟨u, t, h1, h2, h3⟩

/-- Any number of `sub`, up to case. -/
inductive Subs : Str → Prop
  | nil : Subs []
  | cons (u v : Str) : ciEq "sub".toList u = true → Subs v → Subs (u ++ v)

theorem sub_len {u : Str} (h : ciEq "sub".toList u = true) : u.length = 3 := ciEq_length h

theorem subs_mem {g} {st : MSt} : ∀ (n : Nat) {rev rest : Str}, rest.length ≤ n →
    (st ∈ iterGreedy (ciLit "sub".toList).run n ⟨rev, rest, g⟩ ↔
      ∃ u t, rest = u ++ t ∧ Subs u ∧ st = ⟨u.reverse ++ rev, t, g⟩)
  | 0, rev, rest, h => by
    have : rest = [] := List.length_eq_zero_iff.1 (Nat.le_zero.1 h)
    subst this
    simp only [iterGreedy, List.mem_singleton]
    constructor
    · rintro rfl; exact ⟨[], [], rfl, .nil, rfl⟩
    · rintro ⟨u, t, h1, _, h3⟩
      obtain ⟨rfl, rfl⟩ := List.append_eq_nil_iff.1 h1.symm
      simpa using h3
  | n + 1, rev, rest, h => by
    simp only [iterGreedy, List.mem_append, List.mem_flatMap, List.mem_filter, List.mem_singleton, decide_eq_true_eq]
    constructor
    · rintro (⟨s1, ⟨h1, h2⟩, h3⟩ | rfl)
      · obtain ⟨u, t, rfl, hu, rfl⟩ := ciLit_mem.1 h1
        have hl := sub_len hu
        rw [List.length_append] at h
        obtain ⟨v, t', rfl, hv, rfl⟩ := (subs_mem n (rest := t) (by omega)).1 h3
        exact ⟨u ++ v, t', by simp, .cons u v hu hv, by simp⟩
      · exact ⟨[], rest, rfl, .nil, rfl⟩
    · rintro ⟨u, t, rfl, hu, rfl⟩
      cases hu with
      | nil => right; simp
      | cons u v hu hv =>
        left
        have hl := sub_len hu
        simp only [List.length_append] at h
        refine ⟨⟨u.reverse ++ rev, v ++ t, g⟩, ⟨ciLit_mem.2 ⟨u, v ++ t, by simp, hu, rfl⟩, ?_⟩, ?_⟩
        · simp only [List.length_append]; omega
        · exact (subs_mem n (by simp; omega)).2 ⟨v, t, rfl, hv, by simp⟩

/-- The words a name pattern accepts. -/
def Names.Accepts : Names → Str → Prop
  | .words l, u => (l.any fun w => ciEq w u) = true
  | .subs w, u => ∃ a b, u = a ++ b ∧ Subs a ∧ ciEq w b = true
  | .grouped _ l, u => (l.any fun w => ciEq w u) = true

/-- The groups it sets. -/
def Names.groups : Names → Str → List (Nat × Str)
  | .grouped n _, u => [(n, u)]
  | _, _ => []

theorem names_mem {n : Names} {rev rest : Str} {g} {st : MSt} :
    st ∈ n.re.run ⟨rev, rest, g⟩ ↔
      ∃ u t, rest = u ++ t ∧ n.Accepts u ∧ st = ⟨u.reverse ++ rev, t, n.groups u ++ g⟩ := by
  cases n with
  | words l => simpa [Names.re, Names.Accepts, Names.groups] using ciAlts_mem (l := l)
  | subs w =>
    simp only [Names.re, Re.run, List.mem_flatMap, Names.Accepts, Names.groups, List.nil_append]
    constructor
    · rintro ⟨s1, h1, h2⟩
      obtain ⟨a, t, rfl, ha, rfl⟩ := (subs_mem _ (Nat.le_refl _)).1 h1
      obtain ⟨b, t', rfl, hb, rfl⟩ := ciLit_mem.1 h2
      exact ⟨a ++ b, t', by simp, ⟨a, b, rfl, ha, hb⟩, by simp⟩
    · rintro ⟨u, t, rfl, ⟨a, b, rfl, ha, hb⟩, rfl⟩
      exact ⟨⟨a.reverse ++ rev, b ++ t, g⟩, (subs_mem _ (Nat.le_refl _)).2 ⟨a, b ++ t, by simp, ha, rfl⟩,
        ciLit_mem.2 ⟨b, t, rfl, hb, by simp⟩⟩
  | grouped k l =>
    simp only [Names.re, Re.run, List.mem_map, Names.Accepts, Names.groups]
    constructor
    · rintro ⟨s1, h1, rfl⟩
      obtain ⟨u, t, rfl, hu, rfl⟩ := ciAlts_mem.1 h1
      refine ⟨u, t, rfl, hu, ?_⟩
      simp
    · rintro ⟨u, t, rfl, hu, rfl⟩
      refine ⟨_, ciAlts_mem.2 ⟨u, t, rfl, hu, rfl⟩, ?_⟩
      simp

/-- A character that some letter of a pattern accepts. -/
def foldLetter (c : Char) : Bool :=
  isLetter c || c.toNat == 0x130 || c.toNat == 0x131 || c.toNat == 0x17f || c.toNat == 0x212a

theorem ciChar_fold {c x : Char} (hc : 'a' ≤ c ∧ c ≤ 'z') (h : ciChar c x = true) : foldLetter x = true := by
  simp only [ciChar, Bool.or_eq_true, Bool.and_eq_true, beq_iff_eq, decide_eq_true_eq] at h
  simp only [foldLetter, isLetter, Bool.or_eq_true, Bool.and_eq_true, beq_iff_eq, decide_eq_true_eq]
  rcases h with (((h | h) | h) | h) | h
  · subst h; simp [hc]
  · obtain ⟨_, h⟩ := h
    have h1 : 97 ≤ c.toNat := hc.1
    have h2 : c.toNat ≤ 122 := hc.2
    have e1 : 'A' ≤ x := by show 65 ≤ x.toNat; omega
    have e2 : x ≤ 'Z' := by show x.toNat ≤ 90; omega
    simp [e1, e2]
  · rcases h.2 with h | h <;> simp [h]
  · simp [h.2]
  · simp [h.2]

/-- Lower-case letters only. -/
def Lower (w : Str) : Prop := ∀ c ∈ w, 'a' ≤ c ∧ c ≤ 'z'

instance (w : Str) : Decidable (Lower w) := by unfold Lower; infer_instance

theorem ciEq_fold : ∀ {s u : Str}, Lower s → ciEq s u = true → ∀ x ∈ u, foldLetter x = true
  | [], [], _, _ => by simp
  | c :: cs, x :: xs, hs, h => by
    simp only [ciEq, Bool.and_eq_true] at h
    intro y hy
    rcases List.mem_cons.1 hy with rfl | hy
    · exact ciChar_fold (hs c (by simp)) h.1
    · exact ciEq_fold (fun d hd => hs d (by simp [hd])) h.2 y hy
  | [], _ :: _, _, h => by simp [ciEq] at h
  | _ :: _, [], _, h => by simp [ciEq] at h

theorem subs_fold {u : Str} (h : Subs u) : ∀ x ∈ u, foldLetter x = true := by
  induction h with
  | nil => simp
  | cons u v hu _ ih =>
    intro x hx
    rcases List.mem_append.1 hx with hx | hx
    · exact ciEq_fold (by decide) hu x hx
    · exact ih x hx

/-- All words of a name pattern are in lower case. -/
def Names.Low : Names → Prop
  | .words l => ∀ w ∈ l, Lower w
  | .subs w => Lower w
  | .grouped _ l => ∀ w ∈ l, Lower w

instance (n : Names) : Decidable n.Low := by cases n <;> unfold Names.Low <;> infer_instance

theorem accepts_fold {n : Names} (hl : n.Low) {u : Str} (h : n.Accepts u) : ∀ x ∈ u, foldLetter x = true := by
  cases n with
  | words l =>
    simp only [Names.Accepts, List.any_eq_true] at h
    obtain ⟨w, hw, h⟩ := h
    exact ciEq_fold (hl w hw) h
  | subs w =>
    obtain ⟨a, b, rfl, ha, hb⟩ := h
    intro x hx
    rcases List.mem_append.1 hx with hx | hx
    · exact subs_fold ha x hx
    · exact ciEq_fold hl hb x hx
  | grouped k l =>
    simp only [Names.Accepts, List.any_eq_true] at h
    obtain ⟨w, hw, h⟩ := h
    exact ciEq_fold (hl w hw) h

theorem head_flatMap_only {L : List MSt} {k : MSt → List MSt} {S : MSt} (h : ∀ st ∈ L, k st = [] ∨ st = S) :
    (S ∈ L → (L.flatMap k).head? = (k S).head?) ∧ (S ∉ L → L.flatMap k = []) := by
  induction L with
  | nil => simp
  | cons a L ih =>
    have ih := ih (fun st hst => h st (by simp [hst]))
    rw [List.flatMap_cons]
    constructor
    · intro hm
      rcases h a (by simp) with h1 | rfl
      · rw [h1, List.nil_append]
        by_cases ha : S ∈ L
        · exact ih.1 ha
        · have : a = S := by
            rcases List.mem_cons.1 hm with h2 | h2
            · exact h2.symm
            · exact absurd h2 ha
          subst this
          rw [ih.2 ha, h1]
      · cases hk : k a with
        | nil =>
          rw [List.nil_append]
          by_cases ha : a ∈ L
          · rw [ih.1 ha, hk]
          · rw [ih.2 ha]
        | cons x xs => simp
    · intro hm
      simp only [List.mem_cons, not_or] at hm
      rcases h a (by simp) with h1 | rfl
      · rw [h1, ih.2 hm.2]; rfl
      · exact absurd rfl hm.1

/-- A word followed by something that is no letter. -/
structure Word (w rest : Str) : Prop where
  letters : ∀ c ∈ w, isLetter c = true
  stops : ∀ c, rest.head? = some c → foldLetter c = false

/-- The tail of a pattern does not begin with a letter. -/
def NoLetter (tail : Re) : Prop := ∀ rev x rest g, isLetter x = true → tail.run ⟨rev, x :: rest, g⟩ = []

theorem accepted_prefix {n : Names} (hl : n.Low) {w rest u t : Str} (hw : Word w rest) (h : w ++ rest = u ++ t)
    (hu : n.Accepts u) : ∃ v, w = u ++ v ∧ t = v ++ rest := by
  rcases List.append_eq_append_iff.1 h with ⟨a, h1, h2⟩ | ⟨a, h1, h2⟩
  · cases a with
    | nil => exact ⟨[], by simpa using h1.symm, by simpa using h2.symm⟩
    | cons x a =>
      have hx := accepts_fold hl hu x (by rw [h1]; simp)
      rw [hw.stops x (by rw [h2]; rfl)] at hx; cases hx
  · exact ⟨a, h1, h2⟩

/-- A pattern whose tail does not begin with a letter matches at a word exactly if it accepts the word and its tail matches
after it. -/
theorem pattern_word (p : Kind × Names × Re) (hl : p.2.1.Low) (ht : NoLetter p.2.2) {w rest : Str} (hw : Word w rest) :
    (p.2.1.Accepts w → (patternRe p).matchAt [] ('\\' :: (w ++ rest)) =
      (p.2.2.run ⟨w.reverse ++ ['\\'], rest, p.2.1.groups w⟩).head?.map
        fun st => ⟨[], '\\' :: (w ++ rest), 1 + w.length + rest.length - st.rest.length, st.groups⟩) ∧
    (¬ p.2.1.Accepts w → (patternRe p).matchAt [] ('\\' :: (w ++ rest)) = none) := by
  have e : (patternRe p).run ⟨[], '\\' :: (w ++ rest), []⟩ = (p.2.1.re.run ⟨['\\'], w ++ rest, []⟩).flatMap p.2.2.run := by
    simp [patternRe, Re.run, Re.lit]
  have key : ∀ st ∈ p.2.1.re.run ⟨['\\'], w ++ rest, []⟩, p.2.2.run st = [] ∨ st = ⟨w.reverse ++ ['\\'], rest, p.2.1.groups w⟩ := by
    intro st hst
    obtain ⟨u, t, h1, h2, rfl⟩ := names_mem.1 hst
    obtain ⟨v, rfl, rfl⟩ := accepted_prefix hl hw h1 h2
    cases v with
    | nil => right; simp
    | cons x v => left; exact ht _ x _ _ (hw.letters x (by simp))
  obtain ⟨k1, k2⟩ := head_flatMap_only key
  have mem : (⟨w.reverse ++ ['\\'], rest, p.2.1.groups w⟩ : MSt) ∈ p.2.1.re.run ⟨['\\'], w ++ rest, []⟩ ↔ p.2.1.Accepts w := by
    constructor
    · intro h
      obtain ⟨u, t, h1, h2, h3⟩ := names_mem.1 h
      simp only [MSt.mk.injEq] at h3
      obtain ⟨_, rfl, _⟩ := h3
      rw [List.append_cancel_right h1]; exact h2
    · intro h
      exact names_mem.2 ⟨w, rest, rfl, h, by simp⟩
  constructor
  · intro h
    rw [Re.matchAt_eq, e, k1 (mem.2 h)]
    congr 1
    funext st
    simp only [List.length_cons, List.length_append]
    congr 1
    omega
  · intro h
    rw [Re.matchAt_eq, e, k2 (fun hm => h (mem.1 hm))]
    rfl

/-- A pattern does not match at a word if it accepts no beginning of it. -/
theorem pattern_noprefix (p : Kind × Names × Re) (hl : p.2.1.Low) {w rest : Str} (hw : Word w rest)
    (h : ∀ u, u <+: w → ¬ p.2.1.Accepts u) : (patternRe p).matchAt [] ('\\' :: (w ++ rest)) = none := by
  have e : (patternRe p).run ⟨[], '\\' :: (w ++ rest), []⟩ = (p.2.1.re.run ⟨['\\'], w ++ rest, []⟩).flatMap p.2.2.run := by
    simp [patternRe, Re.run, Re.lit]
  have : p.2.1.re.run ⟨['\\'], w ++ rest, []⟩ = [] := by
    rw [List.eq_nil_iff_forall_not_mem]
    intro st hst
    obtain ⟨u, t, h1, h2, rfl⟩ := names_mem.1 hst
    obtain ⟨v, rfl, rfl⟩ := accepted_prefix hl hw h1 h2
    exact h u (List.prefix_append _ _) h2
  rw [Re.matchAt_eq, e, this]
  rfl

/-! The tails. -/

theorem openBrace_run (rev rest : Str) (g) : openBrace.run ⟨rev, rest, g⟩ =
    if ['{'].isPrefixOf (rest.dropWhile isSpace) then
      [⟨'{' :: ((rest.takeWhile isSpace).reverse ++ rev), (rest.dropWhile isSpace).drop 1, g⟩] else [] := by
  unfold openBrace reSpace
  conv => lhs; unfold Re.run
  rw [run_star_chr, charRuns_flatMap]
  · rw [Re.run_lit]; split <;> simp
  · intro rev x rest hx
    rw [Re.run_lit]
    have : x ≠ '{' := by rintro rfl; simp [brace_not_space] at hx
    have h' : ¬ '{' = x := fun e => this e.symm
    simp [h']

theorem openBrace_hit (rev ws r : Str) (g) (hws : ∀ x ∈ ws, isSpace x = true) :
    openBrace.run ⟨rev, ws ++ '{' :: r, g⟩ = [⟨'{' :: (ws.reverse ++ rev), r, g⟩] := by
  rw [openBrace_run, takeWhile_ws ws r hws, dropWhile_ws ws r hws]
  simp [List.isPrefixOf]

theorem openBrace_miss (rev : Str) (x : Char) (r : Str) (g) (hx : isSpace x = false) (hb : x ≠ '{') :
    openBrace.run ⟨rev, x :: r, g⟩ = [] := by
  have h' : ¬ '{' = x := fun e => hb e.symm
  rw [openBrace_run]; simp [hx, List.isPrefixOf, h']

theorem letter_not_space {x : Char} (h : isLetter x = true) : isSpace x = false := by
  simp only [isLetter, Bool.or_eq_true, Bool.and_eq_true, decide_eq_true_eq] at h
  have h2 : (97 ≤ x.toNat ∧ x.toNat ≤ 122) ∨ (65 ≤ x.toNat ∧ x.toNat ≤ 90) := h
  unfold isSpace
  simp only [Bool.or_eq_false_iff, Bool.and_eq_false_iff, decide_eq_false_iff_not, beq_eq_false_iff_ne]
  omega

theorem letter_ne {x c : Char} (h : isLetter x = true) (hc : isLetter c = false) : x ≠ c := by
  rintro rfl; rw [h] at hc; cases hc

theorem openBrace_noLetter : NoLetter openBrace := by
  intro rev x rest g hx
  exact openBrace_miss rev x rest g (letter_not_space hx) (letter_ne hx (by decide))

/-- A star, or none. -/
def starText (s : Bool) : Str := if s then ['*'] else []

theorem starred_run (rev rest : Str) (g) : starred.run ⟨rev, rest, g⟩ =
    (if ['*'].isPrefixOf rest then [⟨'*' :: rev, rest.drop 1, g⟩] else []) ++ [⟨rev, rest, g⟩] := by
  unfold starred Re.opt
  conv => lhs; unfold Re.run
  rw [Re.run_lit]
  simp [Re.run]

theorem seq_run (a b : Re) (st : MSt) : (Re.seq a b).run st = (a.run st).flatMap b.run := rfl

theorem starred_noLetter {tail : Re} (h : NoLetter tail) : NoLetter (.seq starred tail) := by
  intro rev x rest g hx
  have : ¬ '*' = x := (letter_ne hx (by decide)).symm
  rw [seq_run, starred_run]
  simp [List.isPrefixOf, this, h rev x rest g hx]

theorem spaces_run (rev rest : Str) (g) : (Re.star reSpace).run ⟨rev, rest, g⟩ = charRuns isSpace g rev rest := by
  unfold reSpace; rw [run_star_chr]

theorem spaces_noLetter {tail : Re} (h : NoLetter tail) : NoLetter (.seq (.star reSpace) tail) := by
  intro rev x rest g hx
  rw [seq_run, spaces_run]
  simp [charRuns, letter_not_space hx, h rev x rest g hx]

theorem optArg_run (n : Nat) (rev rest : Str) (g) : ∃ l, (optArg n).run ⟨rev, rest, g⟩ = l ++ [⟨rev, rest, g⟩] ∧
    (rest.head? ≠ some '[' → l = []) := by
  unfold optArg Re.opt
  refine ⟨_, rfl, ?_⟩
  intro h
  rw [seq_run, Re.run_lit, if_neg]
  · rfl
  · cases rest with
    | nil => simp
    | cons x r =>
      simp at h
      have h' : ¬ '[' = x := fun e => h e.symm
      simp [List.isPrefixOf, h']

theorem optArg_noLetter {tail : Re} (n : Nat) (h : NoLetter tail) : NoLetter (.seq (optArg n) tail) := by
  intro rev x rest g hx
  obtain ⟨l, h1, h2⟩ := optArg_run n rev (x :: rest) g
  rw [seq_run, h1, h2 (by simp; exact letter_ne hx (by decide))]
  simp [h rev x rest g hx]

theorem seq_noLetter {a b : Re} (h : NoLetter a) : NoLetter (.seq a b) := by
  intro rev x rest g hx
  rw [seq_run, h rev x rest g hx]; rfl

theorem letterWord {x : Char} (h : isLetter x = true) : isWord x = true := by
  simp only [isLetter, isWord, Bool.or_eq_true, Bool.and_eq_true, decide_eq_true_eq] at *
  rcases h with h | h
  · simp [h]
  · simp [h]

theorem wordEnd_noLetter : NoLetter reWordEnd := by
  intro rev x rest g hx
  unfold reWordEnd
  simp [Re.run, letterWord hx]

theorem braceArg_noLetter (n : Nat) : NoLetter (braceArg n) := seq_noLetter openBrace_noLetter

/-- The optional argument is there. -/
theorem optArg_hit (n : Nat) (rev a r : Str) (g) (ha : ']' ∉ a) : ∃ l, (optArg n).run ⟨rev, '[' :: (a ++ ']' :: r), g⟩ =
    ⟨(('[' :: a) ++ [']']).reverse ++ rev, r, (n, a) :: g⟩ :: l := by
  obtain ⟨l, h1, _⟩ := optArg_run n rev ('[' :: (a ++ ']' :: r)) g
  have key : (Re.seq (.lit ['[']) (.seq (.group n (.star (.chr (· != ']')))) (.lit [']']))).run ⟨rev, '[' :: (a ++ ']' :: r), g⟩ =
      [⟨(('[' :: a) ++ [']']).reverse ++ rev, r, (n, a) :: g⟩] := by
    have hp : ['['].isPrefixOf ('[' :: (a ++ ']' :: r)) = true := by simp [List.isPrefixOf]
    rw [seq_run, Re.run_lit, if_pos hp]
    simp only [List.flatMap_cons, List.flatMap_nil, List.append_nil, List.length_cons, List.length_nil, List.drop_succ_cons, List.drop_zero]
    rw [seq_run]
    have e : (Re.group n (.star (.chr (· != ']')))).run ⟨['['].reverse ++ rev, a ++ ']' :: r, g⟩ =
        (charRuns (· != ']') g (['['].reverse ++ rev) (a ++ ']' :: r)).map fun st' =>
          { st' with groups := (n, (a ++ ']' :: r).take ((a ++ ']' :: r).length - st'.rest.length)) :: st'.groups } := by
      show List.map _ ((Re.star (.chr (· != ']'))).run _) = _
      rw [run_star_chr]
    rw [e, List.flatMap_map, charRuns_flatMap]
    · have ht : (a ++ ']' :: r).takeWhile (· != ']') = a := by
        rw [List.takeWhile_append_of_pos]
        · simp
        · intro x hx; simp only [bne_iff_ne]; rintro rfl; exact ha hx
      have hd : (a ++ ']' :: r).dropWhile (· != ']') = ']' :: r := by
        rw [List.dropWhile_append_of_pos]
        · simp
        · intro x hx; simp only [bne_iff_ne]; rintro rfl; exact ha hx
      rw [ht, hd, Re.run_lit]
      simp [List.isPrefixOf]
    · intro rev x rest hx
      have h' : ¬ ']' = x := by
        intro e; rw [← e] at hx; simp at hx
      rw [Re.run_lit]
      simp [List.isPrefixOf, h']
  refine ⟨[⟨rev, '[' :: (a ++ ']' :: r), g⟩], ?_⟩
  unfold optArg Re.opt
  conv => lhs; unfold Re.run
  rw [key]; rfl

/-- A result of the first part that the second part accepts decides the whole. -/
theorem head_seq {a b : Re} {st s1 s2 : MSt} {l} (h1 : a.run st = s1 :: l) (h2 : (b.run s1).head? = some s2) :
    ((Re.seq a b).run st).head? = some s2 := by
  rw [seq_run, h1, List.flatMap_cons, List.head?_append, h2]; rfl

theorem spaces_first (rev ws r : Str) (g) (hws : ∀ x ∈ ws, isSpace x = true) (hr : ∀ c, r.head? = some c → isSpace c = false) :
    ∃ l, (Re.star reSpace).run ⟨rev, ws ++ r, g⟩ = ⟨ws.reverse ++ rev, r, g⟩ :: l := by
  rw [spaces_run]
  have h := charRuns_head? isSpace g (ws ++ r) rev
  have ht : (ws ++ r).takeWhile isSpace = ws := by
    rw [List.takeWhile_append_of_pos hws]
    cases r with
    | nil => simp
    | cons x r => simp [hr x rfl]
  have hd : (ws ++ r).dropWhile isSpace = r := by
    rw [List.dropWhile_append_of_pos hws]
    cases r with
    | nil => simp
    | cons x r => simp [hr x rfl]
  rw [ht, hd] at h
  exact List.head?_eq_some_iff.1 h

/-- All patterns are written in lower case. -/
theorem patterns_low : ∀ p ∈ patterns, p.2.1.Low := by decide +kernel

/-- All tails but that of `\footnotemark` do not begin with a letter. -/
theorem patterns_noLetter : ∀ p ∈ patterns, p.1 ≠ .footnotemark → NoLetter p.2.2 := by
  have ob := openBrace_noLetter
  have so := starred_noLetter ob
  have ss : NoLetter (.seq (.star reSpace) (.seq (optArg 1) openBrace)) := spaces_noLetter (optArg_noLetter 1 ob)
  unfold patterns
  simp only [List.forall_mem_cons]
  refine ⟨fun _ => ob,
    fun _ => so,
    fun _ => so,
    fun _ => so,
    fun _ => so,
    fun _ => starred_noLetter (optArg_noLetter 1 ob),
    fun _ => starred_noLetter (spaces_noLetter (optArg_noLetter 2 ob)),
    fun _ => starred_noLetter (seq_noLetter ob),
    fun _ => ob,
    fun _ => so,
    fun _ => so,
    fun _ => ss,
    fun _ => seq_noLetter (braceArg_noLetter 1),
    fun _ => ss,
    fun _ => spaces_noLetter (optArg_noLetter 1 (seq_noLetter (braceArg_noLetter 2))),
    fun h => absurd rfl h,
    fun _ => optArg_noLetter 1 ob,
    fun _ => ob,
    fun _ => ob,
    fun _ => ss,
    fun _ => ss,
    fun _ => ob,
    fun _ => spaces_noLetter (optArg_noLetter 1 (optArg_noLetter 2 ob)),
    fun _ => seq_noLetter (braceArg_noLetter 1),
    fun _ => ob,
    fun _ => ss,
    fun _ => wordEnd_noLetter,
    fun _ => ob,
    fun _ => ob, fun p hp => absurd hp (List.not_mem_nil)⟩

/-- The pattern does not accept the word (for `\footnotemark`: nor any beginning of it). -/
def Refuses (p : Kind × Names × Re) (w : Str) : Prop :=
  if p.1 = .footnotemark then ∀ u, u <+: w → ¬ p.2.1.Accepts u else ¬ p.2.1.Accepts w

theorem refuses_none {p : Kind × Names × Re} (hp : p ∈ patterns) {w rest : Str} (hw : Word w rest) (h : Refuses p w) :
    (patternRe p).matchAt [] ('\\' :: (w ++ rest)) = none := by
  unfold Refuses at h
  split at h
  · exact pattern_noprefix p (patterns_low p hp) hw h
  · rename_i hk
    exact (pattern_word p (patterns_low p hp) (patterns_noLetter p hp hk) hw).2 h

theorem firstPattern_refuse {content : Str} : ∀ (pre : List (Kind × Names × Re)) (ps),
    (∀ p ∈ pre, (patternRe p).matchAt [] content = none) → firstPattern content (pre ++ ps) = firstPattern content ps
  | [], _, _ => rfl
  | p :: pre, ps, h => by
    rw [List.cons_append, firstPattern, h p (by simp)]
    exact firstPattern_refuse pre ps fun q hq => h q (by simp [hq])

/-- The pattern a word selects. -/
theorem firstPattern_word {pre post : List (Kind × Names × Re)} {p : Kind × Names × Re} (hs : patterns = pre ++ p :: post)
    (hk : p.1 ≠ .footnotemark) {w rest : Str} (hw : Word w rest) (hpre : ∀ q ∈ pre, Refuses q w) (ha : p.2.1.Accepts w)
    {st : MSt} (ht : (p.2.2.run ⟨w.reverse ++ ['\\'], rest, p.2.1.groups w⟩).head? = some st) :
    firstPattern ('\\' :: (w ++ rest)) patterns =
      some (p.1, ⟨[], '\\' :: (w ++ rest), 1 + w.length + rest.length - st.rest.length, st.groups⟩) := by
  have hp : p ∈ patterns := by rw [hs]; simp
  rw [hs, firstPattern_refuse pre _ fun q hq => refuses_none (by rw [hs]; simp [hq]) hw (hpre q hq), firstPattern,
    (pattern_word p (patterns_low p hp) (patterns_noLetter p hp hk) hw).1 ha, ht]
  rfl

/-- No pattern matches at a word that all refuse. -/
theorem firstPattern_none {w rest : Str} (hw : Word w rest) (h : ∀ q ∈ patterns, Refuses q w) :
    firstPattern ('\\' :: (w ++ rest)) patterns = none := by
  have := firstPattern_refuse (content := '\\' :: (w ++ rest)) patterns [] fun q hq => refuses_none hq hw (h q hq)
  rw [List.append_nil] at this
  exact this

end L2J.Content

namespace L2J.Content
open L2J.Cmds

theorem ciChar_lower {c x : Char} (hc : 'a' ≤ c ∧ c ≤ 'z') (hx : 'a' ≤ x ∧ x ≤ 'z') (h : ciChar c x = true) : x = c := by
  simp only [ciChar, Bool.or_eq_true, Bool.and_eq_true, beq_iff_eq, decide_eq_true_eq] at h
  have h1 : 97 ≤ x.toNat := hx.1
  have h2 : x.toNat ≤ 122 := hx.2
  have h3 : c.toNat ≤ 122 := hc.2
  rcases h with (((h | h) | h) | h) | h
  · exact h
  · have := h.2; omega
  · rcases h.2 with h | h <;> omega
  · have := h.2; omega
  · have := h.2; omega

theorem ciEq_lower : ∀ {s u : Str}, Lower s → Lower u → ciEq s u = true → u = s
  | [], [], _, _, _ => rfl
  | c :: cs, x :: xs, hs, hu, h => by
    simp only [ciEq, Bool.and_eq_true] at h
    rw [ciChar_lower (hs c (by simp)) (hu x (by simp)) h.1,
      ciEq_lower (fun d hd => hs d (by simp [hd])) (fun d hd => hu d (by simp [hd])) h.2]
  | [], _ :: _, _, _, h => by simp [ciEq] at h
  | _ :: _, [], _, _, h => by simp [ciEq] at h

theorem ciEq_refl : ∀ (s : Str), ciEq s s = true
  | [] => rfl
  | c :: cs => by simp [ciEq, ciChar, ciEq_refl cs]

/-- A test for a word in lower case not being accepted. -/
def refusesB (q : Kind × Names × Re) (w : Str) : Bool :=
  match q.2.1 with
  | .words l => if q.1 = .footnotemark then !(l.any fun z => z.isPrefixOf w) else !(l.contains w)
  | .subs z => q.1 ≠ .footnotemark && !(z.isSuffixOf w)
  | .grouped _ l => q.1 ≠ .footnotemark && !(l.contains w)

theorem any_lower {l : List Str} {u : Str} (hl : ∀ w ∈ l, Lower w) (hu : Lower u) (h : (l.any fun w => ciEq w u) = true) : u ∈ l := by
  simp only [List.any_eq_true] at h
  obtain ⟨w, hw, h⟩ := h
  rw [ciEq_lower (hl w hw) hu h]; exact hw

theorem refusesB_sound {q : Kind × Names × Re} {w : Str} (hl : q.2.1.Low) (hw : Lower w) (h : refusesB q w = true) : Refuses q w := by
  obtain ⟨k, n, tail⟩ := q
  unfold refusesB at h
  unfold Refuses
  cases n with
  | words l =>
    simp only at h ⊢
    split at h
    · rename_i hk
      rw [if_pos hk]
      intro u hu ha
      have hul : Lower u := fun c hc => hw c (hu.subset hc)
      have := any_lower hl hul ha
      simp only [Bool.not_eq_true', List.any_eq_false] at h
      exact h u this (List.isPrefixOf_iff_prefix.2 hu)
    · rename_i hk
      rw [if_neg hk]
      intro ha
      have := any_lower hl hw ha
      simp [this] at h
  | subs z =>
    simp only [Bool.and_eq_true, decide_eq_true_eq, Bool.not_eq_true'] at h ⊢
    rw [if_neg h.1]
    rintro ⟨a, b, rfl, _, hb⟩
    have := ciEq_lower hl (fun c hc => hw c (by simp [hc])) hb
    subst this
    have h2 : b.isSuffixOf (a ++ b) = true := List.isSuffixOf_iff_suffix.2 (List.suffix_append _ _)
    rw [h2] at h; cases h.2
  | grouped j l =>
    simp only [Bool.and_eq_true, decide_eq_true_eq, Bool.not_eq_true'] at h ⊢
    rw [if_neg h.1]
    intro ha
    have := any_lower hl hw ha
    simp [this] at h

theorem lower_letter {c : Char} (h : 'a' ≤ c ∧ c ≤ 'z') : isLetter c = true := by simp [isLetter, h]

theorem word_of {w rest : Str} (h : Lower w) (hr : ∀ c, rest.head? = some c → foldLetter c = false) : Word w rest :=
  ⟨fun c hc => lower_letter (h c hc), hr⟩

theorem space_not_fold {c : Char} (h : isSpace c = true) : foldLetter c = false := by
  unfold isSpace at h
  simp only [Bool.or_eq_true, Bool.and_eq_true, decide_eq_true_eq, beq_iff_eq] at h
  unfold foldLetter isLetter
  simp only [Bool.or_eq_false_iff, Bool.and_eq_false_iff, decide_eq_false_iff_not, beq_eq_false_iff_ne]
  have e1 : ∀ d : Char, ('a' ≤ d ↔ 97 ≤ d.toNat) ∧ (d ≤ 'z' ↔ d.toNat ≤ 122) ∧ ('A' ≤ d ↔ 65 ≤ d.toNat) ∧ (d ≤ 'Z' ↔ d.toNat ≤ 90) :=
    fun d => ⟨Iff.rfl, Iff.rfl, Iff.rfl, Iff.rfl⟩
  rw [(e1 c).1, (e1 c).2.1, (e1 c).2.2.1, (e1 c).2.2.2]
  omega

/-- The beginning of an argument, after blanks. -/
theorem head_blank {ws r : Str} (hws : ∀ x ∈ ws, isSpace x = true) {p : Char → Bool} (hs : ∀ c, isSpace c = true → p c = false)
    (hr : ∀ c, r.head? = some c → p c = false) : ∀ c, (ws ++ r).head? = some c → p c = false := by
  intro c hc
  cases ws with
  | nil => exact hr c hc
  | cons x ws =>
    simp at hc
    subst hc
    exact hs x (hws x (by simp))

end L2J.Content
