import Verif.Props.C35
import Verif.Lemmas.EnvBlock
/-! C34: built-in commands cannot be redefined, and the latest definition of every other command is used. -/
namespace L2J.Cmds
open L2J.Spec

/-- A command name as TeX reads it: letters, or `@` in a package. -/
def _root_.L2J.Spec.NameWord (s : Str) : Prop := s ≠ [] ∧ ∀ c ∈ s, isNameChar c = true

/-- A definition written in the usual way: the name is a word (or, for `\newcommand`, any single character), and the parameters of
a `\def` do not begin with a letter. -/
def _root_.L2J.Spec.PlainDef : Def → Prop
  | .newcommand n _ _ _ _ => NameWord n ∨ ∃ c, n = [c]
  | .alphabet cmd => ∃ n, NameWord n ∧ cmd = '\\' :: n
  | .futurelet n _ => NameWord n
  | .let_ n _ _ => NameWord n
  | .def_ n params _ _ _ => NameWord n ∧ ∀ c, params.head? = some c → isNameChar c = false
  | .newif n => NameWord n
  | .newcounter n => NameWord n
  | .newlength n => NameWord n
  | .newtoks n => NameWord n
  | .newX n => NameWord n
  | .paired n _ _ => NameWord n

/-- The commands `\w` a definition gives a meaning to. -/
def _root_.L2J.Spec.Meant (d : Def) (w : Str) : Prop :=
  match d with
  | .newif n => n ++ "true".toList <+: w ∨ n ++ "false".toList <+: w
  | .newcounter n => w = "the".toList ++ n
  | .let_ n _ cs => w = n ∨ (cs ≠ none ∧ "csname".toList <+: w)
  | .def_ n _ _ _ cs => w = n ∨ (cs ≠ none ∧ "csname".toList <+: w)
  | d => w = d.name

/-- `\w` followed by `rest` is the command `w`: letters not followed by a further letter, or a single other character. -/
def _root_.L2J.Spec.Ends (w rest : Str) : Prop :=
  (w ≠ [] ∧ (∀ c ∈ w, isLetter c = true) ∧ ∀ c, rest.head? = some c → isNameChar c = false) ∨
  ∃ c, w = [c] ∧ isNameChar c = false

/-- What is assumed of `str.isalpha` and `str.isalnum`: they hold of the ASCII letters. -/
def _root_.L2J.Spec.Letters (cfg : Cfg) : Prop := ∀ c, isLetter c = true → cfg.alpha c = true ∧ cfg.alnum c = true

theorem letter_name (c : Char) (h : isLetter c = true) : isNameChar c = true := by simp [isNameChar, h]

theorem letter_word (c : Char) (h : isLetter c = true) : isWord c = true := by
  simp only [isLetter, isWord, Bool.or_eq_true, Bool.and_eq_true, decide_eq_true_eq] at *
  rcases h with h | h
  · simp [h]
  · simp [h]

theorem run_seq_ne {a b : Re} {st : MSt} (h : (Re.seq a b).run st ≠ []) : ∃ st', st' ∈ a.run st ∧ b.run st' ≠ [] := by
  simp only [Re.run, ne_eq, List.flatMap_eq_nil_iff] at h
  simp only [Classical.not_forall] at h
  obtain ⟨x, hx, h⟩ := h
  exact ⟨x, hx, h⟩

theorem lit_ne {s : Str} {rev rest : Str} {g} {st' : MSt} (h : st' ∈ (Re.lit s).run ⟨rev, rest, g⟩) :
    ∃ t, rest = s ++ t ∧ st' = ⟨s.reverse ++ rev, t, g⟩ := by
  rw [Re.run_lit] at h
  split at h
  · rename_i hp
    rw [List.isPrefixOf_iff_prefix] at hp
    obtain ⟨t, rfl⟩ := hp
    simp at h
    exact ⟨t, rfl, h⟩
  · cases h

theorem lit_seq {s : Str} {r : Re} {rev rest : Str} {g} (h : (Re.seq (.lit s) r).run ⟨rev, rest, g⟩ ≠ []) :
    ∃ t, rest = s ++ t ∧ r.run ⟨s.reverse ++ rev, t, g⟩ ≠ [] := by
  obtain ⟨st', h1, h2⟩ := run_seq_ne h
  obtain ⟨t, ht, rfl⟩ := lit_ne h1
  exact ⟨t, ht, h2⟩

theorem rawRe_word {n : Str} (h : ∀ c ∈ n, isNameChar c = true) : rawRe n = Re.lit n := by
  induction n with
  | nil => rfl
  | cons c n ih =>
    have hc : (c == '.') = false := by
      have := h c (by simp)
      cases hd : c == '.'
      · rfl
      · simp only [beq_iff_eq] at hd; subst hd; revert this; decide
    simp only [rawRe, Re.lit, ih (fun x hx => h x (by simp [hx])), hc, Bool.false_eq_true, if_false]

theorem nlook_ne {p : Char → Bool} {rev rest : Str} {g} (h : (Re.nlook (.chr p)).run ⟨rev, rest, g⟩ ≠ []) :
    ∀ c, rest.head? = some c → p c = false := by
  intro c hc
  cases rest with
  | nil => cases hc
  | cons x rest =>
    simp at hc; subst hc
    simp only [Re.run] at h
    cases hp : p x
    · rfl
    · simp [hp] at h

/-- A name at the beginning of a command is the beginning of the command's name. -/
theorem name_prefix {w rest n t : Str} (he : Ends w rest) (hn : NameWord n) (h : w ++ rest = n ++ t) :
    ∃ u, w = n ++ u ∧ t = u ++ rest ∧ (∀ c ∈ w, isLetter c = true) := by
  rcases he with ⟨hw, hl, hr⟩ | ⟨c, rfl, hc⟩
  · rcases List.append_eq_append_iff.1 h with ⟨a, h1, h2⟩ | ⟨a, h1, h2⟩
    · -- the name is longer than the command
      cases a with
      | nil => exact ⟨[], by simp at h1; simp [h1], by simp at h2; simp [h2], hl⟩
      | cons x a =>
        have hx := hr x (by rw [h2]; rfl)
        have := hn.2 x (by rw [h1]; simp)
        rw [this] at hx; cases hx
    · exact ⟨a, h1, h2, hl⟩
  · obtain ⟨hne, hn⟩ := hn
    cases n with
    | nil => exact absurd rfl hne
    | cons x n =>
      simp at h
      have := hn x (by simp)
      rw [← h.1, hc] at this; cases this

theorem exact_name {w rest n t : Str} (he : Ends w rest) (hn : NameWord n) (h : w ++ rest = n ++ t)
    (ht : ∀ c, t.head? = some c → isLetter c = false) : w = n := by
  obtain ⟨u, hu, h2, hl⟩ := name_prefix he hn h
  cases u with
  | nil => simpa using hu
  | cons x u =>
    have := ht x (by rw [h2]; rfl)
    rw [hl x (by rw [hu]; simp)] at this; cases this

theorem not_letter_of_name {t : Str} (h : ∀ c, t.head? = some c → isNameChar c = false) : ∀ c, t.head? = some c → isLetter c = false := by
  intro c hc
  have := h c hc
  cases hl : isLetter c
  · rfl
  · rw [letter_name c hl] at this; cases this

theorem not_letter_of_word {t : Str} (h : ∀ c, t.head? = some c → isWord c = false) : ∀ c, t.head? = some c → isLetter c = false := by
  intro c hc
  have := h c hc
  cases hl : isLetter c
  · rfl
  · rw [letter_word c hl] at this; cases this

/-- Where the name of a `\def` ends, the pattern goes on with something that is not a letter, or demands that none follows. -/
theorem pieces_name (n params : Str) (hn : NameWord n) :
    ∃ p0 ps, pieces (n ++ params).length (n ++ params) = (n ++ p0) :: ps ∧ p0 <+: params := by
  have hash : ∀ (m : Str), (∀ c ∈ m, isNameChar c = true) → ∀ s a b, cutParam (m ++ s) = some (a, b) →
      ∃ a', a = m ++ a' ∧ cutParam s = some (a', b) := by
    intro m
    induction m with
    | nil => intro _ s a b h; exact ⟨a, rfl, h⟩
    | cons c m ih =>
      intro hm s a b h
      have hc : c ≠ '#' := by
        intro hh; subst hh
        have := hm '#' (by simp)
        revert this; decide
      have he : cutParam (c :: (m ++ s)) = (cutParam (m ++ s)).map fun r => (c :: r.1, r.2) := by
        conv => lhs; unfold cutParam
        split
        · rename_i heq; cases heq
        · rename_i heq; injection heq with h1 _; exact absurd h1 hc
        · rename_i heq; injection heq with h1 h2; subst h1; subst h2; rfl
      rw [List.cons_append, he] at h
      obtain ⟨⟨x, y⟩, hx, hy⟩ := Option.map_eq_some_iff.1 h
      injection hy with h1 h2
      simp only at h1 h2
      subst h1; subst h2
      obtain ⟨a', h1, h2⟩ := ih (fun c hc => hm c (by simp [hc])) s x y hx
      exact ⟨a', by simp [h1], h2⟩
  have cut_prefix : ∀ (s a b : Str), cutParam s = some (a, b) → a <+: s := by
    intro s
    induction s with
    | nil => intro a b h; cases h
    | cons c s ih =>
      intro a b h
      unfold cutParam at h
      split at h
      · cases h
      · rename_i heq
        injection heq with h1 h2; subst h1; subst h2
        split at h
        · injection h with h; injection h with h1 _; rw [← h1]; exact List.nil_prefix
        · obtain ⟨⟨x, y⟩, hx, hy⟩ := Option.map_eq_some_iff.1 h
          injection hy with h1 _; rw [← h1]
          exact List.cons_prefix_cons.2 ⟨rfl, ih x y hx⟩
      · rename_i heq
        injection heq with h1 h2; subst h1; subst h2
        obtain ⟨⟨x, y⟩, hx, hy⟩ := Option.map_eq_some_iff.1 h
        injection hy with h1 _; rw [← h1]
        exact List.cons_prefix_cons.2 ⟨rfl, ih x y hx⟩
  cases hl : (n ++ params).length with
  | zero => exact ⟨params, [], rfl, List.prefix_refl _⟩
  | succ k =>
    unfold pieces
    split
    · exact ⟨params, [], rfl, List.prefix_refl _⟩
    · rename_i a b h
      obtain ⟨a', h1, h2⟩ := hash n hn.2 params a b h
      exact ⟨a', _, by rw [h1], cut_prefix _ _ _ h2⟩

/-- The pattern of a `\def`, matched at a command, matches only the command defined. -/
theorem defBody_name {cfg : Cfg} (hcfg : Letters cfg) {n params w rest : Str} {rev : Str} {g} (k : Nat) (he : Ends w rest)
    (hn : NameWord n) (hp : ∀ c, params.head? = some c → isNameChar c = false)
    (h : (defBody cfg k (n ++ params)).1.run ⟨rev, w ++ rest, g⟩ ≠ []) : w = n := by
  obtain ⟨p0, ps, hpc, hpre⟩ := pieces_name n params hn
  unfold defBody at h
  rw [hpc] at h
  have hp0 : ∀ c t, (p0 ++ t).head? = some c → p0 ≠ [] → isLetter c = false := by
    intro c t hc hne
    cases p0 with
    | nil => exact absurd rfl hne
    | cons x p0 =>
      obtain ⟨y, hy⟩ := hpre
      simp at hc; subst hc
      exact not_letter_of_name (t := [x]) (fun c hc => by
        simp at hc; subst hc
        exact hp x (by rw [← hy]; rfl)) x rfl
  cases ps with
  | nil =>
    simp only at h
    obtain ⟨t, ht, h2⟩ := lit_seq h
    rw [List.append_assoc] at ht
    refine exact_name he hn ht (fun c hc => ?_)
    cases hp' : p0 with
    | nil => rw [hp'] at hc; exact not_letter_of_name (nlook_ne h2) c hc
    | cons x p1 => exact hp0 c t hc (by rw [hp']; simp)
  | cons q ps =>
    simp only at h
    obtain ⟨t, ht, h2⟩ := lit_seq h
    rw [List.append_assoc] at ht
    cases hp' : p0 with
    | cons x p1 => exact exact_name he hn ht (fun c hc => hp0 c t hc (by rw [hp']; simp))
    | nil =>
      rw [hp'] at ht h2
      simp only [List.nil_append] at ht
      obtain ⟨u, hu, ht2, hl⟩ := name_prefix he hn ht
      have hlast : ((n ++ ([] : Str)).getLast?.map fun c => cfg.alpha c || c == '@').getD false = true := by
        rw [List.append_nil]
        cases hx : n.getLast? with
        | none => exact absurd (List.getLast?_eq_none_iff.1 hx) hn.1
        | some c =>
          have hm : c ∈ n := List.mem_of_getLast? hx
          simp [(hcfg c (hl c (by rw [hu]; simp [hm]))).1]
      rw [if_pos hlast] at h2
      obtain ⟨st', h3, h4⟩ := run_seq_ne h2
      refine exact_name he hn ht (not_letter_of_name (nlook_ne (rev := (n ++ []).reverse ++ rev) (g := g) (fun hh => ?_)))
      rw [show suffixRe = Re.nlook (.chr isNameChar) from rfl] at h3
      rw [hh] at h3; cases h3

theorem csname_prefix {w rest r : Str} (he : Ends w rest) (h : w ++ rest = "csname".toList ++ r) : "csname".toList <+: w := by
  obtain ⟨u, hu, _, _⟩ := name_prefix he (n := "csname".toList) ⟨by decide, by decide⟩ h
  exact ⟨u, hu.symm⟩

theorem withCsname_ne {main : Re} {cs : Option Str} {sfx : Re} {rev w rest : Str} {g} (he : Ends w rest)
    (h : (withCsname main cs sfx).run ⟨rev, '\\' :: (w ++ rest), g⟩ ≠ []) :
    main.run ⟨rev, '\\' :: (w ++ rest), g⟩ ≠ [] ∨ (cs ≠ none ∧ "csname".toList <+: w) := by
  unfold withCsname at h
  cases cs with
  | none => exact .inl h
  | some inner =>
    simp only at h
    by_cases hm : main.run ⟨rev, '\\' :: (w ++ rest), g⟩ = []
    · right
      refine ⟨by simp, ?_⟩
      rw [show (Re.alt main (Re.seq (.lit "\\csname".toList) (.seq (rawRe inner) (.seq (.lit "\\endcsname".toList) sfx)))).run
        ⟨rev, '\\' :: (w ++ rest), g⟩ = main.run ⟨rev, '\\' :: (w ++ rest), g⟩ ++ (Re.seq (.lit "\\csname".toList)
          (.seq (rawRe inner) (.seq (.lit "\\endcsname".toList) sfx))).run ⟨rev, '\\' :: (w ++ rest), g⟩ from rfl, hm,
        List.nil_append] at h
      obtain ⟨t, ht, _⟩ := lit_seq h
      rw [show "\\csname".toList = '\\' :: "csname".toList from rfl, List.cons_append] at ht
      injection ht with _ ht
      exact csname_prefix he ht
    · exact .inl hm

/-- The pattern of a plain definition matches at a command only if the definition is for that command. -/
theorem usage_meant {cfg : Cfg} (hcfg : Letters cfg) {d : Def} (hd : PlainDef d) {w rest rev : Str} {g} (he : Ends w rest)
    (h : (d.usage cfg).run ⟨rev, '\\' :: (w ++ rest), g⟩ ≠ []) : Meant d w := by
  have slash : ∀ {r : Re}, (Re.seq (.lit ['\\']) r).run ⟨rev, '\\' :: (w ++ rest), g⟩ ≠ [] →
      r.run ⟨['\\'] ++ rev, w ++ rest, g⟩ ≠ [] := by
    intro r h
    obtain ⟨t, ht, h2⟩ := lit_seq h
    simp at ht
    rw [ht]; exact h2
  have simple : ∀ {n : Str} {p : Char → Bool}, NameWord n → (∀ c, isLetter c = true → p c = true) →
      (Re.seq (rawRe n) (.nlook (.chr p))).run ⟨['\\'] ++ rev, w ++ rest, g⟩ ≠ [] → w = n := by
    intro n p hn hp h
    rw [rawRe_word hn.2] at h
    obtain ⟨t, ht, h2⟩ := lit_seq h
    refine exact_name he hn ht (fun c hc => ?_)
    cases hl : isLetter c
    · rfl
    · have := nlook_ne h2 c hc
      rw [hp c hl] at this; cases this
  cases d with
  | newcommand n c a ds mo =>
    show w = n
    simp only [Def.usage, newcommandUsage] at h
    obtain ⟨t, ht, h2⟩ := lit_seq h
    rw [List.cons_append] at ht
    injection ht with _ ht
    rcases hd with hn | ⟨x, rfl⟩
    · obtain ⟨u, hu, ht2, hl⟩ := name_prefix he hn ht
      have hlast : (n.getLast?.map cfg.alnum).getD false = true := by
        cases hx : n.getLast? with
        | none => exact absurd (List.getLast?_eq_none_iff.1 hx) hn.1
        | some c =>
          have hm : c ∈ n := List.mem_of_getLast? hx
          simp [(hcfg c (hl c (by rw [hu]; simp [hm]))).2]
      rw [if_pos hlast] at h2
      exact exact_name he hn ht (not_letter_of_name (nlook_ne h2))
    · cases hx : isNameChar x with
      | true =>
        have hn : NameWord [x] := ⟨by simp, by simpa using hx⟩
        obtain ⟨u, hu, ht2, hl⟩ := name_prefix he hn ht
        have hlast : (([x] : Str).getLast?.map cfg.alnum).getD false = true := by
          simp [(hcfg x (hl x (by rw [hu]; simp))).2]
        rw [if_pos hlast] at h2
        exact exact_name he hn ht (not_letter_of_name (nlook_ne h2))
      | false =>
        rcases he with ⟨hw, hl, hr⟩ | ⟨c, rfl, hc⟩
        · cases w with
          | nil => exact absurd rfl hw
          | cons y w =>
            simp at ht
            have := letter_name y (hl y (by simp))
            rw [ht.1, hx] at this; cases this
        · simp at ht; simp [ht.1]
  | alphabet cmd =>
    obtain ⟨n, hn, rfl⟩ := hd
    show w = stripBackslash ('\\' :: n)
    have hstrip : stripBackslash ('\\' :: n) = n := by
      have hb : ∀ c ∈ n, (c == '\\') = false := by
        intro c hc
        cases hx : c == '\\'
        · rfl
        · simp only [beq_iff_eq] at hx; subst hx; exact absurd (hn.2 _ hc) (by decide)
      have h1 : ∀ (m : Str), (∀ c ∈ m, (c == '\\') = false) → m.dropWhile (· == '\\') = m := by
        intro m hm
        cases m with
        | nil => rfl
        | cons x m => simp [hm x (by simp)]
      unfold stripBackslash
      rw [List.dropWhile_cons, if_pos (by decide), h1 n hb, h1 n.reverse (fun c hc => hb c (by simpa using hc)), List.reverse_reverse]
    rw [hstrip]
    simp only [Def.usage] at h
    obtain ⟨t, ht, h2⟩ := lit_seq h
    rw [List.cons_append] at ht
    injection ht with _ ht
    exact exact_name he hn ht (not_letter_of_name (nlook_ne h2))
  | futurelet n c => exact simple hd letter_name (slash h)
  | let_ n c cs =>
    rcases withCsname_ne he h with h | h
    · exact .inl (simple hd letter_name (slash h))
    · exact .inr h
  | def_ n params c ed cs =>
    rcases withCsname_ne he h with h | h
    · exact .inl (defBody_name hcfg 1 he hd.1 hd.2 (slash h))
    · exact .inr h
  | newif n =>
    have h := slash h
    rw [rawRe_word hd.2] at h
    obtain ⟨t, ht, h2⟩ := lit_seq h
    show n ++ "true".toList <+: w ∨ n ++ "false".toList <+: w
    rw [show (Re.alt (.lit "true".toList) (.lit "false".toList)).run ⟨n.reverse ++ (['\\'] ++ rev), t, g⟩ =
      (Re.lit "true".toList).run ⟨n.reverse ++ (['\\'] ++ rev), t, g⟩ ++
      (Re.lit "false".toList).run ⟨n.reverse ++ (['\\'] ++ rev), t, g⟩ from rfl] at h2
    have key : ∀ kw : Str, (∀ c ∈ kw, isNameChar c = true) → (Re.lit kw).run ⟨n.reverse ++ (['\\'] ++ rev), t, g⟩ ≠ [] →
        n ++ kw <+: w := by
      intro kw hkw hne
      obtain ⟨st', hst⟩ := List.exists_mem_of_ne_nil _ hne
      obtain ⟨t', ht', _⟩ := lit_ne hst
      rw [ht', ← List.append_assoc] at ht
      obtain ⟨u, hu, _, _⟩ := name_prefix he (n := n ++ kw)
        ⟨by simp [hd.1], fun c hc => by
          rcases List.mem_append.1 hc with hc | hc
          · exact hd.2 c hc
          · exact hkw c hc⟩ ht
      exact ⟨u, hu.symm⟩
    by_cases h3 : (Re.lit "true".toList).run ⟨n.reverse ++ (['\\'] ++ rev), t, g⟩ = []
    · rw [h3, List.nil_append] at h2
      exact .inr (key _ (by decide) h2)
    · exact .inl (key _ (by decide) h3)
  | newcounter n =>
    show w = "the".toList ++ n
    simp only [Def.usage] at h
    rw [rawRe_word hd.2] at h
    obtain ⟨t, ht, h2⟩ := lit_seq h
    obtain ⟨t', ht', h3⟩ := lit_seq h2
    rw [show "\\the".toList = '\\' :: "the".toList from rfl, List.cons_append] at ht
    injection ht with _ ht
    rw [ht', ← List.append_assoc] at ht
    refine exact_name he ⟨by simp, fun c hc => ?_⟩ ht (not_letter_of_word (nlook_ne h3))
    rcases List.mem_append.1 hc with hc | hc
    · exact (by decide : ∀ c ∈ "the".toList, isNameChar c = true) c hc
    · exact hd.2 c hc
  | newlength n => exact simple hd letter_word (slash h)
  | newtoks n => exact simple hd letter_word (slash h)
  | newX n => exact simple hd letter_word (slash h)
  | paired n l r =>
    show w = n
    have h := slash h
    rw [rawRe_word hd.2] at h
    obtain ⟨t, ht, h2⟩ := lit_seq h
    refine exact_name he hd ht (fun c hc => ?_)
    cases hl : isLetter c
    · rfl
    · exfalso
      cases t with
      | nil => cases hc
      | cons x t =>
        simp at hc; subst hc
        have h1 : (x == '*') = false := by
          cases hx : x == '*'
          · rfl
          · simp only [beq_iff_eq] at hx; subst hx; revert hl; decide
        have h3 : isSpace x = false := by
          cases hx : isSpace x
          · rfl
          · exfalso
            simp only [isLetter, Bool.or_eq_true, Bool.and_eq_true, decide_eq_true_eq] at hl
            have hlo : 'A' ≤ x ∧ x ≤ 'z' := by
              rcases hl with hl | hl
              · exact ⟨Char.le_trans (by decide) hl.1, hl.2⟩
              · exact ⟨hl.1, Char.le_trans hl.2 (by decide)⟩
            have e1 : 65 ≤ x.toNat := hlo.1
            have e2 : x.toNat ≤ 122 := hlo.2
            simp only [isSpace, Bool.or_eq_true, Bool.and_eq_true, decide_eq_true_eq, beq_iff_eq] at hx
            omega
        have h4 : (x == '{') = false := by
          cases hx : x == '{'
          · rfl
          · simp only [beq_iff_eq] at hx; subst hx; revert hl; decide
        apply h2
        simp [Re.run, Re.opt, Re.lit, reSpace, iterGreedy, h1, h3]
        simpa using h4

theorem matchAt_ne {r : Re} {rev rest : Str} (h : r.matchAt rev rest ≠ none) : r.run ⟨rev, rest, []⟩ ≠ [] := by
  intro hh; apply h; unfold Re.matchAt; rw [hh]

/-- The pattern of an entry: that of the definition, or that with an optional star. -/
theorem conditional_run {cfg : Cfg} {c : Str} {u : Re} {st : MSt} (h : (conditional cfg c u).2.run st ≠ []) : u.run st ≠ [] := by
  unfold conditional at h
  simp only at h
  split at h
  · split at h
    · exact h
    · obtain ⟨st', h1, _⟩ := run_seq_ne h
      exact List.ne_nil_of_mem h1
  · exact h

/-- The entry a definition makes is not for a built-in name, and matches only where the definition's pattern does. -/
theorem entryOf_pattern {cfg : Cfg} {p : Proc} {d : Def} {sty : Bool} {e : Entry} (h : entryOf cfg p d sty = some (.ok (some e))) :
    d.name ≠ [] ∧ d.name ∉ whitelisted ∧ ∀ st, e.pattern.run st ≠ [] → (d.usage cfg).run st ≠ [] := by
  unfold entryOf at h
  simp only at h
  split at h
  · cases h
  · rename_i hn
    simp only [Bool.or_eq_true, List.isEmpty_iff, List.contains_iff_mem, not_or] at hn
    refine ⟨hn.1, hn.2, fun st => ?_⟩
    have gd : ∀ {u c e'}, guarded u c e' = some (.ok (some e)) → e' = e := by
      intro u c e' h
      unfold guarded at h
      split at h
      · cases h
      · injection h with h; injection h with h; injection h with h
    cases d with
    | newcommand n c a ds mo => rw [← gd h]; exact conditional_run
    | alphabet c => rw [← gd h]; exact conditional_run
    | futurelet n c => rw [← gd h]; exact conditional_run
    | let_ n c cs =>
      simp only at h
      split at h
      · cases h
      · cases h
      · injection h with h; injection h with h; injection h with h; rw [← h]; exact id
    | def_ n ps c ed cs =>
      simp only at h
      split at h
      · cases h
      · cases h
      · injection h with h; injection h with h; injection h with h; rw [← h]
        simp only
        split
        · exact conditional_run
        · exact id
    | newif n => injection h with h; injection h with h; injection h with h; rw [← h]; exact id
    | newcounter n => injection h with h; injection h with h; injection h with h; rw [← h]; exact id
    | newlength n => injection h with h; injection h with h; injection h with h; rw [← h]; exact id
    | newtoks n => injection h with h; injection h with h; injection h with h; rw [← h]; exact id
    | newX n => injection h with h; injection h with h; injection h with h; rw [← h]; exact id
    | paired n l r => injection h with h; injection h with h; injection h with h; rw [← h]; exact id

/-- The dictionary a place is in. -/
def Proc.dict (p : Proc) (isLet : Bool) : Dict Entry := if isLet then p.lets else p.commands

/-- Where an entry comes from. -/
def Origin (cfg : Cfg) (hs : List (Def × Bool)) (pl : Place) (e : Entry) : Prop :=
  ∃ x ∈ hs, ∃ p, x.1.place = pl ∧ entryOf cfg p x.1 x.2 = some (.ok (some e))

theorem put_dict (p : Proc) (pl : Place) (e : Entry) (b : Bool) :
    (p.put pl e).dict b = if pl.isLet = b then (p.dict b).set pl.key e else p.dict b := by
  obtain ⟨l, k⟩ := pl
  cases b <;> cases l <;> simp [Proc.put, Proc.dict]

theorem register_cases {cfg : Cfg} {p p' : Proc} {d : Def} {sty : Bool} (h : register cfg p d sty = some (.ok p')) :
    (entryOf cfg p d sty = some (.ok none) ∧ p' = p) ∨ ∃ e, entryOf cfg p d sty = some (.ok (some e)) ∧ p' = p.put d.place e := by
  unfold register at h
  split at h
  · cases h
  · cases h
  · rename_i hh; injection h with h; injection h with h; exact .inl ⟨hh, h.symm⟩
  · rename_i e he; injection h with h; injection h with h; exact .inr ⟨e, he, h.symm⟩

theorem registerAll_cons {cfg : Cfg} {p p' : Proc} {d : Def} {sty : Bool} {hs}
    (h : registerAll cfg p ((d, sty) :: hs) = some (.ok p')) :
    ∃ p1, register cfg p d sty = some (.ok p1) ∧ registerAll cfg p1 hs = some (.ok p') := by
  unfold registerAll at h
  split at h
  · cases h
  · cases h
  · rename_i p1 h1; exact ⟨p1, h1, h⟩

theorem registerAll_append {cfg : Cfg} : ∀ (as bs : List (Def × Bool)) (p p' : Proc),
    registerAll cfg p (as ++ bs) = some (.ok p') →
    ∃ p1, registerAll cfg p as = some (.ok p1) ∧ registerAll cfg p1 bs = some (.ok p')
  | [], bs, p, p', h => ⟨p, rfl, h⟩
  | (d, sty) :: as, bs, p, p', h => by
    obtain ⟨p1, h1, h2⟩ := registerAll_cons h
    obtain ⟨p2, h3, h4⟩ := registerAll_append as bs p1 p' h2
    refine ⟨p2, ?_, h4⟩
    unfold registerAll
    rw [h1]; exact h3

theorem registerAll_origin {cfg : Cfg} (hs0 : List (Def × Bool)) : ∀ (hs : List (Def × Bool)) (p p' : Proc), hs ⊆ hs0 →
    (∀ b, ∀ e ∈ p.dict b, Origin cfg hs0 ⟨b, e.1⟩ e.2) → registerAll cfg p hs = some (.ok p') →
    ∀ b, ∀ e ∈ p'.dict b, Origin cfg hs0 ⟨b, e.1⟩ e.2
  | [], p, p', _, hp, h => by injection h with h; injection h with h; rw [← h]; exact hp
  | (d, sty) :: hs, p, p', hsub, hp, h => by
    obtain ⟨p1, h1, h2⟩ := registerAll_cons h
    refine registerAll_origin hs0 hs p1 p' (fun x hx => hsub (by simp [hx])) ?_ h2
    rcases register_cases h1 with ⟨_, rfl⟩ | ⟨e, he, rfl⟩
    · exact hp
    · intro b x hx
      rw [put_dict] at hx
      split at hx
      · rename_i hb
        rcases mem_set _ _ _ _ hx with h5 | h5
        · exact hp b x h5
        · subst hb; subst h5
          exact ⟨(d, sty), hsub (by simp), p, rfl, he⟩
      · exact hp b x hx

/-- Every command of a processor comes from a definition of its history. -/
theorem origin {cfg : Cfg} {hs : List (Def × Bool)} {p : Proc} (h : registerAll cfg Proc.empty hs = some (.ok p)) :
    ∀ b, ∀ e ∈ p.dict b, Origin cfg hs ⟨b, e.1⟩ e.2 :=
  registerAll_origin hs hs _ p (fun _ hx => hx) (fun b e he => by cases b <;> cases he) h

theorem mem_dict {p : Proc} {e : Str × Entry} (h : e ∈ p.commands ++ p.lets) : ∃ b, e ∈ p.dict b := by
  rcases List.mem_append.1 h with h | h
  · exact ⟨false, h⟩
  · exact ⟨true, h⟩

theorem builtin_facts : ∀ w ∈ whitelisted, ¬ "the".toList <+: w ∧ ¬ "csname".toList <+: w ∧ ¬ "true".toList <:+: w ∧
    ¬ "false".toList <:+: w := by
  decide +kernel

/-- C34: no entry matches at a built-in command. -/
theorem builtin_free {cfg : Cfg} (hcfg : Letters cfg) {hs : List (Def × Bool)} (hpl : ∀ x ∈ hs, PlainDef x.1) {p : Proc}
    (h : registerAll cfg Proc.empty hs = some (.ok p)) {w rest : Str} (hw : w ∈ whitelisted) (he : Ends w rest)
    (rev : Str) (e : Str × Entry) (hm : e ∈ p.commands ++ p.lets) : e.2.pattern.matchAt rev ('\\' :: (w ++ rest)) = none := by
  obtain ⟨b, hb⟩ := mem_dict hm
  obtain ⟨⟨d, sty⟩, hx, p0, _, hent⟩ := origin h b e hb
  obtain ⟨hne, hnw, hrun⟩ := entryOf_pattern hent
  cases hmat : e.2.pattern.matchAt rev ('\\' :: (w ++ rest)) with
  | none => rfl
  | some m =>
    exfalso
    have hmeant := usage_meant hcfg (hpl _ hx) he (hrun _ (matchAt_ne (by rw [hmat]; simp)))
    obtain ⟨f1, f2, f3, f4⟩ := builtin_facts w hw
    simp only at hne hnw hmeant
    have inf : ∀ {n kw : Str}, n ++ kw <+: w → kw <:+: w := by
      rintro n kw ⟨t, ht⟩; exact ⟨n, t, ht⟩
    cases d with
    | newif n => exact hmeant.elim (fun h => f3 (inf h)) (fun h => f4 (inf h))
    | newcounter n => exact f1 ⟨n, hmeant.symm⟩
    | let_ n c cs =>
      rcases hmeant with hh | hh
      · subst hh; exact hnw hw
      · exact f2 hh.2
    | def_ n ps c ed cs =>
      rcases hmeant with hh | hh
      · subst hh; exact hnw hw
      · exact f2 hh.2
    | newcommand n c a ds mo => rw [← (hmeant : w = _)] at hnw; exact hnw hw
    | alphabet c => rw [← (hmeant : w = _)] at hnw; exact hnw hw
    | futurelet n c => rw [← (hmeant : w = _)] at hnw; exact hnw hw
    | newlength n => rw [← (hmeant : w = _)] at hnw; exact hnw hw
    | newtoks n => rw [← (hmeant : w = _)] at hnw; exact hnw hw
    | newX n => rw [← (hmeant : w = _)] at hnw; exact hnw hw
    | paired n l r => rw [← (hmeant : w = _)] at hnw; exact hnw hw

/-- C34: whatever is defined, and however it is written, no command is kept under a built-in name. -/
theorem C34_keys (cfg : Cfg) (hs : List (Def × Bool)) (p : Proc) (h : registerAll cfg Proc.empty hs = some (.ok p))
    (e : Str × Entry) (hm : e ∈ p.commands ++ p.lets) : e.1 ∉ whitelisted := by
  obtain ⟨b, hb⟩ := mem_dict hm
  obtain ⟨⟨d, sty⟩, _, p0, hpl, hent⟩ := origin h b e hb
  have hn := (entryOf_pattern hent).2.1
  have hkey : d.place.key = e.1 := by
    have : (d, sty).1.place.key = e.1 := by rw [hpl]
    exact this
  have nocolon : ∀ w ∈ whitelisted, ':' ∉ w := by decide +kernel
  rw [← hkey]
  cases d with
  | newif m => exact fun hw => nocolon _ hw (List.mem_append_left _ (by decide))
  | newcounter m => exact fun hw => nocolon _ hw (List.mem_append_left _ (by decide))
  | newlength m => exact fun hw => nocolon _ hw (List.mem_append_left _ (by decide))
  | newtoks m => exact fun hw => nocolon _ hw (List.mem_append_left _ (by decide))
  | newX m => exact fun hw => nocolon _ hw (List.mem_append_left _ (by decide))
  | newcommand => exact hn
  | alphabet => exact hn
  | futurelet => exact hn
  | let_ => exact hn
  | def_ => exact hn
  | paired => exact hn

theorem merge_mem {β} : ∀ (b a : Dict β) (e : Str × β), e ∈ merge a b → e ∈ a ∨ e ∈ b
  | [], a, e, h => .inl h
  | x :: b, a, e, h => by
    rcases merge_mem b (a.set x.1 x.2) e h with h | h
    · rcases mem_set _ _ _ _ h with h | h
      · exact .inl h
      · exact .inr (by rw [h]; simp)
    · exact .inr (by simp [h])

theorem entries_mem {p : Proc} {e : Entry} (h : e ∈ p.entries) : (∃ k, (k, e) ∈ p.commands ++ p.lets) ∧ e.mathOnly = false := by
  unfold Proc.entries at h
  obtain ⟨h, hm⟩ := List.mem_filter.1 h
  obtain ⟨⟨k, e'⟩, h2, rfl⟩ := List.mem_map.1 h
  exact ⟨⟨k, by simpa using merge_mem _ _ _ h2⟩, by simpa using hm⟩

theorem firstMatch_none {text : Str} : ∀ (es : List Entry), (∀ e ∈ es, e.pattern.matchAt [] text = none) → firstMatch text es = none
  | [], _ => rfl
  | e :: es, h => by
    unfold firstMatch
    rw [h e (by simp)]
    exact firstMatch_none es (fun e he => h e (by simp [he]))

/-- C34, the built-in commands (the names made of letters, and `\\`): whatever was defined before, in the usual way of writing
definitions, the parser does not take a built-in command for a user's and leaves it to its own handlers.
Partial: see `C34_violated_*` for what unusual ways of writing do. -/
theorem C34_builtin_partial (cfg : Cfg) (hcfg : Letters cfg) (hs : List (Def × Bool)) (hpl : ∀ x ∈ hs, PlainDef x.1) (p : Proc)
    (h : registerAll cfg Proc.empty hs = some (.ok p)) (w rest : Str) (hw : w ∈ whitelisted) (he : Ends w rest) :
    p.canHandle ('\\' :: (w ++ rest)) = false ∧ p.handle cfg ('\\' :: (w ++ rest)) = ('\\' :: (w ++ rest), 0) := by
  have hf : firstMatch ('\\' :: (w ++ rest)) p.entries = none := by
    refine firstMatch_none _ (fun e hx => ?_)
    obtain ⟨⟨k, hk⟩, _⟩ := entries_mem hx
    exact builtin_free hcfg hpl h hw he [] (k, e) hk
  have hc : csnameRe.matchAt [] ('\\' :: (w ++ rest)) = none := by
    cases hm : csnameRe.matchAt [] ('\\' :: (w ++ rest)) with
    | none => rfl
    | some m =>
      exfalso
      have hr := matchAt_ne (r := csnameRe) (rev := []) (rest := '\\' :: (w ++ rest)) (by rw [hm]; simp)
      obtain ⟨st', h1, _⟩ := run_seq_ne hr
      obtain ⟨t, ht, _⟩ := lit_seq (List.ne_nil_of_mem h1)
      rw [show "\\csname".toList = '\\' :: "csname".toList from rfl, List.cons_append] at ht
      injection ht with _ ht
      exact (builtin_facts w hw).2.1 (csname_prefix he ht)
  constructor
  · unfold Proc.canHandle; rw [hf, hc]; rfl
  · unfold Proc.handle handleCsname; rw [hf, hc]

/-- Names of LaTeX that carry the structure of a document, and its fonts. -/
def _root_.L2J.Spec.reserved : List String := ["newcommand", "begin", "end", "part", "chapter", "section", "subsection", "subsubsection",
  "paragraph", "subparagraph", "newline", "maketitle", "title", "author", "and", "thanks", "date", "abstract", "table", "figure", "cite", "citep",
  "citet", "caption", "captionof", "bibitem", "url", "ref", "appendix", "appendices", "textbf", "textit", "textsl", "textsc", "textsf", "texttt",
  "textrm", "textup", "emph", "text", "tt", "bf", "it", "sl", "sc", "sf", "rm", "em", "tiny", "scriptsize", "footnotesize", "small",
  "normalsize", "large", "Large", "LARGE", "huge", "Huge"]

theorem reserved_in : ∀ w ∈ reserved, w.toList ∈ whitelisted := by decide +kernel

/-- C34 for the names listed in `Spec.reserved`. -/
theorem C34_reserved_partial (cfg : Cfg) (hcfg : Letters cfg) (hs : List (Def × Bool)) (hpl : ∀ x ∈ hs, PlainDef x.1) (p : Proc)
    (h : registerAll cfg Proc.empty hs = some (.ok p)) (w : String) (rest : Str) (hw : w ∈ reserved) (he : Ends w.toList rest) :
    p.canHandle ('\\' :: (w.toList ++ rest)) = false ∧ p.handle cfg ('\\' :: (w.toList ++ rest)) = ('\\' :: (w.toList ++ rest), 0) :=
  C34_builtin_partial cfg hcfg hs hpl p h w.toList rest (reserved_in w hw) he

/-- A text whose only commands are built-in ones. -/
inductive _root_.L2J.Spec.OnlyBuiltin : Str → Prop
  | nil : OnlyBuiltin []
  | chr (c s) : c ≠ '\\' → OnlyBuiltin s → OnlyBuiltin (c :: s)
  | cmd (w s) : w ∈ whitelisted → Ends w s → '\\' ∉ w → OnlyBuiltin s → OnlyBuiltin ('\\' :: (w ++ s))

theorem usage_slash {cfg : Cfg} {d : Def} (hd : PlainDef d) {st : MSt} (h : (d.usage cfg).run st ≠ []) : st.rest.head? = some '\\' := by
  obtain ⟨rev, rest, g⟩ := st
  have key : ∀ {s : Str} {r : Re}, (Re.seq (.lit ('\\' :: s)) r).run ⟨rev, rest, g⟩ ≠ [] → rest.head? = some '\\' := by
    intro s r h
    obtain ⟨t, rfl, _⟩ := lit_seq h
    rfl
  have cs : ∀ {main : Re} {cs : Option Str} {sfx : Re}, (withCsname main cs sfx).run ⟨rev, rest, g⟩ ≠ [] →
      (main.run ⟨rev, rest, g⟩ ≠ [] → rest.head? = some '\\') → rest.head? = some '\\' := by
    intro main cs sfx h hm
    unfold withCsname at h
    cases cs with
    | none => exact hm h
    | some inner =>
      simp only at h
      by_cases hx : main.run ⟨rev, rest, g⟩ = []
      · rw [show (Re.alt main (Re.seq (.lit "\\csname".toList) (.seq (rawRe inner) (.seq (.lit "\\endcsname".toList) sfx)))).run
          ⟨rev, rest, g⟩ = main.run ⟨rev, rest, g⟩ ++ (Re.seq (.lit "\\csname".toList)
            (.seq (rawRe inner) (.seq (.lit "\\endcsname".toList) sfx))).run ⟨rev, rest, g⟩ from rfl, hx, List.nil_append] at h
        exact key (s := "csname".toList) h
      · exact hm hx
  show rest.head? = _
  cases d with
  | newcommand n c a ds mo => exact key h
  | alphabet c => obtain ⟨n, _, rfl⟩ := hd; exact key h
  | futurelet n c => exact key h
  | let_ n c c2 => exact cs h key
  | def_ n ps c ed c2 => exact cs h key
  | newif n => exact key h
  | newcounter n => exact key (s := "the".toList) h
  | newlength n => exact key h
  | newtoks n => exact key h
  | newX n => exact key h
  | paired n l r => exact key h

/-- No entry of the history matches anywhere in a text whose only commands are built-in. -/
theorem onlyBuiltin_search {cfg : Cfg} (hcfg : Letters cfg) {hs : List (Def × Bool)} (hpl : ∀ x ∈ hs, PlainDef x.1) {p : Proc}
    (h : registerAll cfg Proc.empty hs = some (.ok p)) {s : Str} (hs : OnlyBuiltin s) (e : Str × Entry)
    (hm : e ∈ p.commands ++ p.lets) : e.2.pattern.search s = none := by
  have hno : ∀ rev t, t.head? ≠ some '\\' → e.2.pattern.matchAt rev t = none := by
    intro rev t ht
    obtain ⟨b, hb⟩ := mem_dict hm
    obtain ⟨⟨d, sty⟩, hx, p0, _, hent⟩ := origin h b e hb
    cases hmat : e.2.pattern.matchAt rev t with
    | none => rfl
    | some m => exact absurd (usage_slash (hpl _ hx) ((entryOf_pattern hent).2.2 _ (matchAt_ne (by rw [hmat]; simp)))) ht
  have key : ∀ rev, e.2.pattern.searchFrom rev s = none := by
    induction hs with
    | nil => intro rev; exact hno rev [] (by simp)
    | chr c s hc _ ih =>
      intro rev
      unfold Re.searchFrom
      rw [hno rev (c :: s) (by simpa using hc)]
      exact ih _
    | cmd w s hw he hb _ ih =>
      intro rev
      unfold Re.searchFrom
      rw [builtin_free hcfg hpl h hw he rev e hm]
      simp only
      have : ∀ (w : Str) rev, '\\' ∉ w → e.2.pattern.searchFrom rev (w ++ s) = none := by
        intro w
        induction w with
        | nil => intro rev _; exact ih rev
        | cons c w ih2 =>
          intro rev hb
          rw [List.cons_append]
          unfold Re.searchFrom
          rw [hno rev _ (by simp; intro hh; exact hb (by simp [hh]))]
          exact ih2 _ (by simp at hb; exact hb.2)
      exact this w _ hb
  exact key []

/-- C34: expanding a text whose only commands are built-in ones does not change it, whatever was defined. -/
theorem C34_expand_partial (cfg : Cfg) (hcfg : Letters cfg) (hs : List (Def × Bool)) (hpl : ∀ x ∈ hs, PlainDef x.1) (p : Proc)
    (h : registerAll cfg Proc.empty hs = some (.ok p)) (s : Str) (hs : OnlyBuiltin s) (math : Bool) :
    p.expand cfg s true math = some (.ok s) := by
  have hsub : ∀ (es : Dict Entry), (∀ e ∈ es, e ∈ p.commands ++ p.lets) → expandWith cfg es math s = some (.ok s) := by
    intro es hes
    have hr : round cfg es math s = some s := by
      have key : ∀ (es : Dict Entry), (∀ e ∈ es, e.2.pattern.search s = none) →
          substPatterns Match.start (fun t => t.length + 1) (es.map fun e => (e.2.pattern.search, subFn cfg e.2 math)) s = some s := by
        intro es hes
        induction es with
        | nil => rfl
        | cons e es ih =>
          simp only [List.map_cons, substPatterns]
          have : substLoop e.2.pattern.search Match.start (subFn cfg e.2 math) (s.length + 1) s 0 = some s := by
            unfold substLoop
            rw [List.drop_zero, hes e (by simp)]
          rw [this]
          exact ih (fun e he => hes e (by simp [he]))
      exact key es (fun e he => onlyBuiltin_search hcfg hpl h hs e (hes e he))
    unfold expandWith rounds
    rw [hr]
    simp
  unfold Proc.expand
  simp only
  rw [hsub _ (fun e he => by
    split at he
    · simp [he]
    · simp [(List.mem_filter.1 he).1])]
  simp only
  rw [hsub p.lets (fun e he => by simp [he])]
  simp

theorem set_keys {β} (d : Dict β) (k : Str) (v : β) :
    (Dict.set d k v).map (·.1) = if k ∈ d.map (·.1) then d.map (·.1) else d.map (·.1) ++ [k] := by
  induction d with
  | nil => simp [Dict.set]
  | cons x d ih =>
    obtain ⟨a, b⟩ := x
    simp only [Dict.set]
    by_cases h : a = k
    · subst h; simp
    · have h' : ¬ k = a := fun hh => h hh.symm
      simp only [if_neg h, List.map_cons, ih, List.mem_cons, h', false_or]
      split <;> simp

theorem set_nodup {β} (d : Dict β) (k : Str) (v : β) (h : (d.map (·.1)).Nodup) : ((Dict.set d k v).map (·.1)).Nodup := by
  rw [set_keys]
  split
  · exact h
  · rename_i hk
    rw [List.nodup_append]
    refine ⟨h, by simp, ?_⟩
    intro a ha b hb hab
    simp at hb; subst hb; subst hab; exact hk ha

theorem get_of_mem {β} : ∀ (d : Dict β), (d.map (·.1)).Nodup → ∀ k v, (k, v) ∈ d → Dict.get? d k = some v
  | [], _, k, v, h => by cases h
  | (a, b) :: d, hn, k, v, h => by
    simp only [List.map_cons, List.nodup_cons] at hn
    rcases List.mem_cons.1 h with h | h
    · injection h with h1 h2; subst h1; subst h2; simp [Dict.get?]
    · have : a ≠ k := by
        intro hh; subst hh
        exact hn.1 (List.mem_map.2 ⟨(a, v), h, rfl⟩)
      simp only [Dict.get?, if_neg this]
      exact get_of_mem d hn.2 k v h

theorem mem_of_get {β} : ∀ (d : Dict β) (k : Str) (v : β), Dict.get? d k = some v → (k, v) ∈ d
  | [], k, v, h => by cases h
  | (a, b) :: d, k, v, h => by
    simp only [Dict.get?] at h
    split at h
    · rename_i hh; subst hh; injection h with h; subst h; simp
    · exact List.mem_cons.2 (.inr (mem_of_get d k v h))

theorem registerAll_nodup {cfg : Cfg} : ∀ (hs : List (Def × Bool)) (p p' : Proc),
    (∀ b, ((p.dict b).map (·.1)).Nodup) → registerAll cfg p hs = some (.ok p') → ∀ b, ((p'.dict b).map (·.1)).Nodup
  | [], p, p', hp, h => by injection h with h; injection h with h; rw [← h]; exact hp
  | (d, sty) :: hs, p, p', hp, h => by
    obtain ⟨p1, h1, h2⟩ := registerAll_cons h
    refine registerAll_nodup hs p1 p' ?_ h2
    rcases register_cases h1 with ⟨_, rfl⟩ | ⟨e, he, rfl⟩
    · exact hp
    · intro b
      rw [put_dict]
      split
      · exact set_nodup _ _ _ (hp b)
      · exact hp b

/-- Definitions for other places leave an entry alone. -/
theorem registerAll_keeps {cfg : Cfg} (pl : Place) : ∀ (hs : List (Def × Bool)) (p p' : Proc), (∀ x ∈ hs, x.1.place ≠ pl) →
    registerAll cfg p hs = some (.ok p') → Dict.get? (p'.dict pl.isLet) pl.key = Dict.get? (p.dict pl.isLet) pl.key
  | [], p, p', _, h => by injection h with h; injection h with h; rw [← h]
  | (d, sty) :: hs, p, p', hne, h => by
    obtain ⟨p1, h1, h2⟩ := registerAll_cons h
    rw [registerAll_keeps pl hs p1 p' (fun x hx => hne x (by simp [hx])) h2]
    rcases register_cases h1 with ⟨_, rfl⟩ | ⟨e, he, rfl⟩
    · rfl
    · rw [put_dict]
      split
      · rename_i hb
        rw [Dict.get?_set, if_neg]
        intro hk
        refine hne (d, sty) (by simp) ?_
        show d.place = pl
        cases hdp : d.place; cases pl
        rw [hdp] at hb hk
        simp only at hb hk
        rw [hb, hk]
      · rfl

theorem merge_get {β} : ∀ (b a : Dict β), (b.map (·.1)).Nodup → ∀ k, Dict.get? (merge a b) k = (Dict.get? b k).or (Dict.get? a k)
  | [], a, _, k => by simp [merge, Dict.get?]
  | (x, v) :: b, a, hn, k => by
    simp only [List.map_cons, List.nodup_cons] at hn
    have := merge_get b (a.set x v) hn.2 k
    show Dict.get? (merge (a.set x v) b) k = _
    rw [this, Dict.get?_set]
    simp only [Dict.get?]
    by_cases hx : x = k
    · subst hx
      have hno : Dict.get? b x = none := by
        cases hg : Dict.get? b x with
        | none => rfl
        | some w => exact absurd (List.mem_map.2 ⟨(x, w), mem_of_get _ _ _ hg, rfl⟩) hn.1
      simp [hno]
    · simp [hx]

/-- A definition whose entry has a command's name for a key is for that command. -/
theorem key_meant {d : Def} {n : Str} (hn : Ends n []) (h : d.place.key = n) : Meant d n := by
  have hcolon : ∀ (a m : Str), a.length ≥ 2 → ':' ∈ a → a ++ m = n → False := by
    intro a m hl hc he
    rcases hn with ⟨_, hn, _⟩ | ⟨c, rfl, _⟩
    · have := hn ':' (by rw [← he]; simp [hc])
      revert this; decide
    · have := congrArg List.length he
      simp at this; omega
  cases d with
  | newcommand => exact h.symm
  | alphabet => exact h.symm
  | futurelet => exact h.symm
  | let_ => exact .inl h.symm
  | def_ => exact .inl h.symm
  | newif m => exact (hcolon _ m (by decide) (by decide) h).elim
  | newcounter m => exact (hcolon _ m (by decide) (by decide) h).elim
  | newlength m => exact (hcolon _ m (by decide) (by decide) h).elim
  | newtoks m => exact (hcolon _ m (by decide) (by decide) h).elim
  | newX m => exact (hcolon _ m (by decide) (by decide) h).elim
  | paired => exact h.symm

theorem firstMatch_only {text : Str} {e : Entry} {m : Match} (hm : e.pattern.matchAt [] text = some m) : ∀ (es : List Entry), e ∈ es →
    (∀ e' ∈ es, e'.pattern.matchAt [] text ≠ none → e' = e) → firstMatch text es = some (e, m)
  | [], h, _ => by cases h
  | x :: es, h, hu => by
    unfold firstMatch
    cases hx : x.pattern.matchAt [] text with
    | some m' =>
      have := hu x (by simp) (by rw [hx]; simp)
      subst this
      rw [hm] at hx; injection hx with hx; rw [hx]
    | none =>
      simp only
      rcases List.mem_cons.1 h with h | h
      · rw [← h, hm] at hx; cases hx
      · exact firstMatch_only hm es h (fun e' he => hu e' (by simp [he]))

/-- C34, the latest definition. In a history of plain definitions let `d` be the last one for the command `\n`, with the entry `e`,
and let the earlier ones for `\n` be of a kind that shares its place with `d` (all `\let`, or none `\let`, `\newlength` and so on).
Then, wherever `\n` stands, `e` is the only command of the processor that can match there, and if it does, it is what the parser uses.
Partial: for the other mixtures of kinds see `C34_violated_*`. -/
theorem C34_latest_partial (cfg : Cfg) (hcfg : Letters cfg) (before after : List (Def × Bool)) (d : Def) (sty : Bool) (n : Str)
    (hpl : ∀ x ∈ before ++ (d, sty) :: after, PlainDef x.1) (p0 p : Proc) (e : Entry)
    (h0 : registerAll cfg Proc.empty before = some (.ok p0)) (hent : entryOf cfg p0 d sty = some (.ok (some e)))
    (h : registerAll cfg Proc.empty (before ++ (d, sty) :: after) = some (.ok p)) (hkey : d.place.key = n)
    (hsame : ∀ x ∈ before, Meant x.1 n → x.1.place = d.place) (hafter : ∀ x ∈ after, ¬ Meant x.1 n)
    (rest : Str) (he : Ends n rest) :
    (∀ rev, ∀ e' ∈ p.commands ++ p.lets, e'.2.pattern.matchAt rev ('\\' :: (n ++ rest)) ≠ none → e' = (n, e)) ∧
    ∀ m, e.pattern.matchAt [] ('\\' :: (n ++ rest)) = some m → e.mathOnly = false →
      p.handle cfg ('\\' :: (n ++ rest)) =
        if m.text = (e.handler.run cfg m ('\\' :: (n ++ rest)) false).1 then ([], m.stop)
        else e.handler.run cfg m ('\\' :: (n ++ rest)) false := by
  have hend : Ends n [] := by
    rcases he with ⟨h1, h2, _⟩ | hh
    · exact .inl ⟨h1, h2, fun c hc => by cases hc⟩
    · exact .inr hh
  obtain ⟨p1, h1, h2⟩ := registerAll_append before _ _ p h
  rw [h0] at h1; injection h1 with h1; injection h1 with h1; subst h1
  obtain ⟨p2, h3, h4⟩ := registerAll_cons h2
  have hp2 : p2 = p0.put d.place e := by
    rcases register_cases h3 with ⟨hh, _⟩ | ⟨e', hh, hp⟩
    · rw [hent] at hh; injection hh with hh; injection hh with hh; cases hh
    · rw [hent] at hh; injection hh with hh; injection hh with hh; injection hh with hh; subst hh; exact hp
  have hget : Dict.get? (p.dict d.place.isLet) n = some e := by
    have := registerAll_keeps d.place after p2 p (fun x hx hh => hafter x hx (key_meant hend (by rw [hh, hkey]))) h4
    rw [hkey] at this
    rw [this, hp2, put_dict, if_pos rfl, hkey, Dict.get?_set, if_pos rfl]
  have hnd := registerAll_nodup _ _ p (fun b => by cases b <;> exact List.nodup_nil) h
  have hplace : ∀ x ∈ before ++ (d, sty) :: after, Meant x.1 n → x.1.place = d.place := by
    intro x hx hm
    rcases List.mem_append.1 hx with hx | hx
    · exact hsame x hx hm
    · rcases List.mem_cons.1 hx with hx | hx
      · rw [hx]
      · exact absurd hm (hafter x hx)
  have honly : ∀ rev, ∀ e' ∈ p.commands ++ p.lets, e'.2.pattern.matchAt rev ('\\' :: (n ++ rest)) ≠ none → e' = (n, e) := by
    intro rev e' hm hmat
    obtain ⟨b, hb⟩ := mem_dict hm
    obtain ⟨x, hx, q, hxp, hxe⟩ := origin h b e' hb
    have hmeant := usage_meant hcfg (hpl x hx) he ((entryOf_pattern hxe).2.2 _ (matchAt_ne hmat))
    have hpl := hplace x hx hmeant
    rw [hxp] at hpl
    have hb' : b = d.place.isLet := by rw [← hpl]
    have hk : e'.1 = n := by rw [← hkey, ← hpl]
    have := get_of_mem _ (hnd b) e'.1 e'.2 hb
    rw [hb', hk, hget] at this
    injection this with this
    obtain ⟨k, v⟩ := e'
    simp only at hk this
    rw [hk, this]
  refine ⟨honly, fun m hm hmo => ?_⟩
  have hmem : e ∈ p.entries := by
    have hmg : Dict.get? (merge p.commands p.lets) n = some e := by
      rw [merge_get p.lets p.commands (hnd true)]
      cases hl : d.place.isLet with
      | true =>
        rw [hl] at hget
        have : Dict.get? p.lets n = some e := hget
        simp [this]
      | false =>
        rw [hl] at hget
        have h5 : Dict.get? p.commands n = some e := hget
        have h6 : Dict.get? p.lets n = none := by
          cases hg : Dict.get? p.lets n with
          | none => rfl
          | some w =>
            obtain ⟨x, hx, q, hxp, hxe⟩ := origin h true (n, w) (mem_of_get _ _ _ hg)
            have := hplace x hx (key_meant hend (by rw [hxp]))
            rw [hxp] at this
            rw [← this] at hl; cases hl
        simp [h5, h6]
    unfold Proc.entries
    rw [List.mem_filter]
    exact ⟨List.mem_map.2 ⟨(n, e), mem_of_get _ _ _ hmg, rfl⟩, by simp [hmo]⟩
  have hf := firstMatch_only hm p.entries hmem (fun e' he' hmat => by
    obtain ⟨⟨k, hk⟩, _⟩ := entries_mem he'
    have := honly [] (k, e') hk hmat
    injection this)
  unfold Proc.handle
  rw [hf]

theorem newcommand_run (cfg : Cfg) (n rest rev : Str) (hr : ∀ c, rest.head? = some c → isNameChar c = false) :
    (newcommandUsage cfg n).run ⟨rev, '\\' :: (n ++ rest), []⟩ = [⟨('\\' :: n).reverse ++ rev, rest, []⟩] := by
  have hs : suffixRe.run ⟨('\\' :: n).reverse ++ rev, rest, []⟩ = [⟨('\\' :: n).reverse ++ rev, rest, []⟩] := by
    cases rest with
    | nil => rfl
    | cons x rest =>
      have := hr x rfl
      simp [suffixRe, Re.run, this]
  unfold newcommandUsage
  generalize hb : (n.getLast?.map cfg.alnum).getD false = b
  rw [show (Re.seq (.lit ('\\' :: n)) (if b then suffixRe else .eps)).run ⟨rev, '\\' :: (n ++ rest), []⟩
    = ((Re.lit ('\\' :: n)).run ⟨rev, '\\' :: (n ++ rest), []⟩).flatMap (if b then suffixRe else .eps).run from rfl, Re.run_lit]
  have hp : ('\\' :: n).isPrefixOf ('\\' :: (n ++ rest)) = true := by
    rw [List.isPrefixOf_iff_prefix]; exact ⟨rest, rfl⟩
  have hd : ('\\' :: (n ++ rest)).drop ('\\' :: n).length = rest := by
    rw [← List.cons_append, List.drop_left]
  rw [hp, if_pos rfl, hd]
  simp only [List.flatMap_cons, List.flatMap_nil, List.append_nil]
  cases b with
  | true => exact hs
  | false => rfl

theorem newcommand_match (cfg : Cfg) (n rest rev : Str) (hr : ∀ c, rest.head? = some c → isNameChar c = false) :
    (newcommandUsage cfg n).matchAt rev ('\\' :: (n ++ rest)) = some ⟨rev, '\\' :: (n ++ rest), n.length + 1, []⟩ := by
  unfold Re.matchAt
  rw [newcommand_run cfg n rest rev hr]
  simp
  omega

/-- C34: the use of a `\newcommand` without parameters that is the last definition of its name gives its content, and exactly the command
is replaced. -/
theorem C34_newcommand_used_partial (cfg : Cfg) (hcfg : Letters cfg) (before after : List (Def × Bool)) (n content : Str)
    (hpl : ∀ x ∈ before ++ (.newcommand n content 0 [] false, false) :: after, PlainDef x.1) (p0 p : Proc)
    (h0 : registerAll cfg Proc.empty before = some (.ok p0))
    (h : registerAll cfg Proc.empty (before ++ (.newcommand n content 0 [] false, false) :: after) = some (.ok p))
    (hw : n ∉ whitelisted) (hself : (newcommandUsage cfg n).search content = none)
    (hstar : startsWith (strip content) "\\@ifstar".toList = false)
    (hsame : ∀ x ∈ before, Meant x.1 n → x.1.place = ⟨false, n⟩) (hafter : ∀ x ∈ after, ¬ Meant x.1 n)
    (hn : n ≠ [] ∧ ∀ c ∈ n, isLetter c = true) (rest : Str) (hr : ∀ c, rest.head? = some c → isNameChar c = false) :
    p.handle cfg ('\\' :: (n ++ rest)) = (content, n.length + 1) := by
  have hcond : conditional cfg content (newcommandUsage cfg n) = (.plain content, newcommandUsage cfg n) := by
    unfold conditional; simp only [hstar]; rfl
  have hent : entryOf cfg p0 (.newcommand n content 0 [] false) false =
      some (.ok (some ⟨newcommandUsage cfg n, .body (.plain content), false⟩)) := by
    unfold entryOf
    have h1 : ((Def.newcommand n content 0 [] false).name.isEmpty ||
        whitelisted.contains (Def.newcommand n content 0 [] false).name) = false := by
      simp only [Def.name, Bool.or_eq_false_iff]
      exact ⟨by simpa using hn.1, by simpa using hw⟩
    simp only [h1, Bool.false_eq_true, if_false, Def.usage, guarded, hself, newcommandEntry, hcond, Option.isSome_none,
      Bool.and_false, if_true]
  obtain ⟨_, hh⟩ := C34_latest_partial cfg hcfg before after (.newcommand n content 0 [] false) false n hpl p0 p _ h0 hent h rfl
    hsame hafter rest (.inl ⟨hn.1, hn.2, hr⟩)
  have hmat := newcommand_match cfg n rest [] hr
  rw [hh _ hmat rfl]
  have htext : (⟨[], '\\' :: (n ++ rest), n.length + 1, []⟩ : Match).text = '\\' :: n := by
    simp [Match.text]
  rw [htext]
  simp only [Handler.run, Body.get, Match.stop, List.length_nil, Nat.zero_add]
  rw [if_neg]
  intro hc
  rw [← hc] at hself
  have := newcommand_match cfg n [] [] (fun c hc => by cases hc)
  rw [List.append_nil] at this
  unfold Re.search Re.searchFrom at hself
  rw [this] at hself
  cases hself

/-- The processor after a history, in the example configuration. -/
def after0 (hs : List (Def × Bool)) : Proc :=
  match registerAll cfg0 Proc.empty hs with
  | some (.ok p) => p
  | _ => Proc.empty

/-- The expansion of a text, in the example configuration. -/
def expand0 (hs : List (Def × Bool)) (text : String) : String :=
  match (after0 hs).expand cfg0 text.toList true false with
  | some (.ok t) => String.ofList t
  | _ => "?"

/-- `\def\n params{content}` -/
def def0 (n params content : String) : Def × Bool := (.def_ n.toList params.toList content.toList false none, false)
def let0 (n content : String) : Def × Bool := (.let_ n.toList content.toList none, false)
def newcommand0 (n content : String) : Def × Bool := (.newcommand n.toList content.toList 0 [] false, false)

theorem cfg0_letters : Letters cfg0 := by
  intro c h
  simp [cfg0, h]

/-- The hypotheses are met: a history with redefinitions, one of them of a built-in command. -/
def history0 : List (Def × Bool) :=
  [newcommand0 "foo" "A", newcommand0 "section" "B", let0 "textbf" "\\foo", def0 "foo" "" "C", (.newif "x".toList, false)]

example : (∀ x ∈ history0, PlainDef x.1) ∧ (registerAll cfg0 Proc.empty history0).isSome = true ∧
    (after0 history0).handle cfg0 "\\foo bar".toList = ("C".toList, 4) ∧
    (after0 history0).handle cfg0 "\\section{A}".toList = ("\\section{A}".toList, 0) ∧
    expand0 history0 "a \\section{b}\\foo{} \\textbf{c}" = "a \\section{b}C{} \\textbf{c}" := by
  refine ⟨?_, ?_, ?_, ?_, ?_⟩
  · intro x hx
    simp only [history0, List.mem_cons, List.not_mem_nil, or_false] at hx
    have w : ∀ s : String, s ∈ ["foo", "section", "textbf", "x"] → NameWord s.toList := by
      unfold NameWord; decide +kernel
    rcases hx with rfl | rfl | rfl | rfl | rfl
    · exact .inl (w _ (by simp))
    · exact .inl (w _ (by simp))
    · exact w "textbf" (by simp)
    · exact ⟨w "foo" (by simp), fun c hc => by cases hc⟩
    · exact w "x" (by simp)
  all_goals decide +kernel

/-- Violation: `\def\sec tion{X}`, a `\sec` to be followed by the word `tion`, redefines `\section`. -/
theorem C34_violated_params : expand0 [def0 "sec" "tion" "X"] "\\section{A}" = "X{A}" := by decide +kernel

/-- Violation: `\def\section*{X}` redefines `\section*`: the name that is looked up is `section*`. -/
theorem C34_violated_star : expand0 [def0 "section*" "" "X"] "\\section*{A}" = "X{A}" := by decide +kernel

/-- Violation: the name in a `\let` becomes part of a regular expression as it is. `\let\.=X`, a definition of the accent `\.`,
redefines every command of one letter; and `\let\s.ction=X` redefines `\section`. -/
theorem C34_violated_dot : expand0 [let0 "." "X"] "\\a \\b" = "X X" ∧ expand0 [let0 "s.ction" "X"] "\\section{A}" = "X{A}" := by
  decide +kernel

/-- Violation of the second half: a `\let` stands against a later `\def` when the parser meets the command. -/
theorem C34_violated_let : (after0 [let0 "foo" "old", def0 "foo" "" "new"]).handle cfg0 "\\foo".toList = ("old".toList, 4) := by
  decide +kernel

/-- The other way round, in `expand_commands` a `\def` stands against a later `\let`. -/
theorem C34_violated_let_expand : expand0 [def0 "foo" "" "old", let0 "foo" "new"] "\\foo" = "old" := by decide +kernel

/-- Violation: a token register stands against a later `\def`. -/
theorem C34_violated_newtoks : expand0 [(.newtoks "foo".toList, false), def0 "foo" "" "new"] "a\\foo" = "a" := by decide +kernel

/-- Violation: a redefinition in terms of the old meaning is ignored. -/
theorem C34_violated_extend : expand0 [newcommand0 "foo" "old", newcommand0 "foo" "\\foo{} new"] "\\foo" = "old" := by decide +kernel

/-- Violation: a line break before a word. The `\\` of `a\\foo` is built-in, but with a command `\foo` its second half is taken
for that command. -/
theorem C34_violated_newline : expand0 [newcommand0 "foo" "X"] "a\\\\foo" = "a\\X" := by decide +kernel

/-- Violation: a switch `\newif\ifx` takes `\xtrueness` for its `\xtrue`. -/
theorem C34_violated_newif : expand0 [(.newif "x".toList, false), newcommand0 "xtrueness" "Y"] "\\xtrueness" = "ness" := by decide +kernel

end L2J.Cmds
