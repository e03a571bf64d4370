import Verif.Props.C63
/-! C63: what opens a conditional, and what it takes. -/
namespace L2J.Cond
open Spec Defn Cmds Fmt

/-- A word of name characters that begins `n ++ X`, begins `n` where `n` ends. -/
theorem word_prefix {w n X : Str} (hw : ∀ c ∈ w, isNameChar c = true) (hX : ∀ c ∈ X.head?, isNameChar c = false) (h : w <+: n ++ X) : w <+: n := by
  rcases List.prefix_or_prefix_of_prefix h (List.prefix_append n X) with h1 | ⟨t, rfl⟩
  · exact h1
  · cases t with
    | nil => simp
    | cons c t =>
      rw [List.prefix_append_right_inj] at h
      obtain ⟨u, rfl⟩ := h
      have := hX c (by simp)
      rw [hw c (by simp)] at this; cases this

theorem altRe_eats {x rest : Str} {g g'} : ∀ {l : List Re}, (∀ r ∈ l, Dead r (x ++ rest) ∨ Eats r x rest g g') → (∃ r ∈ l, Eats r x rest g g') → Eats (altRe l) x rest g g'
  | [], _, h => by obtain ⟨r, hr, _⟩ := h; cases hr
  | r :: l, h1, h2 => by
    rcases h1 r (by simp) with h | h
    · refine Eats.right h (altRe_eats (fun q hq => h1 q (by simp [hq])) ?_)
      obtain ⟨q, hq, he⟩ := h2
      rcases List.mem_cons.1 hq with rfl | hq
      · exfalso
        have e1 := he []
        unfold Hd at e1
        rw [h [] g] at e1; cases e1
      · exact ⟨q, hq, he⟩
    · exact Eats.left h

/-- A declared conditional. -/
theorem newif_eats {n X : Str} (hX : ∀ c ∈ X.head?, isNameChar c = false) (g) : Eats (newifRe n) ("\\if".toList ++ n) X g g := by
  have := Eats.seq (rest := X) (y := []) (g2 := g) (Eats.lit ("\\if".toList ++ n) ([] ++ X) g) (Eats.optNone (a := .alt (.lit "true".toList) (.lit "false".toList)) ?_)
  · simpa [newifRe] using this
  · refine Dead.alt (Dead.lit ?_) (Dead.lit ?_) <;>
    · rintro ⟨t, rfl⟩
      have := hX _ (by simp; rfl)
      revert this; decide

theorem newif_other {n m X : Str} (h : ¬ m <+: n ++ X) : Dead (newifRe m) ("\\if".toList ++ n ++ X) := by
  refine Dead.seq (Dead.lit ?_)
  rw [List.append_assoc, List.prefix_append_right_inj]
  exact h

theorem declared_eats {ns : List Str} {n X : Str} (hns : ∀ m ∈ ns, IfName m) (hd : Declared ns n) (hX : ∀ c ∈ X.head?, isNameChar c = false) :
    ∀ m ∈ ns, Dead (newifRe m) ("\\if".toList ++ n ++ X) ∨ m = n := by
  intro m hm
  by_cases h : m = n
  · exact .inr h
  · exact .inl (newif_other fun hp => h (hd.2 m hm (word_prefix (hns m hm).2 hX hp)))

/-- A name character is read as one character. -/
theorem cc_run {c d : Char} {t rev : Str} {g} (hc : isNameChar c = true) (hd : isNameChar d = true) :
    charOrCommandRe.run ⟨rev, c :: d :: t, g⟩ = [⟨c :: rev, d :: t, g⟩] := by
  obtain ⟨h1, h2, h3, _⟩ := name_char_facts hc
  obtain ⟨k1, _, _, _, _, k2, _⟩ := name_char_facts hd
  unfold charOrCommandRe
  have e1 : (Re.opt (.seq (.lit ['{']) (.star (.chr isSpace)))).run ⟨rev, c :: d :: t, g⟩ = [⟨rev, c :: d :: t, g⟩] := by
    show (Re.seq (.lit ['{']) (.star (.chr isSpace))).run _ ++ [_] = _
    rw [Dead.seq (Dead.char (by simpa using h2))]; rfl
  have e2 : (Re.alt (.seq (.lit ['\\']) (.plus (.chr fun c => ('a' ≤ c && c ≤ 'z') || ('A' ≤ c && c ≤ 'Z') || c == '@'))) (.chr fun c => !isSpace c)).run ⟨rev, c :: d :: t, g⟩ = [⟨c :: rev, d :: t, g⟩] := by
    show (Re.seq (.lit ['\\']) _).run _ ++ (Re.chr _).run _ = _
    rw [Dead.seq (Dead.char (by simpa using h3))]; simp [Re.run, h1]
  have e3 : (Re.opt (.seq (.star (.chr isSpace)) (.lit ['}']))).run ⟨c :: rev, d :: t, g⟩ = [⟨c :: rev, d :: t, g⟩] := by
    show (Re.seq (.star (.chr isSpace)) (.lit ['}'])).run _ ++ [_] = _
    have : Dead (.seq (.star (.chr isSpace)) (.lit ['}'])) (d :: t) := by
      have := Dead.spaces (b := .lit ['}']) (ws := []) (s := d :: t) (by simp) (by simpa using k1) (fun x r hx => Dead.char (by
        intro he; simp at he; rw [he] at hx; revert hx; decide)) (Dead.char (by simpa using k2))
      exact this
    rw [this]; rfl
  show (((Re.opt _).run _).flatMap fun s => ((Re.alt _ _).run s).flatMap _) = _
  rw [e1]
  simp only [List.flatMap_cons, List.flatMap_nil, List.append_nil]
  rw [e2]
  simp only [List.flatMap_cons, List.flatMap_nil, List.append_nil]
  rw [e3]

/-- What ends the condition. -/
def endLook : Re := .look (.alt (.lit ['\\']) (.alt (.chr isSpace) (.alt .eos (.lit ['\n']))))

theorem look_name {c : Char} {t rev : Str} {g} (hc : isNameChar c = true) : endLook.run ⟨rev, c :: t, g⟩ = [] := by
  obtain ⟨h1, h2, h3, _⟩ := name_char_facts hc
  have hn : c ≠ '\n' := by rintro rfl; revert h1; decide
  have : Dead (.alt (.lit ['\\']) (.alt (.chr isSpace) (.alt .eos (.lit ['\n'])))) (c :: t) := by
    refine Dead.alt (Dead.char (by simpa using h3)) (Dead.alt (Dead.chr _ (by simpa using h1)) (Dead.alt ?_ (Dead.char (by simpa using hn))))
    intro rev g
    simp [Re.run, hn]
  unfold endLook
  rw [show (Re.look (.alt (.lit ['\\']) (.alt (.chr isSpace) (.alt .eos (.lit ['\n']))))).run ⟨rev, c :: t, g⟩ = if ((Re.alt (.lit ['\\']) (.alt (.chr isSpace) (.alt .eos (.lit ['\n'])))).run ⟨rev, c :: t, g⟩).isEmpty then [] else [⟨rev, c :: t, g⟩] from rfl, this]
  rfl

theorem look_end {c : Char} {t rev : Str} {g} (hc : isSpace c = true ∨ c = '\\') : endLook.run ⟨rev, c :: t, g⟩ = [⟨rev, c :: t, g⟩] := by
  unfold endLook
  rw [show (Re.look (.alt (.lit ['\\']) (.alt (.chr isSpace) (.alt .eos (.lit ['\n']))))).run ⟨rev, c :: t, g⟩ = if ((Re.alt (.lit ['\\']) (.alt (.chr isSpace) (.alt .eos (.lit ['\n'])))).run ⟨rev, c :: t, g⟩).isEmpty then [] else [⟨rev, c :: t, g⟩] from rfl]
  rw [if_neg]
  rw [show (Re.alt (.lit ['\\']) (.alt (.chr isSpace) (.alt .eos (.lit ['\n'])))).run ⟨rev, c :: t, g⟩ = (Re.lit ['\\']).run ⟨rev, c :: t, g⟩ ++ ((Re.chr isSpace).run ⟨rev, c :: t, g⟩ ++ (Re.alt .eos (.lit ['\n'])).run ⟨rev, c :: t, g⟩) from rfl]
  rcases hc with h | rfl
  · simp [Re.run, h]
  · rw [Re.run_lit, if_pos (by simp)]; simp

theorem lazy_names {β} (p : Char → Bool) (c : Char) (rest : Str) (g : List (Nat × Str)) (k : MSt → List β) :
    ∀ (d rev : Str) (n : Nat), (∀ d1 x d2, d = d1 ++ x :: d2 → k ⟨d1.reverse ++ rev, x :: (d2 ++ c :: rest), g⟩ = []) → (∀ x ∈ d, p x = true) → d.length ≤ n →
    k ⟨d.reverse ++ rev, c :: rest, g⟩ ≠ [] →
    ((iterLazy (Re.chr p).run n ⟨rev, d ++ c :: rest, g⟩).flatMap k).head? = (k ⟨d.reverse ++ rev, c :: rest, g⟩).head?
  | [], rev, n, _, _, _, hne => by
    have hx : ∃ l, iterLazy (Re.chr p).run n ⟨rev, [] ++ c :: rest, g⟩ = ⟨rev, c :: rest, g⟩ :: l := by
      cases n with
      | zero => exact ⟨[], rfl⟩
      | succ n => exact ⟨_, rfl⟩
    obtain ⟨l, hl⟩ := hx
    rw [hl, List.flatMap_cons, List.head?_append]
    cases hh : k ⟨rev, c :: rest, g⟩ with
    | nil => exact absurd hh hne
    | cons y m => show _ = (k ⟨rev, c :: rest, g⟩).head?; rw [hh]; rfl
  | x :: d, rev, n, hk, hp, hn, hne => by
    cases n with
    | zero => simp at hn
    | succ n =>
      have h0 := hk [] x d rfl
      have ih := lazy_names p c rest g k d (x :: rev) n (fun d1 y d2 e => by have := hk (x :: d1) y d2 (by simp [e]); simpa using this) (fun y hy => hp y (by simp [hy])) (by simpa using hn)
        (by simpa using hne)
      have hstep : iterLazy (Re.chr p).run (n + 1) ⟨rev, x :: d ++ c :: rest, g⟩ = ⟨rev, x :: d ++ c :: rest, g⟩ :: iterLazy (Re.chr p).run n ⟨x :: rev, d ++ c :: rest, g⟩ := by
        simp [iterLazy, Re.run, hp x (by simp)]
      rw [hstep, List.flatMap_cons, show k ⟨rev, x :: d ++ c :: rest, g⟩ = [] by simpa using h0, List.nil_append, ih]
      simp

theorem nameChar_nl {c : Char} (h : isNameChar c = true) : (c != '\n') = true := by
  have : c ≠ '\n' := by rintro rfl; revert h; decide
  simpa using this

/-- The condition of an undeclared conditional is its name. -/
theorem defaultIf_eats {n : Str} {c : Char} {X : Str} {g} (hn : IfName n) (hl : 3 ≤ n.length) (hc : isSpace c = true ∨ c = '\\') :
    Eats (defaultIfRe 1) n (c :: X) g ((1, n) :: g) := by
  match n, hl with
  | a :: b :: d :: t, _ =>
    have ha := hn.2 a (by simp)
    have hb := hn.2 b (by simp)
    have hd := hn.2 d (by simp)
    refine Eats.seq (x := []) (y := a :: b :: d :: t) (Eats.star_chr isSpace (by simp) (by simpa using (name_char_facts ha).1)) ?_
    intro rev
    unfold Hd
    have hA : (Re.seq charOrCommandRe (.seq (.star (.chr isSpace)) charOrCommandRe)).run ⟨rev, a :: b :: d :: (t ++ c :: X), g⟩ = [⟨b :: a :: rev, d :: (t ++ c :: X), g⟩] := by
      show (charOrCommandRe.run _).flatMap (fun s => ((Re.star (.chr isSpace)).run s).flatMap charOrCommandRe.run) = _
      rw [cc_run ha hb]
      simp only [List.flatMap_cons, List.flatMap_nil, List.append_nil]
      rw [run_star_chr]
      simp only [charRuns, (name_char_facts hb).1]
      simp [cc_run hb hd]
    have hB : (Re.seq (.chr (· != '\n')) (.lazyStar (.chr (· != '\n')))).run ⟨rev, a :: b :: d :: (t ++ c :: X), g⟩ = iterLazy (Re.chr (· != '\n')).run (b :: d :: (t ++ c :: X)).length ⟨a :: rev, (b :: d :: t) ++ c :: X, g⟩ := by
      show ((Re.chr (· != '\n')).run _).flatMap _ = _
      rw [show (Re.chr (· != '\n')).run ⟨rev, a :: b :: d :: (t ++ c :: X), g⟩ = [⟨a :: rev, b :: d :: (t ++ c :: X), g⟩] by simp only [Re.run, nameChar_nl ha]; rfl]
      simp only [List.flatMap_cons, List.flatMap_nil, List.append_nil]
      rfl
    show (((Re.group 1 (.alt _ _)).run ⟨rev, a :: b :: d :: (t ++ c :: X), g⟩).flatMap endLook.run).head? = _
    rw [show (Re.group 1 (.alt (.seq charOrCommandRe (.seq (.star (.chr isSpace)) charOrCommandRe)) (.seq (.chr (· != '\n')) (.lazyStar (.chr (· != '\n')))))).run ⟨rev, a :: b :: d :: (t ++ c :: X), g⟩
        = ((Re.seq charOrCommandRe (.seq (.star (.chr isSpace)) charOrCommandRe)).run ⟨rev, a :: b :: d :: (t ++ c :: X), g⟩ ++ (Re.seq (.chr (· != '\n')) (.lazyStar (.chr (· != '\n')))).run ⟨rev, a :: b :: d :: (t ++ c :: X), g⟩).map
          (fun st' => { st' with groups := (1, (a :: b :: d :: (t ++ c :: X)).take ((a :: b :: d :: (t ++ c :: X)).length - st'.rest.length)) :: st'.groups }) from rfl]
    rw [hA, hB, List.map_append, List.flatMap_append]
    simp only [List.map_cons, List.map_nil, List.flatMap_cons, List.flatMap_nil, List.append_nil]
    rw [look_name hd, List.nil_append, List.flatMap_map]
    rw [lazy_names (· != '\n') c X g _ (b :: d :: t) (a :: rev)]
    · rw [look_end hc]
      simp only [List.head?_cons, Option.some.injEq, MSt.mk.injEq, true_and, and_true, List.cons.injEq, Prod.mk.injEq]
      constructor
      · simp
      · rw [show (a :: b :: d :: (t ++ c :: X)) = (a :: b :: d :: t) ++ c :: X by simp, List.take_left' (by simp; omega)]
    · intro d1 x d2 e
      exact look_name (hn.2 x (by rw [e]; simp))
    · intro x hx; exact nameChar_nl (hn.2 x (by simp only [List.mem_cons] at hx ⊢; exact .inr hx))
    · simp
    · rw [look_end hc]; simp

theorem undefined_dead {n X : Str} (h1 : ¬ "defined".toList <+: n ++ X) (h2 : ¬ "undefined".toList <+: n ++ X) {r : Re} :
    Dead (.seq (.lit "\\if".toList) (.seq (.opt (.lit "un".toList)) (.seq (.lit "defined".toList) r))) ("\\if".toList ++ n ++ X) := by
  rw [List.append_assoc]
  refine Dead.after_lit ?_
  generalize n ++ X = s at *
  intro rev g
  show ((Re.opt (.lit "un".toList)).run ⟨rev, s, g⟩).flatMap _ = []
  rw [show (Re.opt (.lit "un".toList)).run ⟨rev, s, g⟩ = (Re.lit "un".toList).run ⟨rev, s, g⟩ ++ [⟨rev, s, g⟩] from rfl, List.flatMap_append, List.append_eq_nil_iff]
  constructor
  · by_cases h : "un".toList <+: s
    · obtain ⟨t, rfl⟩ := h
      refine Dead.after_lit (t := "un".toList) (Dead.seq (Dead.lit ?_)) rev g
      rintro ⟨u, rfl⟩
      exact h2 ⟨u, rfl⟩
    · rw [Dead.lit h]; rfl
  · have : Dead (.seq (.lit "defined".toList) r) s := Dead.seq (Dead.lit h1)
    simpa using this rev g

theorem special_dead {w n X : Str} {b : Re} (h : ¬ w <+: n ++ X) : Dead (.seq (.lit ("\\if".toList ++ w)) b) ("\\if".toList ++ n ++ X) := by
  refine Dead.seq (Dead.lit ?_)
  rw [List.append_assoc, List.prefix_append_right_inj]
  exact h

theorem other_dead {w s : Str} {b : Re} (h : ¬ w <+: "\\if".toList ∧ ¬ "\\if".toList <+: w) : Dead (.seq (.lit w) b) ("\\if".toList ++ s) := by
  refine Dead.seq (Dead.lit fun hp => ?_)
  rcases List.prefix_or_prefix_of_prefix hp (List.prefix_append "\\if".toList s) with h1 | h1
  · exact h.1 h1
  · exact h.2 h1

/-- The patterns tried before that of a plain `\if`. -/
theorem specials_dead {ns : List Str} {n X : Str} (hn : Undeclared ns n) (hX : ∀ c ∈ X.head?, isNameChar c = false) :
    ∀ x ∈ defaults, x.1 = "if".toList ∨ (Dead x.2.1 ("\\if".toList ++ n ++ X) ∧ Dead x.2.2 ("\\if".toList ++ n ++ X)) := by
  have hw : ∀ w ∈ specialIfs, ¬ w <+: n ++ X := by
    intro w hw hp
    refine hn.2.2.2 w hw (word_prefix ?_ hX hp)
    have : ∀ w ∈ specialIfs, ∀ c ∈ w, isNameChar c = true := by decide
    exact this w hw
  intro x hx
  simp only [defaults, List.mem_cons, List.not_mem_nil, or_false] at hx
  have hO : ∀ {w : Str} {b : Re}, (¬ w <+: "\\if".toList ∧ ¬ "\\if".toList <+: w) → Dead (.seq (.lit w) b) ("\\if".toList ++ n ++ X) := by
    intro w b h; rw [List.append_assoc]; exact other_dead h
  rcases hx with rfl | rfl | rfl | rfl | rfl | rfl | rfl | rfl | rfl | rfl | rfl | rfl | rfl
  · exact .inr ⟨special_dead (w := "thenelse".toList) (hw _ (by decide)), special_dead (w := "thenelse".toList) (hw _ (by decide))⟩
  · exact .inr ⟨special_dead (w := "x".toList) (hw _ (by decide)), special_dead (w := "x".toList) (hw _ (by decide))⟩
  · exact .inr ⟨undefined_dead (hw _ (by decide)) (hw _ (by decide)), undefined_dead (hw _ (by decide)) (hw _ (by decide))⟩
  · exact .inr ⟨special_dead (w := "num".toList) (hw _ (by decide)), special_dead (w := "num".toList) (hw _ (by decide))⟩
  · exact .inr ⟨special_dead (w := "dim".toList) (hw _ (by decide)), special_dead (w := "dim".toList) (hw _ (by decide))⟩
  · exact .inr ⟨special_dead (w := "cat".toList) (hw _ (by decide)), special_dead (w := "cat".toList) (hw _ (by decide))⟩
  · exact .inr ⟨special_dead (w := "case".toList) (hw _ (by decide)), special_dead (w := "case".toList) (hw _ (by decide))⟩
  · exact .inr ⟨hO (by decide), hO (by decide)⟩
  · exact .inr ⟨hO (by decide), hO (by decide)⟩
  · exact .inr ⟨hO (by decide), hO (by decide)⟩
  · exact .inr ⟨hO (by decide), hO (by decide)⟩
  · exact .inr ⟨hO (by decide), hO (by decide)⟩
  · exact .inl rfl

theorem ifRe_eats {n X : Str} {g} (hn : IfName n) (hl : 3 ≤ n.length) (hX : ∃ c, X.head? = some c ∧ (isSpace c = true ∨ c = '\\')) :
    Eats ifRe ("\\if".toList ++ n) X g ((1, n) :: g) := by
  obtain ⟨c, hc, hs⟩ := hX
  cases X with
  | nil => cases hc
  | cons d X =>
    simp at hc
    subst hc
    exact Eats.seq (x := ['\\']) (Eats.lit _ _ _) (Eats.seq (x := []) (y := "if".toList ++ n) (g1 := g) (Eats.optNone (Dead.char (by simp))) (Eats.seq (x := "if".toList) (Eats.lit _ _ _) (defaultIf_eats hn hl hs)))

theorem end_noname {X : Str} (hX : ∃ c, X.head? = some c ∧ (isSpace c = true ∨ c = '\\')) : ∀ c ∈ X.head?, isNameChar c = false := by
  obtain ⟨c, hc, hs⟩ := hX
  intro d hd
  rw [hc] at hd
  simp at hd
  subst hd
  rcases hs with h | rfl
  · exact space_name _ h
  · decide

/-- The opening command is found and taken. -/
theorem opens_eats {ns : List Str} {n X : Str} (hns : ∀ m ∈ ns, IfName m) (h : Opens ns n X) : ∃ g, Eats (compiled ns) ("\\if".toList ++ n) X [] g := by
  cases h with
  | declared hn hd hX =>
    refine ⟨[], ?_⟩
    unfold compiled allIfs
    rw [List.map_append]
    -- the alternatives before `n` are dead
    have hl := declared_eats hns hd hX
    have key : ∀ (l : List Str), (∀ m ∈ l, Dead (newifRe m) ("\\if".toList ++ n ++ X) ∨ m = n) → n ∈ l → Eats (altRe (l.map newifRe ++ defaults.map (·.2.2))) ("\\if".toList ++ n) X [] [] := by
      intro l
      induction l with
      | nil => intro _ h; cases h
      | cons m l ih =>
        intro h1 h2
        rcases h1 m (by simp) with h | rfl
        · by_cases hmn : m = n
          · subst hmn; exact Eats.left (newif_eats hX [])
          · refine Eats.right h (ih (fun q hq => h1 q (by simp [hq])) ?_)
            rcases List.mem_cons.1 h2 with h | h
            · exact absurd h.symm hmn
            · exact h
        · exact Eats.left (newif_eats hX [])
    have := key ns hl hd.1
    simpa [List.map_map, Function.comp_def] using this
  | undeclared hu hX =>
    refine ⟨[(1, n)], ?_⟩
    have hX' := end_noname hX
    refine altRe_eats ?_ ?_
    · intro r hr
      obtain ⟨x, hx, rfl⟩ := List.mem_map.1 hr
      rcases List.mem_append.1 hx with hx | hx
      · obtain ⟨m, hm, rfl⟩ := List.mem_map.1 hx
        exact .inl (newif_other fun hp => hu.2.2.1 m hm (word_prefix (hns m hm).2 hX' hp))
      · rcases specials_dead hu hX' x hx with h | h
        · right
          have : x.2.2 = ifRe := by
            simp only [defaults, List.mem_cons, List.not_mem_nil, or_false] at hx
            rcases hx with rfl | rfl | rfl | rfl | rfl | rfl | rfl | rfl | rfl | rfl | rfl | rfl | rfl <;> first | rfl | (exact absurd h (by decide))
          rw [this]
          exact ifRe_eats hu.1 hu.2.1 hX
        · exact .inl h.2
    · exact ⟨ifRe, by simp [allIfs, defaults], ifRe_eats hu.1 hu.2.1 hX⟩

theorem opens_noname {ns : List Str} {n X : Str} (h : Opens ns n X) : IfName n ∧ ∀ c ∈ X.head?, isNameChar c = false := by
  cases h with
  | declared hn _ hX => exact ⟨hn, hX⟩
  | undeclared hu hX => exact ⟨hu.1, end_noname hX⟩

/-- No delimiter pattern but that of the `\if` matches where a conditional begins. -/
theorem if_others {s : Str} : Dead fiRe ("\\if".toList ++ s) ∧ Dead elseRe ("\\if".toList ++ s) ∧ Dead elsifRe ("\\if".toList ++ s) := by
  refine ⟨other_dead (by decide), other_dead (by decide), Dead.alt (other_dead (by decide)) (other_dead (by decide))⟩

/-! The next delimiter. -/

theorem quiet_all {ns : List Str} {b : Bool} {a u v R : Str} (h : NoCond b a) (e : a = u ++ v) (hv : v ≠ []) (hR : ∀ c ∈ R.head?, c = '\\') :
    Dead (compiled ns) (v ++ R) ∧ Dead fiRe (v ++ R) ∧ (b = true → Dead elseRe (v ++ R) ∧ Dead elsifRe (v ++ R)) := by
  have q1 : ∀ w' : Str, '\\' :: w' ∈ condBegins → '\\' ∉ w' → ¬ ('\\' :: w') <+: v ++ R := fun w' h1 h2 => quiet_prefix (h.1 _ h1) h2 ⟨u, e⟩ hv hR
  refine ⟨compiled_dead ?_, fi_dead (q1 "fi".toList (by decide) (by decide)), fun hb => ?_⟩
  · intro w hw
    simp only [ifWords, List.mem_cons, List.not_mem_nil, or_false] at hw
    rcases hw with rfl | rfl | rfl
    · exact q1 "if".toList (by decide) (by decide)
    · exact q1 "@if".toList (by decide) (by decide)
    · exact q1 "If".toList (by decide) (by decide)
  · have q2 : ∀ w' : Str, '\\' :: w' ∈ branchBegins → '\\' ∉ w' → ¬ ('\\' :: w') <+: v ++ R := fun w' h1 h2 => quiet_prefix (h.2 hb _ h1) h2 ⟨u, e⟩ hv hR
    exact ⟨else_dead (q2 "els".toList (by decide) (by decide)), elsif_dead (q2 "els".toList (by decide) (by decide)) (q2 "or".toList (by decide) (by decide))⟩

/-- The pattern of each kind. -/
def patOf (ns : List Str) : CondKind → Re
  | .start => compiled ns
  | .fi => fiRe
  | .els => elseRe
  | .elsif => elsifRe

theorem firstOf_iff (ns : List Str) (t : Str) (p : Nat) (k : CondKind) (h : Hit) : FirstOf (delims ns) t p k h ↔ (patOf ns k).hit (t.drop p) = some h := by
  cases k <;> rfl

theorem next_at {ns : List Str} {t : Str} {p d : Nat} {b : Bool} {a x rest : Str} {g} (k : CondKind) (hb : d = 1 → b = true) (ha : NoCond b a) (ht : t.drop p = a ++ (x ++ rest))
    (hx : ∀ c ∈ (x ++ rest).head?, c = '\\') (hk : Counts d k) (he : Eats (patOf ns k) x rest [] g)
    (ho : ∀ k', k' ≠ k → Dead (patOf ns k') (x ++ rest)) :
    ∃ e : CondEv, NextCond (delims ns) t p d e ∧ e.kind = k ∧ e.a = p + a.length ∧ e.b = p + (a.length + x.length) := by
  have hq : ∀ k', Counts d k' → ∀ u v, a = u ++ v → v ≠ [] → Dead (patOf ns k') (v ++ (x ++ rest)) := by
    intro k' hk' u v e hv
    have h := quiet_all (ns := ns) ha e hv hx
    cases k' with
    | start => exact h.1
    | fi => exact h.2.1
    | els =>
      rcases hk' with h' | h' | h'
      · exact (h.2.2 (hb h')).1
      · cases h'
      · cases h'
    | elsif =>
      rcases hk' with h' | h' | h'
      · exact (h.2.2 (hb h')).2
      · cases h'
      · cases h'
  have hh := hit_here (hq k hk) he
  rw [← ht] at hh
  refine ⟨⟨k, p + a.length, p + (a.length + x.length), _⟩, ⟨_, (firstOf_iff ns t p k _).2 hh, hk, rfl, rfl, rfl, ?_⟩, rfl, rfl, rfl⟩
  intro k' h' hf hc
  rw [firstOf_iff] at hf
  by_cases hkk : k' = k
  · subst hkk
    rw [hh] at hf
    injection hf with hf
    subst hf
    exact .inr ⟨rfl, Nat.le_refl _⟩
  · rw [ht] at hf
    exact .inl (hit_later (hq k' hc) (ho k' hkk) hf)

theorem next_if {ns : List Str} {t : Str} {p d : Nat} {b : Bool} {a n X : Str} (hns : ∀ m ∈ ns, IfName m) (hb : d = 1 → b = true) (ha : NoCond b a)
    (hn : Opens ns n X) (ht : t.drop p = a ++ ("\\if".toList ++ (n ++ X))) :
    ∃ e : CondEv, NextCond (delims ns) t p d e ∧ e.kind = .start ∧ e.b = p + (a.length + ("\\if".toList ++ n).length) := by
  obtain ⟨g, he⟩ := opens_eats hns hn
  obtain ⟨e, h1, h2, _, h4⟩ := next_at (ns := ns) (x := "\\if".toList ++ n) (rest := X) .start hb ha (by simpa using ht) (by simp) (.inr (.inl rfl)) he (by
    intro k' hk'
    have := @if_others (n ++ X)
    rw [List.append_assoc]
    cases k' with
    | start => exact absurd rfl hk'
    | fi => exact this.1
    | els => exact this.2.1
    | elsif => exact this.2.2)
  exact ⟨e, h1, h2, h4⟩

theorem reWordEnd_eats {rest : Str} {g} (h : ∀ c ∈ rest.head?, isWord c = false) : Eats reWordEnd [] rest g g := by
  intro rev
  have : (Re.chr isWord).run ⟨rev, rest, g⟩ = [] := Dead.chr isWord h rev g
  show (if ((Re.chr isWord).run ⟨rev, rest, g⟩).isEmpty then [_] else []).head? = _
  rw [this]
  rfl

theorem fi_eats {rest : Str} (hr : ∀ c ∈ rest.head?, isWord c = false) : Eats fiRe "\\fi".toList rest [] [] := by
  have := Eats.seq (rest := rest) (y := []) (g2 := []) (Eats.lit "\\fi".toList ([] ++ rest) []) (reWordEnd_eats hr)
  simpa [fiRe] using this

theorem else_eats {rest : Str} (hr : ∀ c ∈ rest.head?, isWord c = false) : Eats elseRe "\\else".toList rest [] [] := by
  have := Eats.seq (rest := rest) (y := []) (g2 := []) (Eats.lit "\\else".toList ([] ++ rest) []) (reWordEnd_eats hr)
  simpa [elseRe] using this

theorem word_other {w w' s : Str} (h : ¬ w <+: w' ∧ ¬ w' <+: w) : ¬ w <+: w' ++ s := by
  intro hp
  rcases List.prefix_or_prefix_of_prefix hp (List.prefix_append w' s) with h1 | h1
  · exact h.1 h1
  · exact h.2 h1

theorem next_fi {ns : List Str} {t : Str} {p d : Nat} {b : Bool} {a rest : Str} (hb : d = 1 → b = true) (ha : NoCond b a)
    (hr : ∀ c ∈ rest.head?, isWord c = false) (ht : t.drop p = a ++ ("\\fi".toList ++ rest)) :
    ∃ e : CondEv, NextCond (delims ns) t p d e ∧ e.kind = .fi ∧ e.a = p + a.length ∧ e.b = p + (a.length + 3) := by
  refine next_at (ns := ns) .fi hb ha ht (by simp) (.inr (.inr rfl)) (fi_eats hr) ?_
  intro k' hk'
  cases k' with
  | start =>
    refine compiled_dead ?_
    intro w hw
    simp only [ifWords, List.mem_cons, List.not_mem_nil, or_false] at hw
    rcases hw with rfl | rfl | rfl <;> exact word_other (by decide)
  | fi => exact absurd rfl hk'
  | els => exact else_dead (word_other (by decide))
  | elsif => exact elsif_dead (word_other (by decide)) (word_other (by decide))

theorem next_else {ns : List Str} {t : Str} {p : Nat} {a rest : Str} (ha : NoCond true a)
    (hr : ∀ c ∈ rest.head?, isWord c = false) (ht : t.drop p = a ++ ("\\else".toList ++ rest)) :
    ∃ e : CondEv, NextCond (delims ns) t p 1 e ∧ e.kind = .els ∧ e.a = p + a.length ∧ e.b = p + (a.length + 5) := by
  refine next_at (ns := ns) .els (fun _ => rfl) ha ht (by simp) (.inl rfl) (else_eats hr) ?_
  intro k' hk'
  cases k' with
  | start =>
    refine compiled_dead ?_
    intro w hw
    simp only [ifWords, List.mem_cons, List.not_mem_nil, or_false] at hw
    rcases hw with rfl | rfl | rfl <;> exact word_other (by decide)
  | fi => exact fi_dead (word_other (by decide))
  | els => exact absurd rfl hk'
  | elsif => exact elsif_else hr

/-! Whole texts. -/

theorem opens_head {ns : List Str} {n X Y : Str} (h : Opens ns n X) (e : Y.head? = X.head?) : Opens ns n Y := by
  cases h with
  | declared h1 h2 h3 => exact .declared h1 h2 (by rw [e]; exact h3)
  | undeclared h1 h2 => exact .undeclared h1 (by rw [e]; exact h2)

theorem drop_after {t a b : Str} {p n : Nat} (h : t.drop p = a ++ b) (hn : n = a.length) : t.drop (p + n) = b := by
  rw [← List.drop_drop, h, hn, List.drop_left]

theorem head_word_back {r R : Str} (h : ∀ c ∈ r.head?, isWord c = false) (hR : ∀ c ∈ R.head?, c = '\\') : ∀ c ∈ (r ++ R).head?, isWord c = false := by
  cases r with
  | nil => intro c hc; rw [hR c hc]; decide
  | cons x r => simpa using h

/-- The delimiters after a text in which every conditional is closed are those of what follows. -/
theorem cond_text {ns : List Str} (hns : ∀ m ∈ ns, IfName m) {b : Bool} {x : Str} (h : CondText ns b x) :
    ∀ (t : Str) (p d : Nat) (R : Str) (evs : List CondEv), (d = 1 → b = true) → 1 ≤ d → t.drop p = x ++ R → R ≠ [] → (∀ c ∈ R.head?, c = '\\') →
      (∀ a q, NoCond b a → t.drop q = a ++ R → q + a.length = p + x.length → TopDelims (delims ns) t q d evs) → TopDelims (delims ns) t p d evs := by
  induction h with
  | plain b x hx => intro t p d R evs hb hd ht _ hR K; exact K x p hx ht rfl
  | cond b a n x r ha hn hx hr hrr ih1 ih2 =>
    intro t p d R evs hb hd ht hR0 hR K
    have ht' : t.drop p = a ++ ("\\if".toList ++ (n ++ (x ++ ("\\fi".toList ++ (r ++ R))))) := by rw [ht]; simp only [List.append_assoc]
    have hn' : Opens ns n (x ++ ("\\fi".toList ++ (r ++ R))) := opens_head hn (by cases x <;> simp)
    obtain ⟨e, h1, h2, h3⟩ := next_if hns hb ha hn' ht'
    refine TopDelims.opens p d e evs hd h1 h2 ?_
    have hq : t.drop e.b = x ++ ("\\fi".toList ++ (r ++ R)) := by
      rw [h3]
      refine drop_after (a := a ++ ("\\if".toList ++ n)) ?_ (by simp)
      rw [ht']; simp only [List.append_assoc]
    refine ih1 t e.b (d + 1) _ evs (by omega) (by omega) hq (by simp) (by simp) ?_
    intro a' q ha' hq' hlen
    obtain ⟨e', k1, k2, k3, k4⟩ := next_fi (ns := ns) (d := d + 1) (by omega) ha' (head_word_back hr hR) hq'
    refine TopDelims.closes q d e' evs hd k1 k2 ?_
    have hq2 : t.drop e'.b = r ++ R := by
      rw [k4]
      refine drop_after (a := a' ++ "\\fi".toList) ?_ (by simp)
      rw [hq']; simp only [List.append_assoc]
    refine ih2 t e'.b d R evs hb hd hq2 hR0 hR ?_
    intro a2 q2 ha2 hq3 hl2
    refine K a2 q2 ha2 hq3 ?_
    rw [hl2, k4]
    simp only [List.length_append] at h3 ⊢
    simp at h3 ⊢
    omega

end L2J.Cond
