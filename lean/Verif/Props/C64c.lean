import Verif.Props.C64b
/-! C64: commands that are no layout commands. -/
namespace L2J.Pre
open Cmds Defn L2J.Spec

theorem lower_of {c x : Char} (hc : 'a' ≤ c ∧ c ≤ 'z') (h : Content.ciChar c x = true) : lowerChar x = c := by
  have hn : 97 ≤ c.toNat ∧ c.toNat ≤ 122 := hc
  simp only [Content.ciChar, Bool.or_eq_true, Bool.and_eq_true, beq_iff_eq, decide_eq_true_eq] at h
  have key : ∀ a b : Char, a.toNat = b.toNat → a = b := fun a b h => by
    have := congrArg Char.ofNat h
    rwa [Char.ofNat_toNat, Char.ofNat_toNat] at this
  unfold lowerChar
  rcases h with (((rfl | ⟨_, h⟩) | ⟨rfl, h⟩) | ⟨rfl, h⟩) | ⟨rfl, h⟩
  · have h1 : ¬ ('A' ≤ x ∧ x ≤ 'Z') := by
      rintro ⟨a, b⟩
      have : x.toNat ≤ 90 := b
      omega
    rw [if_neg h1, if_neg (by omega), if_neg (by omega), if_neg (by omega)]
  · have h1 : 'A' ≤ x ∧ x ≤ 'Z' := by
      constructor
      · show 65 ≤ x.toNat; omega
      · show x.toNat ≤ 90; omega
    rw [if_pos h1]
    refine key _ _ ?_
    rw [h, Char.ofNat_toNat]
  · have h1 : ¬ ('A' ≤ x ∧ x ≤ 'Z') := by
      rintro ⟨a, b⟩
      have : x.toNat ≤ 90 := b
      omega
    rw [if_neg h1, if_pos h]
  · have h1 : ¬ ('A' ≤ x ∧ x ≤ 'Z') := by
      rintro ⟨a, b⟩
      have : x.toNat ≤ 90 := b
      omega
    rw [if_neg h1, if_neg (by omega), if_pos h]
  · have h1 : ¬ ('A' ≤ x ∧ x ≤ 'Z') := by
      rintro ⟨a, b⟩
      have : x.toNat ≤ 90 := b
      omega
    rw [if_neg h1, if_neg (by omega), if_neg (by omega), if_pos h]

theorem lower_eq : ∀ {v u : Str}, (∀ c ∈ v, 'a' ≤ c ∧ c ≤ 'z') → Content.ciEq v u = true → u.map lowerChar = v
  | [], [], _, _ => rfl
  | c :: cs, x :: xs, hv, h => by
    simp only [Content.ciEq, Bool.and_eq_true] at h
    rw [List.map_cons, lower_of (hv c (by simp)) h.1, lower_eq (fun d hd => hv d (by simp [hd])) h.2]
  | [], _ :: _, _, h => by simp [Content.ciEq] at h
  | _ :: _, [], _, h => by simp [Content.ciEq] at h

theorem ci_dead {v t : Str} {b : Re} (hv : ∀ c ∈ v, 'a' ≤ c ∧ c ≤ 'z') (h : ¬ v <+: t.map lowerChar) : Dead (.seq (Content.ciLit v) b) t := by
  refine Dead.seq fun rev g => List.eq_nil_iff_forall_not_mem.2 fun st hst => ?_
  obtain ⟨u, r, rfl, he, _⟩ := Content.ciLit_mem.1 hst
  exact h ⟨r.map lowerChar, by rw [List.map_append, lower_eq hv he]⟩

/-- The fixed beginning of a layout pattern as a word. -/
def headCore (h : Str) : Str := '\\' :: h.tail.takeWhile isNameChar

/-- All letters. -/
def letters : List Char := "abcdefghijklmnopqrstuvwxyzABCDEFGHIJKLMNOPQRSTUVWXYZ".toList

theorem letters_all {c : Char} (h : isLetter c = true) : c ∈ letters := by
  have key : ∀ n ∈ List.range 123, isLetter (Char.ofNat n) = true → Char.ofNat n ∈ letters := by decide +kernel
  have hn : c.toNat < 123 := by
    unfold isLetter at h
    simp only [Bool.or_eq_true, Bool.and_eq_true, decide_eq_true_eq] at h
    rcases h with h | h
    · have : c.toNat ≤ 122 := h.2
      omega
    · have : c.toNat ≤ 90 := h.2
      omega
  have := key c.toNat (by simpa using hn)
  rw [Char.ofNat_toNat] at this
  exact this h

/-- How a layout pattern begins: with the name of a layout command (`ws`) that is at its end or, for the words of `os`, may go on. -/
def kind (ws os : List String) (a : Fmt.Alt) : Bool :=
  a.head.head? == some '\\' && (ws.map String.toList).contains (headCore a.head) &&
    ((os.map String.toList).contains (headCore a.head) || headCore a.head != a.head || letters.all fun c => (a.tail.may [c]).isEmpty)

/-- The beginnings of the layout patterns. -/
theorem table_kinds : ∀ i ∈ List.range Fmt.table.length, (Fmt.table[i]?.any fun p =>
    p.2.head == ['%'] || p.2.head == ['\\', '/'] || (p.1 != .spacing && kind (layoutWords.filter fun w => !spaceWords.contains w) openWords p.2) || (p.1 == .spacing && (kind spaceWords spaceWords p.2 ||
      (p.2.head.head? == some '\\' && p.2.head.tail.head?.any fun c => [',', ';', ':', '!'].contains c)))) = true ∨ i = 114 ∨ i = 223 ∨ i = 150 ∨ i = 151 ∨ i = 152 := by decide +kernel

theorem takeWhile_prefix {p : Char → Bool} : ∀ {h w rest : Str}, h <+: w ++ rest → (∀ c ∈ rest.head?, p c = false) → h.takeWhile p <+: w
  | [], _, _, _, _ => List.nil_prefix
  | x :: h, [], rest, hp, hr => by
    obtain ⟨t, ht⟩ := hp
    have : p x = false := hr x (by rw [List.nil_append] at ht; rw [← ht]; rfl)
    simp [this]
  | x :: h, y :: w, rest, hp, hr => by
    rw [List.cons_append, List.cons_prefix_cons] at hp
    obtain ⟨rfl, hp⟩ := hp
    have ih := takeWhile_prefix hp hr
    rw [List.takeWhile_cons]
    split
    · rw [List.cons_prefix_cons]; exact ⟨rfl, ih⟩
    · exact List.nil_prefix

theorem layout_words : ∀ h ∈ layoutWords.map String.toList, (h.tail.head?.any isNameChar) = true ∧ headCore h = h := by decide +kernel

theorem lit_alt_dead {a : Fmt.Alt} {t : Str} (h : Dead a.tail t) : Dead a.re (a.head ++ t) := by
  intro rev g
  show (((Re.lit a.head).run ⟨rev, a.head ++ t, g⟩).map _).flatMap _ = []
  rw [Re.run_lit, if_pos (by rw [List.isPrefixOf_iff_prefix]; exact ⟨_, rfl⟩)]
  simp only [List.map_cons, List.map_nil, List.flatMap_cons, List.flatMap_nil, List.append_nil, List.drop_left]
  exact h _ _

theorem core_whole {h w rest t : Str} {y : Char} (hh : h.head? = some '\\') (hp : h <+: '\\' :: (w ++ rest)) (ht : headCore h ++ y :: t = '\\' :: w) (hy : isNameChar y = true) : headCore h = h := by
  by_cases e : headCore h = h
  · exact e
  · exfalso
    obtain ⟨r, hr⟩ := hp
    cases h with
    | nil => cases hh
    | cons x h =>
      have hx : x = '\\' := by simpa using hh
      subst hx
      have e' : headCore ('\\' :: h) = '\\' :: h.takeWhile isNameChar := rfl
      rw [e'] at e ht
      have hsplit : h = h.takeWhile isNameChar ++ h.dropWhile isNameChar := (List.takeWhile_append_dropWhile).symm
      cases hd : h.dropWhile isNameChar with
      | nil => rw [hd, List.append_nil] at hsplit; exact e (by rw [← hsplit])
      | cons z u =>
        have hz : isNameChar z = false := by
          have := List.head?_dropWhile_not isNameChar h
          rw [hd] at this
          simpa using this
        rw [hd] at hsplit
        simp only [List.cons_append, List.cons.injEq, true_and] at hr ht
        rw [hsplit, ← ht, List.append_assoc, List.append_assoc] at hr
        have := List.append_cancel_left hr
        simp only [List.cons_append, List.cons.injEq] at this
        rw [this.1, hy] at hz; cases hz

/-- A word pattern does not match on another command. -/
theorem kind_dead {ws os : List String} {a : Fmt.Alt} {w rest : Str} (he : Ends w rest) (hws : ∀ v ∈ ws, v ∈ layoutWords) (h1 : '\\' :: w ∉ ws.map String.toList) (h2 : Without os ('\\' :: w))
    (hk : kind ws os a = true) : Dead a.re ('\\' :: (w ++ rest)) := by
  unfold kind at hk
  simp only [Bool.and_eq_true, Bool.or_eq_true, beq_iff_eq, bne_iff_ne, ne_eq, List.all_eq_true, List.contains_iff_mem] at hk
  obtain ⟨⟨hh, hc⟩, hk⟩ := hk
  have hc' : headCore a.head ∈ layoutWords.map String.toList := by
    obtain ⟨v, hv, e⟩ := List.mem_map.1 hc
    exact List.mem_map.2 ⟨v, hws v hv, e⟩
  have hne := (layout_words _ hc').1
  by_cases hp : a.head <+: '\\' :: (w ++ rest)
  · have hcw : headCore a.head <+: '\\' :: w := by
      revert hh hne hp
      generalize a.head = h
      intro hh hne hp
      cases h with
      | nil => cases hh
      | cons x h =>
        rw [List.cons_prefix_cons] at hp
        obtain ⟨rfl, hp⟩ := hp
        have e : headCore ('\\' :: h) = '\\' :: h.takeWhile isNameChar := rfl
        rw [e] at hne ⊢
        rcases he with ⟨_, _, hr⟩ | ⟨c, rfl, hcn⟩
        · exact List.cons_prefix_cons.2 ⟨rfl, takeWhile_prefix hp fun c hc => hr c (by simpa using hc)⟩
        · cases h with
          | nil => simp at hne
          | cons y h =>
            rw [List.singleton_append, List.cons_prefix_cons] at hp
            rw [hp.1, List.takeWhile_cons, hcn] at hne
            simp at hne
    obtain ⟨t, ht⟩ := hcw
    cases t with
    | nil => rw [List.append_nil] at ht; rw [ht] at hc; exact absurd hc h1
    | cons y t =>
      have hyl : isLetter y = true := by
        rcases he with ⟨_, hl, _⟩ | ⟨c, rfl, hcn⟩
        · have : y ∈ '\\' :: w := by rw [← ht]; simp
          rcases List.mem_cons.1 this with h | h
          · exfalso
            have hcl : (headCore a.head).length = 0 := by
              cases hcc : headCore a.head with
              | nil => rfl
              | cons z u =>
                rw [hcc] at ht
                have : y ∈ w := by
                  have := congrArg List.tail ht
                  simp only [List.cons_append, List.tail_cons] at this
                  rw [← this]; simp
                have := hl y this
                rw [h] at this; cases this
            cases hcl
          · exact hl y h
        · exfalso
          have hl2 := congrArg List.length ht
          simp only [List.length_append, List.length_cons, List.length_nil] at hl2
          have : 2 ≤ (headCore a.head).length := by
            revert hne
            generalize headCore a.head = q
            intro hne
            match q, hne with
            | [_], hne => simp at hne
            | _ :: _ :: _, _ => simp
          omega
      have hhead := core_whole hh hp ht (letter_name y hyl)
      rcases hk with (hk | hk) | hk
      · obtain ⟨v, hv, e⟩ := List.mem_map.1 hk
        exact absurd ⟨_, by rw [e]; exact ht⟩ (h2 v hv)
      · exact absurd hhead hk
      · rw [hhead] at ht
        rw [show '\\' :: (w ++ rest) = a.head ++ ([y] ++ (t ++ rest)) by rw [← List.cons_append, ← ht]; simp]
        exact lit_alt_dead (may_dead (hk y (letters_all hyl)) _)
  · exact Dead.seq (Dead.group 0 (Dead.lit hp))

theorem slash_seq {b : Re} {t : Str} (h : Dead b t) : Dead (.seq (.group 0 (.lit ['\\'])) b) ('\\' :: t) := by
  intro rev g
  show (((Re.lit ['\\']).run ⟨rev, '\\' :: t, g⟩).map _).flatMap _ = []
  rw [Re.run_lit, if_pos (by simp)]
  simp only [List.map_cons, List.map_nil, List.flatMap_cons, List.flatMap_nil, List.append_nil, List.length_cons, List.length_nil, List.drop_succ_cons, List.drop_zero]
  exact h _ _

theorem empty_seq {b : Re} {t : Str} (hb : Dead b t) : Dead (.seq (.group 0 (.lit [])) b) t := by
  intro rev g
  show (((Re.lit []).run ⟨rev, t, g⟩).map _).flatMap b.run = []
  simp only [Re.lit, Re.run, List.map_cons, List.map_nil, List.flatMap_cons, List.flatMap_nil, List.append_nil]
  exact hb _ _

theorem optNum_slash {b : Re} {t : Str} (hb : Dead b ('\\' :: t)) : Dead (.seq (.opt Fmt.numRe) b) ('\\' :: t) := by
  have hd : Dead Fmt.numRe ('\\' :: t) := may_dead (w := ['\\']) (by decide +kernel) t
  intro rev g
  show ((Re.opt Fmt.numRe).run ⟨rev, '\\' :: t, g⟩).flatMap b.run = []
  rw [show (Re.opt Fmt.numRe).run ⟨rev, '\\' :: t, g⟩ = Fmt.numRe.run ⟨rev, '\\' :: t, g⟩ ++ [⟨rev, '\\' :: t, g⟩] from rfl, hd rev g]
  simp only [List.nil_append, List.flatMap_cons, List.flatMap_nil, List.append_nil]
  exact hb rev g

theorem table_ci : (Fmt.table[150]? = some (.drop, ⟨['\\'], .seq (Content.ciLit "linenumbers".toList) Fmt.wordEnd⟩)) ∧
    (Fmt.table[151]? = some (.drop, ⟨['\\'], .seq (Content.ciLit "linesnumbered".toList) Fmt.wordEnd⟩)) ∧
    (Fmt.table[152]? = some (.drop, ⟨['\\'], .seq (Content.ciLit "numberwithin".toList) (Fmt.ws (.seq Fmt.braces0 (Fmt.ws Fmt.braces0)))⟩)) := ⟨rfl, rfl, rfl⟩

theorem chr_inv {p : Char → Bool} {st st' : MSt} (h : st' ∈ (Re.chr p).run st) : ∃ x t, st.rest = x :: t ∧ p x = true ∧ st' = ⟨x :: st.rev, t, st.groups⟩ := by
  obtain ⟨rev, rest, g⟩ := st
  cases rest with
  | nil => simp [Re.run] at h
  | cons x t =>
    cases hp : p x with
    | false => simp [Re.run, hp] at h
    | true => simp [Re.run, hp] at h; exact ⟨x, t, rfl, hp, h⟩

/-- No alternative of the table matches on a command that is no layout command. -/
theorem table_dead {w rest : Str} (he : Ends w rest) (hn : NotLayoutMath w rest) {p : Fmt.Act × Fmt.Alt} (hp : p ∈ Fmt.table) (hsp : p.1 = .spacing → NotLayout w rest) :
    Dead p.2.re ('\\' :: (w ++ rest)) := by
  obtain ⟨hn0, hn1, hn2, hn3, hn4⟩ := hn
  obtain ⟨i, hi, hx⟩ := List.mem_iff_getElem.1 hp
  have h1 : Fmt.table[i]? = some p := by rw [List.getElem?_eq_getElem hi, hx]
  have letters : ∀ v ∈ anyCaseWords, ∀ c ∈ v.toList, 'a' ≤ c ∧ c ≤ 'z' := by decide +kernel
  have punct : ∀ {hd : Str} {c : Char}, hd.head? = some '\\' → hd.tail.head? = some c → hd <+: '\\' :: (w ++ rest) → w.head? = some c := by
    intro hd c hs h hp
    cases hd with
    | nil => cases hs
    | cons a hd =>
      cases hd with
      | nil => simp at h
      | cons d hd =>
        have hdc : d = c := by simpa using h
        subst hdc
        rw [List.cons_prefix_cons] at hp
        cases w with
        | nil => rcases he with ⟨h, _⟩ | ⟨c, h, _⟩
                 · exact absurd rfl h
                 · cases h
        | cons x w' =>
          rw [List.cons_append, List.cons_prefix_cons] at hp
          rw [hp.2.1]; rfl
  rcases table_kinds i (by simp [hi]) with h | rfl | rfl | rfl | rfl | rfl
  · rw [h1] at h
    simp only [Option.any_some, Bool.or_eq_true, Bool.and_eq_true, beq_iff_eq, bne_iff_ne, ne_eq] at h
    rcases h with ((h | h) | ⟨-, h⟩) | ⟨h0, h | ⟨hs, h⟩⟩
    · refine Dead.seq (Dead.group 0 (Dead.lit ?_))
      rw [h]; intro hp
      rw [List.cons_prefix_cons] at hp
      exact absurd hp.1 (by decide)
    · refine Dead.seq (Dead.group 0 (Dead.lit fun hp => ?_))
      exact hn4 (punct (by rw [h]; rfl) (by rw [h]; rfl) hp)
    · refine kind_dead he (fun v hv => (List.mem_filter.1 hv).1) ?_ hn1 h
      intro hm
      obtain ⟨v, hv, e⟩ := List.mem_map.1 hm
      obtain ⟨hv1, hv2⟩ := List.mem_filter.1 hv
      obtain ⟨u, hu, e2⟩ := List.mem_map.1 (hn0 (List.mem_map.2 ⟨v, hv1, e⟩))
      have : u = v := String.toList_inj.1 (e2.trans e.symm)
      subst this
      simp [hu] at hv2
    · obtain ⟨-, hw, -⟩ := hsp h0
      refine kind_dead he (by decide +kernel) ?_ hw h
      intro hm
      obtain ⟨v, hv, e⟩ := List.mem_map.1 hm
      exact hw v hv ⟨[], by rw [e]; simp⟩
    · obtain ⟨-, -, hc⟩ := hsp h0
      refine Dead.seq (Dead.group 0 (Dead.lit fun hp => ?_))
      cases hh : p.2.head.tail.head? with
      | none => rw [hh] at h; simp at h
      | some c =>
        rw [hh] at h
        exact hc c (punct hs hh hp) (by simpa using h)
  · have : p = _ := (Option.some.inj (h1.symm.trans (rfl : Fmt.table[114]? = some (Fmt.Act.lineskip, ⟨[], .seq (.opt Fmt.numRe) (.seq (.lit "\\baselineskip".toList) (.opt (Fmt.ws Fmt.pointsRe)))⟩))))
    rw [this]
    refine empty_seq (optNum_slash (Dead.seq (Dead.lit fun hp => ?_)))
    have hb : "\\baselineskip".toList = '\\' :: "baselineskip".toList := rfl
    rw [hb, List.cons_prefix_cons] at hp
    rcases he with ⟨_, _, hr⟩ | ⟨c, rfl, hcn⟩
    · have := takeWhile_prefix hp.2 fun c hc => hr c (by simpa using hc)
      exact hn1 "\\baselineskip" (by decide) (by rw [hb]; exact List.cons_prefix_cons.2 ⟨rfl, this⟩)
    · obtain ⟨r, hr⟩ := hp.2
      have : c = 'b' := by simp at hr; exact hr.1.symm
      rw [this] at hcn; revert hcn; decide
  · have : p = _ := (Option.some.inj (h1.symm.trans (rfl : Fmt.table[223]? = some (Fmt.Act.strips, ⟨[], .seq (.opt Fmt.numRe) (.seq (.lit ['\\']) (.seq (.chr fun c => c == 'p' || c == 'z') (.seq (.lit ['@']) (.nlook (.chr isNameChar)))))⟩))))
    rw [this]
    refine empty_seq (optNum_slash (Dead.after_lit (t := ['\\']) (fun rev g => ?_)))
    refine List.eq_nil_iff_forall_not_mem.2 fun st hst => ?_
    obtain ⟨s1, h1, hst⟩ := List.mem_flatMap.1 hst
    obtain ⟨s2, h2, -⟩ := List.mem_flatMap.1 hst
    obtain ⟨e, -⟩ := Fmt.lit_inv h2
    obtain ⟨x, t, hx, hp, rfl⟩ := chr_inv h1
    simp only at e hx
    have hxl : isLetter x = true := by simp at hp; rcases hp with rfl | rfl <;> decide
    rcases he with ⟨hw, hl, hr⟩ | ⟨c, rfl, hc⟩
    · cases w with
      | nil => exact hw rfl
      | cons y w =>
        have ht : w ++ rest = t := by simp at hx; exact hx.2
        rw [e] at ht
        cases w with
        | nil =>
          have := hr '@' (by rw [List.nil_append] at ht; rw [ht]; rfl)
          revert this; decide
        | cons z w =>
          have hz : z = '@' := by simp at ht; exact ht.1
          have := hl z (by simp)
          rw [hz] at this
          revert this; decide
    · have : c = x := by simp at hx; exact hx.1
      rw [this, letter_name x hxl] at hc; cases hc
  · rw [table_ci.1] at h1; cases h1
    exact slash_seq (ci_dead (letters _ (by decide)) (hn2 _ (by decide)))
  · rw [table_ci.2.1] at h1; cases h1
    exact slash_seq (ci_dead (letters _ (by decide)) (hn2 _ (by decide)))
  · rw [table_ci.2.2] at h1; cases h1
    exact slash_seq (ci_dead (letters _ (by decide)) (hn2 _ (by decide)))

theorem make_dead_word {w rest : Str} (he : Ends w rest) (hn : ¬ Contains w "maketitle".toList) : Dead Fmt.makeAlt.re ('\\' :: (w ++ rest)) := by
  rcases he with ⟨hw, hl, hr⟩ | ⟨c, rfl, hc⟩
  · refine Fmt.notMake_dead (w := '\\' :: w) ?_ (fun c hc => hr c (by simpa using hc))
    unfold Fmt.notMake
    simp only [List.head?_cons, List.tail_cons, Bool.and_eq_true, beq_self_eq_true, true_and, Option.isNone_iff_eq_none]
    cases hf : findSub "maketitle".toList w with
    | none => rfl
    | some k => exact absurd ((findSub_contains _ (by decide) w).1 (by rw [hf]; rfl)) hn
  · refine slash_seq ?_
    intro rev g
    refine List.eq_nil_iff_forall_not_mem.2 fun st hst => ?_
    replace hst : st ∈ Fmt.makeTail.run ⟨rev, c :: rest, g⟩ := hst
    simp only [Fmt.makeTail, Re.run, List.mem_flatMap] at hst
    obtain ⟨s1, h1, s2, h2, -⟩ := hst
    have hs : s1.rest = c :: rest := by
      rcases List.mem_append.1 h1 with h | h
      · unfold Fmt.nameRe Re.plus at h
        simp [Re.run, hc] at h
      · simp [Re.run] at h; simp [h]
    obtain ⟨e, -⟩ := Fmt.lit_inv h2
    rw [hs] at e
    have : c = 'm' := by simp at e; exact e.1
    rw [this] at hc; revert hc; decide

theorem noLayout_word {V} (cfg : Cfg V) {w rest : Str} (he : Ends w rest) (hn : NotLayout w rest) : NoLayout cfg ('\\' :: (w ++ rest)) := by
  refine ⟨false, ?_⟩
  unfold Fmt.handle
  rw [Fmt.handleWith_flat, Fmt.firstAlt_none]
  intro p hp
  rw [Fmt.table_split] at hp
  by_cases hm : p = (Fmt.Act.drop, Fmt.makeAlt)
  · rw [hm]; exact make_dead_word he hn.1.2.2.2.1
  · refine table_dead he hn.1 ?_ fun _ => hn
    unfold Fmt.table
    rcases List.mem_append.1 hp with h | h
    · exact List.mem_append_left _ h
    · rcases List.mem_cons.1 h with h | h
      · exact absurd h hm
      · exact List.mem_append_right _ h

theorem noLayout_text {V} (cfg : Cfg V) {c : Char} {t : Str} (h : layoutStart c = false) : NoLayout cfg (c :: t) := ⟨false, (Fmt.C62_text cfg.fmt c t h).2⟩

end L2J.Pre
