import Verif.Props.C64c
/-! C64: the steps of the loop over text, ordinary commands, quotes, formulas and layout commands. -/
namespace L2J.Pre
open Cmds Defn L2J.Spec

theorem words_slash : ∀ w ∈ (defineWords ++ effectWords ++ condWords).map String.toList, w.head? = some '\\' := by decide +kernel

theorem without_text {ws : List String} (hws : ∀ w ∈ ws, w ∈ defineWords ++ effectWords ++ condWords) {s : Str} (hs : s.head? ≠ some '\\') : Without ws s := by
  rintro w hw ⟨t, rfl⟩
  have := words_slash _ (List.mem_map.2 ⟨w, hws w hw, rfl⟩)
  generalize w.toList = v at this hs
  cases v with
  | nil => cases this
  | cons c v => simp at this; exact hs (by simp [this])

theorem without_effect {s : Str} (hs : s.head? ≠ some '\\') : Without effectWords s := without_text (fun w hw => by simp [hw]) hs
theorem without_define {s : Str} (hs : s.head? ≠ some '\\') : Without defineWords s := without_text (fun w hw => by simp [hw]) hs
theorem without_cond {s : Str} (hs : s.head? ≠ some '\\') : Without condWords s := without_text (fun w hw => by simp [hw]) hs

/-- A character that is neither a command nor a formula. -/
theorem noFormula_text {c : Char} {t : Str} (h1 : c ≠ '\\') (h2 : c ≠ '$') : NoFormula (c :: t) := by
  refine .inl ?_
  rintro (⟨u, hu⟩ | ⟨u, hu⟩ | ⟨u, hu⟩ | ⟨n, _, w, star, _, u, hu⟩)
  · exact h2 (by have := congrArg List.head? hu; simpa using this.symm)
  · exact h1 (by have := congrArg List.head? hu; simpa using this.symm)
  · exact h1 (by have := congrArg List.head? hu; simpa using this.symm)
  · exact h1 (by have := congrArg List.head? hu; simpa [tag] using this.symm)

/-- Behind the quotes: a character that is no command is passed over. -/
theorem define_text {V} {cfg : Cfg V} {h} {st : St V} (k : Known cfg h st) {c : Char} {t : Str} (h1 : c ≠ '\\') (h2 : layoutStart c = false) :
    actDefine cfg st (c :: t) = .next st [c] t := by
  have hs : (c :: t).head? ≠ some '\\' := by simpa using h1
  rw [actDefine_none (without_effect hs) (without_define hs), actFormat_none (noLayout_text cfg h2), actCommand_none (without_effect hs) (user_text k hs),
    actIf_none (without_cond hs)]
  rfl

theorem acts_text {V} {cfg : Cfg V} (ho : SomeOrder cfg.order) {h} {st : St V} (k : Known cfg h st) {c : Char} {t : Str} (h1 : c ≠ '\\') (h2 : c ≠ '$') (h3 : c ≠ '`')
    (h4 : layoutStart c = false) : Acts cfg st (c :: t) st [c] t := by
  refine ⟨0, fun n _ => ?_⟩
  rw [act_none ho (without_effect (by simpa using h1)) (noFormula_text h1 h2), quotes_none (by simpa using h3), define_text k h1 h4]

theorem inert {V} {cfg : Cfg V} (ho : SomeOrder cfg.order) {h} {st : St V} (k : Known cfg h st) : Inert cfg st := by
  intro c t hc
  have hl : layoutStart c = false := by
    rcases hc with rfl | hc
    · decide
    · simp only [layoutStart, Bool.or_eq_false_iff, beq_eq_false_iff_ne]
      refine ⟨⟨⟨⟨⟨?_, ?_⟩, ?_⟩, ?_⟩, ?_⟩, Fmt.digit_nospace' hc⟩ <;> (rintro rfl; revert hc; decide)
  refine acts_text ho k ?_ ?_ ?_ hl <;> (rintro rfl; rcases hc with hc | hc <;> revert hc <;> decide)

/-! Commands. -/

theorem hit_slash {s : Str} (h : ∀ c ∈ s.head?, escapable c = false) : firstHit none ('\\' :: s) = some 0 := by
  unfold firstHit
  have : hitAt none ('\\' :: s) = true := by
    have hx : Option.any escapable s.head? = false := by
      cases s with
      | nil => rfl
      | cons c t => exact h c rfl
    simp [hitAt, hx]
  rw [if_pos this]

theorem letter_plain {c : Char} (h : isNameChar c = true) : escapable c = false := by
  cases he : escapable c with
  | false => rfl
  | true =>
    simp only [escapable, show "$%&_#{}~".toList = ['$', '%', '&', '_', '#', '{', '}', '~'] from rfl, List.contains_cons, List.contains_nil, Bool.or_false, Bool.or_eq_true, beq_iff_eq] at he
    rcases he with rfl | rfl | rfl | rfl | rfl | rfl | rfl | rfl <;> (revert h; decide)

/-- A command name that is not an escaped character. -/
theorem ends_hit {w rest : Str} (he : Ends w rest) (hx : ∀ c ∈ w.head?, c ∉ "$%&_#{}~".toList) : firstHit none ('\\' :: (w ++ rest)) = some 0 := by
  refine hit_slash fun c hc => ?_
  have : w.head? = some c := by
    rcases he with ⟨hw, _⟩ | ⟨d, rfl, _⟩
    · cases w with
      | nil => exact absurd rfl hw
      | cons x w => simpa using hc
    · simpa using hc
  unfold escapable
  simpa using hx c this

/-- The command `\w` is none the preprocessor deals with: it is neither built in nor defined, and no formula begins with it. -/
structure _root_.L2J.Spec.Ordinary (h : List (Def × Bool)) (w rest : Str) : Prop where
  name : Ends w rest
  plain : ∀ c ∈ w.head?, c ∉ "$%&_#{}~".toList
  layout : NotLayout w rest
  builtin : Without (defineWords ++ effectWords ++ condWords) ('\\' :: (w ++ rest))
  csname : ¬ "csname".toList <+: w ++ rest
  formula : NoFormula ('\\' :: (w ++ rest))
  user : ∀ x ∈ h, ¬ Meant x.1 w

theorem Without.sub {ws vs : List String} {s : Str} (h : Without ws s) (hs : ∀ w ∈ vs, w ∈ ws) : Without vs s := fun w hw => h w (hs w hw)

theorem Runs.command {V} {cfg : Cfg V} (ho : SomeOrder cfg.order) (hl : Letters cfg.cmds) {h} {st st' : St V} (k : Known cfg h st) {w rest out : Str} (hw : Ordinary h w rest)
    (hr : Runs cfg st (w ++ rest) st' out) : Runs cfg st ('\\' :: (w ++ rest)) st' ('\\' :: out) := by
  refine Runs.act (o := ['\\']) (ends_hit hw.name hw.plain) ⟨0, fun n _ => ?_⟩ hr
  have he : Without effectWords ('\\' :: (w ++ rest)) := Without.sub hw.builtin fun w hw => by simp [hw]
  rw [act_none ho he hw.formula, quotes_none (by simp), actDefine_none he (Without.sub hw.builtin fun w hw => by simp [hw]), actFormat_none (noLayout_word cfg hw.name hw.layout),
    actCommand_none he (user_word hl k hw.name hw.csname hw.user), actIf_none (Without.sub hw.builtin fun w hw => by simp [hw])]
  rfl

/-! Quotes. -/

theorem hit_tick (s : Str) : firstHit none ('`' :: s) = some 0 := by
  unfold firstHit; rw [if_pos (by simp [hitAt])]

theorem tick_math {s : Str} : NoFormula ('`' :: s) := noFormula_text (by decide) (by decide)

theorem lazy_flatMap' {β} (p : Char → Bool) (tail : Str) (g : List (Nat × Str)) (k : MSt → List β) : ∀ (d rev : Str) (n : Nat),
    (∀ u v, d = u ++ v → v ≠ [] → k ⟨u.reverse ++ rev, v ++ tail, g⟩ = []) → (∀ x ∈ d, p x = true) → d.length ≤ n → k ⟨d.reverse ++ rev, tail, g⟩ ≠ [] →
    ((iterLazy (Re.chr p).run n ⟨rev, d ++ tail, g⟩).flatMap k).head? = (k ⟨d.reverse ++ rev, tail, g⟩).head?
  | [], rev, n, _, _, _, hne => by
    have hx : ∃ l, iterLazy (Re.chr p).run n ⟨rev, [] ++ tail, g⟩ = ⟨rev, tail, g⟩ :: l := by
      cases n with
      | zero => exact ⟨[], rfl⟩
      | succ n => exact ⟨_, rfl⟩
    obtain ⟨l, hl⟩ := hx
    rw [hl, List.flatMap_cons, List.head?_append]
    cases hh : k ⟨rev, tail, g⟩ with
    | nil => exact absurd hh hne
    | cons y m => show _ = (k ⟨rev, tail, g⟩).head?; rw [hh]; rfl
  | x :: d, rev, n, hk, hp, hn, hne => by
    cases n with
    | zero => simp at hn
    | succ n =>
      have e : Re.run (.chr p) ⟨rev, x :: d ++ tail, g⟩ = [⟨x :: rev, d ++ tail, g⟩] := by simp [Re.run, hp x (by simp)]
      rw [iterLazy, e, List.flatMap_cons, show k ⟨rev, x :: d ++ tail, g⟩ = [] from hk [] (x :: d) rfl (by simp)]
      have ih := lazy_flatMap' p tail g k d (x :: rev) n (fun u v hd hv => by
          have := hk (x :: u) v (by simp [hd]) hv
          simpa using this) (fun y hy => hp y (by simp [hy])) (by simpa using hn)
        (by simpa using hne)
      simpa using ih

theorem Eats.lazyLit (p : Char → Bool) (n : Nat) {l d rest : Str} {g} (h1 : ∀ u v, d = u ++ v → v ≠ [] → ¬ l <+: v ++ (l ++ rest)) (h2 : ∀ x ∈ d, p x = true) :
    Eats (.seq (.group n (.lazyStar (.chr p))) (.lit l)) (d ++ l) rest g ((n, d) :: g) := by
  intro rev
  unfold Hd
  show ((((iterLazy (Re.chr p).run (d ++ l ++ rest).length ⟨rev, d ++ l ++ rest, g⟩).map _)).flatMap (Re.lit l).run).head? = _
  rw [List.flatMap_map, List.append_assoc]
  have hmatch : ∀ g', (Re.lit l).run ⟨d.reverse ++ rev, l ++ rest, g'⟩ = [⟨l.reverse ++ (d.reverse ++ rev), rest, g'⟩] := by
    intro g'; rw [Re.run_lit, if_pos (by rw [List.isPrefixOf_iff_prefix]; exact ⟨rest, rfl⟩), List.drop_left]
  rw [lazy_flatMap' p (l ++ rest) g _ d rev _ ?_ h2 (by simp) ?_]
  · simp [hmatch]
  · intro u v hd hv
    simp only [Re.run_lit]
    rw [if_neg (by rw [List.isPrefixOf_iff_prefix]; exact h1 u v hd hv)]
  · simp [hmatch]

theorem quote_hit {r : Re} {mark : Char} {a x rest : Str} (h : Eats r a rest [] [(1, x)]) : quote r mark (a ++ rest) = mark :: (x ++ mark :: rest) := by
  unfold quote
  rw [h.matchAt []]
  have hs : Match.stop ⟨[], a ++ rest, a.length, [(1, x)]⟩ = a.length := by simp [Match.stop]
  simp only [hs, List.drop_left]
  rfl

/-- ```` ``x'' ````: the quotes become `"`. -/
theorem quotes_double {x rest : Str} (hx : ¬ Contains (x ++ ['\'']) ['\'', '\'']) : quotes (['`', '`'] ++ (x ++ (['\'', '\''] ++ rest))) = '"' :: (x ++ '"' :: rest) := by
  have he : Eats doubleRe (['`', '`'] ++ (x ++ ['\'', '\''])) rest [] [(1, x)] := by
    refine Eats.seq (x := ['`', '`']) (g1 := []) (Eats.lit _ _ _) (Eats.lazyLit _ 1 ?_ (fun _ _ => rfl))
    rintro u v rfl hv hp
    cases v with
    | nil => exact hv rfl
    | cons a v =>
      cases v with
      | nil =>
        rw [List.singleton_append, List.cons_prefix_cons] at hp
        exact hx ⟨u, [], by rw [← hp.1]; simp⟩
      | cons b v =>
        rw [List.cons_append, List.cons_append, List.cons_prefix_cons, List.cons_prefix_cons] at hp
        exact hx ⟨u, v ++ ['\''], by rw [← hp.1, ← hp.2.1]; simp⟩
  have h1 := quote_hit (mark := '"') he
  have e : ['`', '`'] ++ (x ++ ['\'', '\'']) ++ rest = ['`', '`'] ++ (x ++ (['\'', '\''] ++ rest)) := by simp
  rw [e] at h1
  unfold quotes
  rw [h1]
  unfold quote
  rw [(show Dead singleRe ('"' :: (x ++ '"' :: rest)) from Dead.seq (Dead.char (by simp))).matchAt []]

/-- `` `x' ``: the opening quote becomes `'`. -/
theorem quotes_single {x rest : Str} (hx : '\'' ∉ x) (h0 : x.head? ≠ some '`') : quotes ('`' :: (x ++ '\'' :: rest)) = '\'' :: (x ++ '\'' :: rest) := by
  have hd : Dead doubleRe ('`' :: (x ++ '\'' :: rest)) := by
    refine Dead.seq (Dead.lit ?_)
    rintro ⟨t, ht⟩
    cases x with
    | nil => simp at ht
    | cons a x => simp at ht; exact h0 (by simp [← ht.1])
  have he : Eats singleRe (['`'] ++ (x ++ ['\''])) rest [] [(1, x)] :=
    Eats.seq (x := ['`']) (g1 := []) (Eats.lit _ _ _) (Eats.lazy _ 1 '\'' hx (fun _ _ => rfl))
  have h2 := quote_hit (mark := '\'') he
  have e : ['`'] ++ (x ++ ['\'']) ++ rest = '`' :: (x ++ '\'' :: rest) := by simp
  rw [e] at h2
  unfold quotes
  rw [show quote doubleRe '"' ('`' :: (x ++ '\'' :: rest)) = '`' :: (x ++ '\'' :: rest) by unfold quote; rw [hd.matchAt []]]
  exact h2

theorem lazy_mem (p : Char → Bool) : ∀ (n : Nat) (st st' : MSt), st' ∈ iterLazy (Re.chr p).run n st → ∃ x, st.rest = x ++ st'.rest
  | 0, st, st', h => by simp [iterLazy] at h; exact ⟨[], by simp [h]⟩
  | n + 1, st, st', h => by
    unfold iterLazy at h
    rcases List.mem_cons.1 h with h | h
    · exact ⟨[], by simp [h]⟩
    · obtain ⟨s1, h1, h2⟩ := List.mem_flatMap.1 h
      obtain ⟨x, t, hx, _, rfl⟩ := chr_inv (List.mem_filter.1 h1).1
      obtain ⟨y, hy⟩ := lazy_mem p n _ _ h2
      exact ⟨x :: y, by rw [hx, show t = y ++ st'.rest from hy]; rfl⟩

/-- A quote that is not closed. -/
theorem quotes_open {s : Str} (hs : '\'' ∉ s) : quotes ('`' :: s) = '`' :: s := by
  have key : ∀ (l : Str) (t : Str), '\'' ∈ l → '\'' ∉ t → Dead (.seq (.group 1 (.lazyStar (.chr fun _ => true))) (.lit l)) t := by
    intro l t hl ht rev g
    refine List.eq_nil_iff_forall_not_mem.2 fun st hst => ?_
    obtain ⟨s1, h1, h2⟩ := List.mem_flatMap.1 hst
    obtain ⟨s0, h0, rfl⟩ := List.mem_map.1 h1
    obtain ⟨x, hx⟩ := lazy_mem _ _ _ _ h0
    obtain ⟨e, -⟩ := Fmt.lit_inv h2
    simp only at e hx
    exact ht (by rw [hx, e]; simp [hl])
  have d1 : Dead doubleRe ('`' :: s) := by
    by_cases hp : ['`', '`'] <+: '`' :: s
    · obtain ⟨t, ht⟩ := hp
      rw [← ht]
      exact Dead.after_lit (key _ t (by simp) (fun h => hs (by have : s = '`' :: t := by simpa using ht.symm
                                                               rw [this]; simp [h])))
    · exact Dead.seq (Dead.lit hp)
  have d2 : Dead singleRe ('`' :: s) := Dead.after_lit (t := ['`']) (key _ s (by simp) hs)
  unfold quotes
  rw [show quote doubleRe '"' ('`' :: s) = '`' :: s by unfold quote; rw [d1.matchAt []]]
  unfold quote; rw [d2.matchAt []]

theorem Runs.quote {V} {cfg : Cfg V} (ho : SomeOrder cfg.order) {h} {st st' : St V} (k : Known cfg h st) {s t out : Str} {c : Char} (hq : quotes ('`' :: s) = c :: t)
    (h1 : c ≠ '\\') (h2 : layoutStart c = false) (hr : Runs cfg st t st' out) : Runs cfg st ('`' :: s) st' (c :: out) := by
  refine Runs.act (o := [c]) (hit_tick s) ⟨0, fun n _ => ?_⟩ hr
  rw [act_none ho (without_effect (by simp)) tick_math, hq, define_text k h1 h2]

end L2J.Pre
