import Verif.Props.C64g
/-! C64: uses of switches, counters, lengths and paired delimiters. -/
namespace L2J.Pre
open Cmds Defn L2J.Spec

/-- `\w` sets the switch, or shows the counter or the length, that is declared: it has no text. -/
def _root_.L2J.Spec.Silent (d : Def) (w : Str) : Prop :=
  d.name ∉ whitelisted ∧ match d with
  | .newif n => w = n ++ "true".toList ∨ w = n ++ "false".toList
  | .newcounter n => w = "the".toList ++ n
  | .newlength n => w = n
  | .newX n => w = n
  | _ => False

/-- `\w` is declared as a switch, counter or length, and as nothing else. -/
def _root_.L2J.Spec.Idle (h : List (Def × Bool)) (w : Str) : Prop := (∃ x ∈ h, Silent x.1 w) ∧ ∀ x ∈ h, Meant x.1 w → Silent x.1 w

theorem firstMatch_some {text : Str} {e : Entry} {m : Match} : ∀ {es : List Entry}, firstMatch text es = some (e, m) → e ∈ es ∧ e.pattern.matchAt [] text = some m
  | [], h => by cases h
  | x :: es, h => by
    unfold firstMatch at h
    cases hx : x.pattern.matchAt [] text with
    | some m' => rw [hx] at h; injection h with h; injection h with h1 h2; subst h1; subst h2; exact ⟨by simp, hx⟩
    | none => rw [hx] at h; have := firstMatch_some h; exact ⟨by simp [this.1], this.2⟩

theorem silent_entry {cfg : Cmds.Cfg} {p : Proc} {d : Def} {sty : Bool} {w : Str} (hs : Silent d w) (hp : PlainDef d) : entryOf cfg p d sty = some (.ok (some ⟨d.usage cfg, .ignore, false⟩)) := by
  have hn : (d.name.isEmpty || whitelisted.contains d.name) = false := by
    rw [Bool.or_eq_false_iff]
    refine ⟨?_, by simpa using hs.1⟩
    cases d <;> first | exact hs.2.elim | (simpa [Def.name] using hp.1)
  unfold entryOf
  cases d <;> first | exact hs.2.elim | simp only [hn, Bool.false_eq_true, if_false]

theorem silent_match {cfg : Cmds.Cfg} {d : Def} {w rest : Str} (hs : Silent d w) (hp : PlainDef d) (hr : ∀ c ∈ rest.head?, isWord c = false) :
    (d.usage cfg).matchAt [] ('\\' :: (w ++ rest)) = some ⟨[], '\\' :: (w ++ rest), w.length + 1, []⟩ := by
  have fin : ∀ {r : Re}, Eats r ('\\' :: w) rest [] [] → r.matchAt [] ('\\' :: (w ++ rest)) = some ⟨[], '\\' :: (w ++ rest), w.length + 1, []⟩ := by
    intro r h; have := h.matchAt []; simpa using this
  have word : ∀ {n : Str}, NameWord n → w = n → Eats (.seq (.lit ['\\']) (.seq (rawRe n) reWordEnd)) ('\\' :: w) rest [] [] := by
    rintro n hn rfl
    rw [rawRe_word hn.2]
    have := Eats.seq (x := ['\\']) (g1 := []) (Eats.lit _ _ _) (Eats.seq (x := w) (y := []) (g1 := []) (Eats.lit _ _ _) (Cond.reWordEnd_eats hr))
    simpa using this
  cases d with
  | newif n =>
    refine fin ?_
    show Eats (.seq (.lit ['\\']) (.seq (rawRe n) (.alt (.lit "true".toList) (.lit "false".toList)))) _ _ _ _
    rw [rawRe_word hp.2]
    rcases hs.2 with rfl | rfl
    · exact Eats.seq (x := ['\\']) (g1 := []) (Eats.lit _ _ _) (Eats.seq (g1 := []) (Eats.lit _ _ _) (Eats.left (Eats.lit _ _ _)))
    · refine Eats.seq (x := ['\\']) (g1 := []) (Eats.lit _ _ _) (Eats.seq (g1 := []) (Eats.lit _ _ _) (Eats.right (Dead.lit ?_) (Eats.lit _ _ _)))
      rintro ⟨t, ht⟩; cases ht
  | newcounter n =>
    refine fin ?_
    show Eats (.seq (.lit "\\the".toList) (.seq (rawRe n) reWordEnd)) _ _ _ _
    rw [rawRe_word hp.2, show w = "the".toList ++ n from hs.2]
    have := Eats.seq (x := "\\the".toList) (g1 := []) (Eats.lit _ _ _) (Eats.seq (x := n) (y := []) (g1 := []) (Eats.lit _ _ _) (Cond.reWordEnd_eats hr))
    simpa using this
  | newlength n => exact fin (word hp hs.2)
  | newX n => exact fin (word hp hs.2)
  | _ => exact hs.2.elim

theorem get_stays {cfg : Cmds.Cfg} (pl : Place) : ∀ (hs : List (Def × Bool)) (p p' : Proc), registerAll cfg p hs = some (.ok p') → (Dict.get? (p.dict pl.isLet) pl.key).isSome = true →
    (Dict.get? (p'.dict pl.isLet) pl.key).isSome = true
  | [], p, p', h, hg => by injection h with h; injection h with h; rw [← h]; exact hg
  | (d, sty) :: hs, p, p', h, hg => by
    obtain ⟨p1, h1, h2⟩ := registerAll_cons h
    refine get_stays pl hs p1 p' h2 ?_
    rcases register_cases h1 with ⟨_, rfl⟩ | ⟨e, he, rfl⟩
    · exact hg
    · rw [put_dict]
      split
      · rw [Dict.get?_set]; split
        · rfl
        · exact hg
      · exact hg

theorem no_colon {n : Str} (h : NameWord n) {t u : Str} (he : n = t ++ ':' :: u) : False := by
  have := h.2 ':' (by rw [he]; simp)
  revert this; decide

theorem strip_slash {n : Str} (hn : NameWord n) : stripBackslash ('\\' :: n) = n := by
  have hb : ∀ c ∈ n, (c == '\\') = false := by
    intro c hc
    cases hx : c == '\\'
    · rfl
    · simp only [beq_iff_eq] at hx; subst hx; exact absurd (hn.2 _ hc) (by decide)
  have h1 : ∀ (m : Str), (∀ c ∈ m, (c == '\\') = false) → m.dropWhile (· == '\\') = m := by
    intro m hm
    cases m with
    | nil => rfl
    | cons x m => simp [hm x (by simp)]
  unfold stripBackslash
  rw [List.dropWhile_cons, if_pos (by decide), h1 n hb, h1 n.reverse (fun c hc => hb c (by simpa using hc)), List.reverse_reverse]

/-- What shares the place of a switch, counter or length is one of the same name. -/
theorem silent_place {d d' : Def} {w : Str} (hs : Silent d w) (hp : PlainDef d') (he : d'.place = d.place) : d' = d := by
  have two : ∀ {n a : Str}, n = a → 2 ≤ a.length → (∃ t u, a = t ++ ':' :: u) → (NameWord n ∨ ∃ c, n = [c]) → False := by
    rintro n a rfl h2 ⟨t, u, e⟩ (h | ⟨c, rfl⟩)
    · exact no_colon h e
    · simp at h2
  have isFalse : ∀ {k l : Str}, (⟨false, k⟩ : Place) = ⟨false, l⟩ → k = l := by intro k l h; injection h
  have nc : ∀ {x y : Str}, "newcounter:".toList ++ x = "newif:".toList ++ y → False := by intro x y h; simp at h
  cases d with
  | newif n =>
    cases d' with
    | newif m => have := isFalse he; simp at this; rw [this]
    | newcommand m => exact (two (isFalse he) (by simp) ⟨"newif".toList, n, by simp⟩ hp).elim
    | alphabet c =>
      obtain ⟨m, hm, rfl⟩ := hp
      have := strip_slash hm
      have h2 := isFalse he
      rw [this] at h2
      exact (no_colon hm (t := "newif".toList) (u := n) (by rw [h2]; simp)).elim
    | futurelet m => exact (two (isFalse he) (by simp) ⟨"newif".toList, n, by simp⟩ (.inl hp)).elim
    | let_ m => cases he
    | def_ m => exact (two (isFalse he) (by simp) ⟨"newif".toList, n, by simp⟩ (.inl hp.1)).elim
    | paired m => exact (two (isFalse he) (by simp) ⟨"newif".toList, n, by simp⟩ (.inl hp)).elim
    | _ => have := isFalse he; simp at this
  | newcounter n =>
    cases d' with
    | newcounter m => have := isFalse he; simp at this; rw [this]
    | newcommand m => exact (two (isFalse he) (by simp) ⟨"newcounter".toList, n, by simp⟩ hp).elim
    | alphabet c =>
      obtain ⟨m, hm, rfl⟩ := hp
      have := strip_slash hm
      have h2 := isFalse he
      rw [this] at h2
      exact (no_colon hm (t := "newcounter".toList) (u := n) (by rw [h2]; simp)).elim
    | futurelet m => exact (two (isFalse he) (by simp) ⟨"newcounter".toList, n, by simp⟩ (.inl hp)).elim
    | let_ m => cases he
    | def_ m => exact (two (isFalse he) (by simp) ⟨"newcounter".toList, n, by simp⟩ (.inl hp.1)).elim
    | paired m => exact (two (isFalse he) (by simp) ⟨"newcounter".toList, n, by simp⟩ (.inl hp)).elim
    | _ => have := isFalse he; simp at this
  | newlength n =>
    cases d' with
    | newlength m => have := isFalse he; simp at this; rw [this]
    | newcommand m => exact (two (isFalse he) (by simp) ⟨"newlength".toList, n, by simp⟩ hp).elim
    | alphabet c =>
      obtain ⟨m, hm, rfl⟩ := hp
      have := strip_slash hm
      have h2 := isFalse he
      rw [this] at h2
      exact (no_colon hm (t := "newlength".toList) (u := n) (by rw [h2]; simp)).elim
    | futurelet m => exact (two (isFalse he) (by simp) ⟨"newlength".toList, n, by simp⟩ (.inl hp)).elim
    | let_ m => cases he
    | def_ m => exact (two (isFalse he) (by simp) ⟨"newlength".toList, n, by simp⟩ (.inl hp.1)).elim
    | paired m => exact (two (isFalse he) (by simp) ⟨"newlength".toList, n, by simp⟩ (.inl hp)).elim
    | _ => have := isFalse he; simp at this
  | newX n =>
    cases d' with
    | newX m => have := isFalse he; simp at this; rw [this]
    | newcommand m => exact (two (isFalse he) (by simp) ⟨"newX".toList, n, by simp⟩ hp).elim
    | alphabet c =>
      obtain ⟨m, hm, rfl⟩ := hp
      have := strip_slash hm
      have h2 := isFalse he
      rw [this] at h2
      exact (no_colon hm (t := "newX".toList) (u := n) (by rw [h2]; simp)).elim
    | futurelet m => exact (two (isFalse he) (by simp) ⟨"newX".toList, n, by simp⟩ (.inl hp)).elim
    | let_ m => cases he
    | def_ m => exact (two (isFalse he) (by simp) ⟨"newX".toList, n, by simp⟩ (.inl hp.1)).elim
    | paired m => exact (two (isFalse he) (by simp) ⟨"newX".toList, n, by simp⟩ (.inl hp)).elim
    | _ => have := isFalse he; simp at this
  | _ => exact hs.2.elim

theorem silent_let {d : Def} {w : Str} (hs : Silent d w) : d.place.isLet = false := by
  cases d <;> first | rfl | exact hs.2.elim

theorem idle_value {cfg : Cmds.Cfg} (hl : Letters cfg) {h : List (Def × Bool)} {p : Proc} (hreg : registerAll cfg Proc.empty h = some (.ok p)) (hpl : ∀ x ∈ h, PlainDef x.1)
    {w rest : Str} (hi : Idle h w) (he : Ends w rest) (hr : ∀ c ∈ rest.head?, isWord c = false) : p.handle cfg ('\\' :: (w ++ rest)) = ([], w.length + 1) := by
  obtain ⟨⟨x, hx, hxs⟩, hall⟩ := hi
  have hnd := registerAll_nodup _ _ p (fun b => by cases b <;> exact List.nodup_nil) hreg
  have hmem : ⟨x.1.usage cfg, .ignore, false⟩ ∈ p.entries := by
    obtain ⟨before, after, rfl⟩ := List.append_of_mem hx
    obtain ⟨p0, h0, h1⟩ := registerAll_append _ _ _ _ hreg
    obtain ⟨p1, h2, h3⟩ := registerAll_cons h1
    have hp1 : p1 = p0.put x.1.place ⟨x.1.usage cfg, .ignore, false⟩ := by
      rcases register_cases h2 with ⟨hh, _⟩ | ⟨e', hh, hp⟩
      · rw [silent_entry hxs (hpl _ hx)] at hh; injection hh with hh; injection hh with hh; cases hh
      · rw [silent_entry hxs (hpl _ hx)] at hh; injection hh with hh; injection hh with hh; injection hh with hh; subst hh; exact hp
    have hg := get_stays x.1.place after p1 p h3 (by rw [hp1, put_dict, if_pos rfl, Dict.get?_set, if_pos rfl]; rfl)
    rw [silent_let hxs] at hg
    have hg' : (Dict.get? p.commands x.1.place.key).isSome = true := hg
    obtain ⟨e, hg'⟩ := Option.isSome_iff_exists.1 hg'
    have heq : e = ⟨x.1.usage cfg, .ignore, false⟩ := by
      obtain ⟨y, hy, q, hyp, hye⟩ := origin hreg false (x.1.place.key, e) (mem_of_get _ _ _ hg')
      have : y.1 = x.1 := silent_place hxs (hpl y hy) (by rw [hyp, ← silent_let hxs])
      rw [this, silent_entry hxs (hpl _ hx)] at hye
      injection hye with hye; injection hye with hye; injection hye with hye; exact hye.symm
    have hno : Dict.get? p.lets x.1.place.key = none := by
      cases hgl : Dict.get? p.lets x.1.place.key with
      | none => rfl
      | some v =>
        exfalso
        obtain ⟨y, hy, q, hyp, hye⟩ := origin hreg true (x.1.place.key, v) (mem_of_get _ _ _ hgl)
        have hpy := hpl y hy
        revert hyp hpy
        cases y.1 with
        | let_ m c cs =>
          intro hyp hpy
          have hk : m = x.1.place.key := by injection hyp
          cases hd : x.1 with
          | newif n => rw [hd] at hk; exact no_colon hpy (t := "newif".toList) (u := n) (by rw [hk]; simp [Def.place])
          | newcounter n => rw [hd] at hk; exact no_colon hpy (t := "newcounter".toList) (u := n) (by rw [hk]; simp [Def.place])
          | newlength n => rw [hd] at hk; exact no_colon hpy (t := "newlength".toList) (u := n) (by rw [hk]; simp [Def.place])
          | newX n => rw [hd] at hk; exact no_colon hpy (t := "newX".toList) (u := n) (by rw [hk]; simp [Def.place])
          | _ => rw [hd] at hxs; exact hxs.2.elim
        | _ => intro hyp; cases hyp
    have hmg : Dict.get? (merge p.commands p.lets) x.1.place.key = some e := by
      rw [merge_get p.lets p.commands (hnd true), hno, hg']; rfl
    unfold Proc.entries
    rw [List.mem_filter]
    exact ⟨List.mem_map.2 ⟨(x.1.place.key, e), mem_of_get _ _ _ hmg, heq⟩, rfl⟩
  unfold Proc.handle
  cases hf : firstMatch ('\\' :: (w ++ rest)) p.entries with
  | none =>
    exfalso
    have : ∀ es : List Entry, ⟨x.1.usage cfg, .ignore, false⟩ ∈ es → firstMatch ('\\' :: (w ++ rest)) es ≠ none := by
      intro es
      induction es with
      | nil => intro h; cases h
      | cons a es ih =>
        intro h hn
        unfold firstMatch at hn
        cases ha : a.pattern.matchAt [] ('\\' :: (w ++ rest)) with
        | some m => rw [ha] at hn; cases hn
        | none =>
          rw [ha] at hn
          rcases List.mem_cons.1 h with h | h
          · rw [← h, silent_match hxs (hpl _ hx) hr] at ha; cases ha
          · exact ih h hn
    exact this _ hmem hf
  | some em =>
    obtain ⟨e, m⟩ := em
    obtain ⟨h1, h2⟩ := firstMatch_some hf
    obtain ⟨⟨key, hk⟩, _⟩ := entries_mem h1
    obtain ⟨b, hb⟩ := mem_dict hk
    obtain ⟨y, hy, q, hyp, hye⟩ := origin hreg b (key, e) hb
    have hs := hall y hy (usage_meant hl (hpl y hy) he ((entryOf_pattern hye).2.2 _ (matchAt_ne (by rw [h2]; simp))))
    rw [silent_entry hs (hpl y hy)] at hye
    injection hye with hye; injection hye with hye; injection hye with hye; subst hye
    rw [silent_match hs (hpl y hy) hr] at h2
    injection h2 with h2; subst h2
    simp only [Handler.run, Match.stop, List.length_nil, Nat.zero_add]
    split <;> rfl

/-- Switches, counters and lengths have no text. -/
theorem Runs.idle {V} {cfg : Cfg V} (ho : SomeOrder cfg.order) (hl : Letters cfg.cmds) {h} {st st' : St V} (k : Known cfg h st) {w rest out : Str} (hw : Unmeant [] w rest)
    (hi : Idle h w) (hre : ∀ c ∈ rest.head?, isWord c = false) (hr : Runs cfg st rest st' out) : Runs cfg st ('\\' :: (w ++ rest)) st' out := by
  refine Runs.act (o := []) (ends_hit hw.name hw.plain) ⟨0, fun m _ => ?_⟩ hr
  have he : Without effectWords ('\\' :: (w ++ rest)) := Without.sub hw.builtin fun w hw => by simp [hw]
  rw [act_none ho he hw.formula, quotes_none (by simp), actDefine_none he (Without.sub hw.builtin fun w hw => by simp [hw]), actFormat_none (noLayout_word cfg hw.name hw.layout),
    actCommand_some he (idle_value hl k.reg k.plain hi hw.name hre) (by omega)]
  rw [show ('\\' :: (w ++ rest)).drop (w.length + 1) = rest by simp]
  rfl

/-- The last definition of `\n` makes it a pair of delimiters. -/
def _root_.L2J.Spec.Pairs (h : List (Def × Bool)) (n l r : Str) : Prop :=
  ∃ before after, h = before ++ (.paired n l r, false) :: after ∧ (∀ x ∈ before, Meant x.1 n → x.1.place = ⟨false, n⟩) ∧ ∀ x ∈ after, ¬ Meant x.1 n

theorem pair_value {cfg : Cmds.Cfg} (hl : Letters cfg) {h : List (Def × Bool)} {p : Proc} (hreg : registerAll cfg Proc.empty h = some (.ok p)) (hpl : ∀ x ∈ h, PlainDef x.1)
    {n l r : Str} (hs : Pairs h n l r) (hw : n ∉ whitelisted) (hn : n ≠ [] ∧ ∀ c ∈ n, isLetter c = true) {st ws x : Str} (hst : st = [] ∨ st = ['*']) (hws : Blank ws)
    (hx : Wrappable '{' '}' x) (hne : ¬ '\\' :: n <+: l ++ (x ++ r)) (rest : Str) :
    p.handle cfg ('\\' :: (n ++ (st ++ (ws ++ '{' :: (x ++ '}' :: rest))))) = (l ++ x ++ r, (n ++ (st ++ (ws ++ '{' :: (x ++ ['}'])))).length + 1) := by
  obtain ⟨before, after, rfl, hsame, hafter⟩ := hs
  obtain ⟨p0, h0, _⟩ := registerAll_append _ _ _ _ hreg
  have hwl : (n.isEmpty || whitelisted.contains n) = false := by
    rw [Bool.or_eq_false_iff]; exact ⟨by simpa using hn.1, by simpa using hw⟩
  have hent : entryOf cfg p0 (.paired n l r) false = some (.ok (some ⟨(Def.paired n l r).usage cfg, .paired l r, false⟩)) := by
    unfold entryOf
    have : (Def.paired n l r).name = n := rfl
    simp only [this, hwl, Bool.false_eq_true, if_false]
  have hend : ∀ c, (st ++ (ws ++ '{' :: (x ++ '}' :: rest))).head? = some c → isNameChar c = false := by
    intro c hc
    rcases hst with rfl | rfl
    · cases ws with
      | nil => simp at hc; subst hc; decide
      | cons a ws =>
        simp at hc; subst hc
        exact space_name a (hws a (by simp))
    · simp at hc; subst hc; decide
  obtain ⟨_, hh⟩ := C34_latest_partial cfg hl before after _ false n hpl p0 p _ h0 hent hreg rfl hsame hafter (st ++ (ws ++ '{' :: (x ++ '}' :: rest))) (.inl ⟨hn.1, hn.2, hend⟩)
  have hm : ((Def.paired n l r).usage cfg).matchAt [] ('\\' :: (n ++ (st ++ (ws ++ '{' :: (x ++ '}' :: rest))))) =
      some ⟨[], '\\' :: (n ++ (st ++ (ws ++ '{' :: (x ++ '}' :: rest)))), (n ++ (st ++ ws)).length + 2, []⟩ := by
    have e1 : Eats (.opt (.lit ['*'])) st (ws ++ '{' :: (x ++ '}' :: rest)) [] [] := by
      rcases hst with rfl | rfl
      · refine Eats.optNone (Dead.char ?_)
        cases ws with
        | nil => simp
        | cons a ws => simp; rintro rfl; have := hws '*' (by simp); revert this; decide
      · exact Eats.optSome (Eats.lit _ _ _)
    have e2 : Eats (.seq (.star reSpace) (.lit ['{'])) (ws ++ ['{']) (x ++ '}' :: rest) [] [] :=
      Eats.seq (g1 := []) (Eats.spaces hws (by simp; decide)) (Eats.lit _ _ _)
    have : Eats ((Def.paired n l r).usage cfg) (['\\'] ++ (n ++ (st ++ (ws ++ ['{'])))) (x ++ '}' :: rest) [] [] := by
      show Eats (.seq (.lit ['\\']) (.seq (rawRe n) (.seq (.opt (.lit ['*'])) (.seq (.star reSpace) (.lit ['{']))))) _ _ _ _
      rw [rawRe_word (fun c hc => letter_name c (hn.2 c hc))]
      refine Eats.seq (g1 := []) (Eats.lit _ _ _) (Eats.seq (g1 := []) (Eats.lit _ _ _) (Eats.seq (g1 := []) ?_ e2))
      simpa using e1
    have := this.matchAt []
    simp only [List.append_assoc, List.cons_append, List.nil_append] at this
    rw [this]
    simp; omega
  rw [hh _ hm rfl]
  have hdrop : ('\\' :: (n ++ (st ++ (ws ++ '{' :: (x ++ '}' :: rest))))).drop ((n ++ (st ++ ws)).length + 2 - 1) = '{' :: (x ++ '}' :: rest) := by
    rw [show (n ++ (st ++ ws)).length + 2 - 1 = (n ++ (st ++ ws)).length + 1 by omega, List.drop_succ_cons,
      show n ++ (st ++ (ws ++ '{' :: (x ++ '}' :: rest))) = (n ++ (st ++ ws)) ++ '{' :: (x ++ '}' :: rest) by simp only [List.append_assoc], List.drop_left]
  have hex : extractNestedContent ('{' :: (x ++ '}' :: rest)) '{' '}' = some (x, x.length + 2) := by
    have := C01_round_trip [] x rest '{' '}' (by simp) (by decide) (by decide) (by decide) hx.1 hx.2
    simpa using this
  have hrun : (Handler.paired l r).run cfg ⟨[], '\\' :: (n ++ (st ++ (ws ++ '{' :: (x ++ '}' :: rest)))), (n ++ (st ++ ws)).length + 2, []⟩ ('\\' :: (n ++ (st ++ (ws ++ '{' :: (x ++ '}' :: rest))))) false
      = (l ++ x ++ r, (n ++ (st ++ (ws ++ '{' :: (x ++ ['}'])))).length + 1) := by
    simp only [Handler.run, Match.stop, List.length_nil, Nat.zero_add, hdrop, hex, Bool.false_and, Bool.false_eq_true, if_false]
    congr 1
    simp; omega
  simp only [hrun]
  rw [if_neg]
  intro ht
  apply hne
  rw [← List.append_assoc, ← ht]
  have : (⟨[], '\\' :: (n ++ (st ++ (ws ++ '{' :: (x ++ '}' :: rest)))), (n ++ (st ++ ws)).length + 2, []⟩ : Match).text = '\\' :: (n ++ (st ++ (ws ++ ['{']))) := by
    show ('\\' :: (n ++ (st ++ (ws ++ '{' :: (x ++ '}' :: rest))))).take _ = _
    rw [show '\\' :: (n ++ (st ++ (ws ++ '{' :: (x ++ '}' :: rest)))) = ('\\' :: (n ++ (st ++ (ws ++ ['{'])))) ++ (x ++ '}' :: rest) by simp only [List.cons_append, List.append_assoc, List.nil_append]]
    rw [show (n ++ (st ++ ws)).length + 2 = ('\\' :: (n ++ (st ++ (ws ++ ['{'])))).length by simp; omega, List.take_left]
  rw [this]
  exact ⟨st ++ (ws ++ ['{']), rfl⟩

/-- Paired delimiters are written out. -/
theorem Runs.pair {V} {cfg : Cfg V} (ho : SomeOrder cfg.order) (hl : Letters cfg.cmds) {h} {st st' : St V} (k : Known cfg h st) {n l r star ws x rest out : Str}
    (hw : Unmeant [] n (star ++ (ws ++ '{' :: (x ++ '}' :: rest)))) (hwl : n ∉ whitelisted) (hn : n ≠ [] ∧ ∀ c ∈ n, isLetter c = true) (hs : Pairs h n l r) (hst : star = [] ∨ star = ['*'])
    (hws : Blank ws) (hx : Wrappable '{' '}' x) (hne : ¬ '\\' :: n <+: l ++ (x ++ r)) (hr : Runs cfg st (l ++ x ++ r ++ rest) st' out) :
    Runs cfg st ('\\' :: (n ++ (star ++ (ws ++ '{' :: (x ++ '}' :: rest))))) st' out := by
  refine Runs.act (o := []) (ends_hit hw.name hw.plain) ⟨0, fun m _ => ?_⟩ hr
  have he : Without effectWords ('\\' :: (n ++ (star ++ (ws ++ '{' :: (x ++ '}' :: rest))))) := Without.sub hw.builtin fun w hw => by simp [hw]
  rw [act_none ho he hw.formula, quotes_none (by simp), actDefine_none he (Without.sub hw.builtin fun w hw => by simp [hw]), actFormat_none (noLayout_word cfg hw.name hw.layout),
    actCommand_some he (pair_value hl k.reg k.plain hs hwl hn hst hws hx hne rest) (by omega)]
  congr 2
  rw [List.drop_succ_cons, show n ++ (star ++ (ws ++ '{' :: (x ++ '}' :: rest))) = (n ++ (star ++ (ws ++ '{' :: (x ++ ['}'])))) ++ rest by simp only [List.append_assoc, List.cons_append, List.nil_append],
    List.drop_left]

/-! `\addto`. -/

theorem addto_eats (b : Bool) {ws n ws2 : Str} (hws : Blank ws) (hn : NameWord n) (hws2 : Blank ws2) (hb : b = false → ws2 ≠ []) (rest : Str) :
    Eats addtoRe ("\\addto".toList ++ (ws ++ (asArg b n ++ (ws2 ++ ['{'])))) rest [] [] := by
  obtain ⟨hn0, hn1⟩ := hn
  have hname : ∀ c ∈ n, (c != '}' && !isSpace c) = true := by
    intro c hc
    have h := hn1 c hc
    have h1 : isSpace c = false := by
      cases hs : isSpace c with
      | false => rfl
      | true => have := space_name c hs; rw [h] at this; cases this
    have h2 : c ≠ '}' := by rintro rfl; revert h; decide
    simp [h1, h2]
  have htail : Eats (.seq spaces (.lit ['{'])) (ws2 ++ ['{']) rest [] [] :=
    Eats.seq (g1 := []) (Eats.spaces hws2 (by simp; decide)) (Eats.lit _ _ _)
  have hmid : Eats (.seq (.opt (.lit ['{'])) (.seq (.lit ['\\']) (.seq (.plus (.chr fun c => c != '}' && !isSpace c)) (.opt (.lit ['}']))))) (asArg b n) ((ws2 ++ ['{']) ++ rest) [] [] := by
    cases b with
    | true =>
      have h3 : Eats (.seq (.plus (.chr fun c => c != '}' && !isSpace c)) (.opt (.lit ['}']))) (n ++ ['}']) ((ws2 ++ ['{']) ++ rest) [] [] :=
        Eats.seq (g1 := []) (Eats.plus_chr _ hn0 hname (by simp)) (Eats.optSome (Eats.lit _ _ _))
      have h2 := Eats.seq (x := ['\\']) (g1 := []) (Eats.lit _ _ _) h3
      exact Eats.seq (x := ['{']) (g1 := []) (Eats.optSome (Eats.lit _ _ _)) h2
    | false =>
      have hw : ws2 ≠ [] := hb rfl
      have hsp : ∀ c ∈ (ws2 ++ ['{'] ++ rest).head?, isSpace c = true := by
        cases ws2 with
        | nil => exact absurd rfl hw
        | cons c w => intro d hd; simp at hd; subst hd; exact hws2 _ (by simp)
      have hd : Dead (.lit ['}']) (ws2 ++ ['{'] ++ rest) := by
        refine Dead.lit ?_
        rintro ⟨t, ht⟩
        have := hsp '}' (by rw [← ht]; simp)
        revert this; decide
      have h3 : Eats (.seq (.plus (.chr fun c => c != '}' && !isSpace c)) (.opt (.lit ['}']))) (n ++ []) (ws2 ++ ['{'] ++ rest) [] [] :=
        Eats.seq (g1 := []) (Eats.plus_chr _ hn0 hname (fun c hc => by simp [hsp c (by simpa using hc)])) (Eats.optNone hd)
      have h2 := Eats.seq (x := ['\\']) (g1 := []) (Eats.lit _ _ _) h3
      have h1 := Eats.seq (x := []) (g1 := []) (Eats.optNone (a := .lit ['{']) (Dead.lit (by rintro ⟨t, ht⟩; simp at ht))) h2
      simpa [asArg] using h1
  refine Eats.seq (g1 := []) (Eats.lit _ _ _) (Eats.seq (g1 := []) (Eats.spaces hws ?_) (Eats.seq (g1 := []) hmid htail))
  cases b <;> (simp [asArg]; try decide)

/-- `\addto\name{…}` leaves the group. -/
theorem Runs.addto {V} {cfg : Cfg V} {st st' : St V} (b : Bool) {ws n ws2 rest out : Str} (hws : Blank ws) (hn : NameWord n) (hws2 : Blank ws2) (hb : b = false → ws2 ≠ [])
    (hr : Runs cfg st ('{' :: rest) st' out) : Runs cfg st ("\\addto".toList ++ (ws ++ (asArg b n ++ (ws2 ++ '{' :: rest)))) st' out := by
  have he := (addto_eats b hws hn hws2 hb rest).matchAt []
  have e : "\\addto".toList ++ (ws ++ (asArg b n ++ (ws2 ++ ['{']))) ++ rest = "\\addto".toList ++ (ws ++ (asArg b n ++ (ws2 ++ '{' :: rest))) := by simp
  rw [e] at he
  refine Runs.act (o := []) ?_ ⟨0, fun m _ => ?_⟩ hr
  · exact hit_slash (s := "addto".toList ++ (ws ++ (asArg b n ++ (ws2 ++ '{' :: rest)))) (fun c hc => by simp at hc; subst hc; decide)
  · unfold Pre.act
    rw [he]
    simp only [Match.stop]
    have : ("\\addto".toList ++ (ws ++ (asArg b n ++ (ws2 ++ '{' :: rest)))).drop (([] : Str).length + ("\\addto".toList ++ (ws ++ (asArg b n ++ (ws2 ++ ['{'])))).length - 1) = '{' :: rest := by
      have h : ("\\addto".toList ++ (ws ++ (asArg b n ++ (ws2 ++ ['{'])))).length = ("\\addto".toList ++ (ws ++ (asArg b n ++ ws2))).length + 1 := by simp; omega
      rw [h]
      have h2 : "\\addto".toList ++ (ws ++ (asArg b n ++ (ws2 ++ '{' :: rest))) = ("\\addto".toList ++ (ws ++ (asArg b n ++ ws2))) ++ '{' :: rest := by simp
      rw [h2, List.length_nil, Nat.zero_add, Nat.add_sub_cancel, List.drop_left]
    rw [this]

end L2J.Pre
