import Verif.Props.C65o
/-! C65: the parser as a whole; formulas. -/
namespace L2J.Psr
open Cmds Defn L2J.Spec
open Pre (not_word Without.sub)

/-! ## How a formula reaches its handler -/

theorem without_other {ws : List String} {s : Str} (hs : s.head? ≠ some '\\') (hw : ∀ v ∈ ws, v.toList.head? = some '\\') : Without ws s := by
  rintro v hv ⟨t, rfl⟩
  have := hw v hv
  cases hh : v.toList with
  | nil => rw [hh] at this; cases this
  | cons a b => rw [hh] at this hs; simp at this hs; exact hs this

/-- The second character of each word is not this one. -/
def secondNot (c : Char) (ws : List String) : Bool := ws.all fun v => 2 ≤ v.toList.length && v.toList[1]? != some c

theorem without_second {ws : List String} {c : Char} {r : Str} (h : secondNot c ws = true) : Without ws ('\\' :: c :: r) := by
  rintro v hv ⟨t, ht⟩
  have := List.all_eq_true.1 h v hv
  simp only [Bool.and_eq_true, decide_eq_true_eq, bne_iff_ne, ne_eq] at this
  obtain ⟨h1, h2⟩ := this
  match hv : v.toList, h1 with
  | a :: b :: l, _ =>
    rw [hv] at ht h2
    simp at ht h2
    exact h2 ht.2.1

theorem slash_heads : (defineWords ++ effectWords ++ condWords ++ packageHeads ++ authorHeads).all (fun v => v.toList.head? == some '\\') = true := by decide +kernel

theorem second_words : secondNot '[' (defineWords ++ effectWords ++ condWords ++ packageHeads ++ authorHeads) = true ∧ secondNot '(' (defineWords ++ effectWords ++ condWords ++ packageHeads ++ authorHeads) = true := by
  constructor <;> decide +kernel

theorem switch_slash {k : Legacy.Kind} {s : Str} (h : SwitchAt k s) : ∃ c t, s = '\\' :: c :: t ∧ isLetter c = true := by
  cases h with
  | @name _ n st r hn _ =>
    have key : ∀ e ∈ fontSwitches ++ sizeSwitches, ∃ c t, e.1.toList = c :: t ∧ isLetter c = true := by
      intro e he
      have := (show (fontSwitches ++ sizeSwitches).all (fun e => match e.1.toList with | [] => false | c :: _ => isLetter c) = true by decide +kernel)
      have := List.all_eq_true.1 this e he
      cases hh : e.1.toList with
      | nil => rw [hh] at this; cases this
      | cons c t => rw [hh] at this; exact ⟨c, t, rfl, this⟩
    have hm : (n, st) ∈ fontSwitches ++ sizeSwitches := by
      cases k with
      | font => exact List.mem_append_left _ hn
      | size => exact List.mem_append_right _ hn
      | color => cases hn
    obtain ⟨c, t, h1, h2⟩ := key _ hm
    exact ⟨c, t ++ r, by rw [show n.toList = c :: t from h1]; rfl, h2⟩
  | color hc =>
    cases hc with
    | plain ws r _ => exact ⟨'c', _, rfl, by decide⟩
    | model ws m ws' r _ _ _ _ => exact ⟨'c', _, rfl, by decide⟩
    | normal r _ => exact ⟨'n', _, rfl, by decide⟩

/-- The names that open formulas: `[`, `(` and `begin`. -/
def _root_.L2J.Spec.formulaNames : List Str := ["[", "(", "begin"].map String.toList

theorem reach_formula {V X} {cfg : Cfg V X} (hl : Letters cfg.cmds) (p : Parse V X) (n : Nat) {h} {st : St V X} (k : Known cfg h st) (toks : List Tok) (space : Bool) (w : Formula) (hw : w.Ok) (rest : Str)
    (hu : ∀ m ∈ formulaNames, ∀ x ∈ h, ¬ Meant x.1 m) :
    actAt cfg p n .default st toks space (w.render ++ rest) = actHandlers cfg p n .default st toks space (w.render ++ rest) ∧
      ∃ f, handlers cfg p n st toks (w.render ++ rest) = orElse (equation cfg p n st toks (w.render ++ rest)) f := by
  have fin : ∀ {s : Str}, Without packageHeads s → NoPicture s → NoAuthor s → ∃ f, handlers cfg p n st toks s = orElse (equation cfg p n st toks s) f := by
    intro s h1 h2 h3
    refine ⟨?_, ?_⟩
    rotate_left
    · unfold handlers
      rw [package_none h1 h2, author_none cfg p st toks h3]
      rfl
  have dollar : ∀ t : Str, actAt cfg p n .default st toks space ('$' :: t) = actHandlers cfg p n .default st toks space ('$' :: t) ∧
      ∃ f, handlers cfg p n st toks ('$' :: t) = orElse (equation cfg p n st toks ('$' :: t)) f := by
    intro t
    have hsl : ∀ {ws : List String}, (∀ v ∈ ws, v ∈ defineWords ++ effectWords ++ condWords ++ packageHeads ++ authorHeads) → ∀ {s : Str}, s.head? ≠ some '\\' → Without ws s := by
      intro ws hws s hs
      exact without_other hs fun v hv => by have := List.all_eq_true.1 slash_heads v (hws v hv); simpa using this
    have h0 : ('$' :: t).head? ≠ some '\\' := by simp
    refine ⟨?_, fin (hsl (fun v hv => by simp [hv]) h0) (noPicture_word (by rintro ⟨u, hu⟩; simp at hu)) ?_⟩
    · have hstop : ∃ m, Loop.delimPat.search ('$' :: t) = some m ∧ m.start = 0 := by
        have := search_firstStop ('$' :: t)
        rw [show firstStop none ('$' :: t) = some 0 by unfold firstStop; rw [if_pos (by simp [stopAt, Pre.hitAt])]] at this
        cases hm : Loop.delimPat.search ('$' :: t) with
        | none => rw [hm] at this; cases this
        | some m => rw [hm] at this; exact ⟨m, rfl, by simpa using this⟩
      obtain ⟨m, hm, hm0⟩ := hstop
      have he : Without effectWords ('$' :: t) := hsl (fun v hv => by simp [hv]) h0
      have : actAt cfg p n .default st toks space ('$' :: t) = act cfg p n .default st toks space ('$' :: t) := by
        unfold actAt
        rw [if_neg (by simp)]
        unfold actText
        rw [hm]
        simp [hm0]
      rw [this, act_early cfg p n _ st toks space he, show st.proc.handle cfg.cmds ('$' :: t) = ('$' :: t, 0) from Pre.user_text (cfg := preCfg cfg) k.pre h0, if_neg (by simp),
        actDefine_none cfg p n _ st toks space he (hsl (fun v hv => by simp [hv]) h0), actIf_none cfg p n _ st toks space (hsl (fun v hv => by simp [hv]) h0)]
      intro k hk
      obtain ⟨c, u, e, _⟩ := switch_slash hk
      simp at e
    · unfold NoAuthor
      refine hsl (fun v hv => by simp [hv]) (by rw [List.map_cons]; show some (lowerChar '$') ≠ _; decide)
  have bracket : ∀ (c : Char) (t : Str), (c = '[' ∨ c = '(') → actAt cfg p n .default st toks space ('\\' :: c :: t) = actHandlers cfg p n .default st toks space ('\\' :: c :: t) ∧
      ∃ f, handlers cfg p n st toks ('\\' :: c :: t) = orElse (equation cfg p n st toks ('\\' :: c :: t)) f := by
    intro c t hc
    have hsec : secondNot c (defineWords ++ effectWords ++ condWords ++ packageHeads ++ authorHeads) = true := by
      rcases hc with rfl | rfl
      · exact second_words.1
      · exact second_words.2
    have hwo : ∀ {s : Str}, Without (defineWords ++ effectWords ++ condWords ++ packageHeads ++ authorHeads) ('\\' :: c :: s) := without_second hsec
    have hlow : lowerChar c = c ∧ isNameChar c = false ∧ c ∉ "$%&_#{}~".toList ∧ isLetter c = false := by rcases hc with rfl | rfl <;> decide
    refine ⟨?_, fin (Without.sub hwo fun v hv => by simp [hv]) (noPicture_word ?_) ?_⟩
    · have hp : Passed h [c] t := by
        refine ⟨.inr ⟨c, rfl, hlow.2.1⟩, ?_, Without.sub hwo fun v hv => by simp only [List.mem_append] at hv ⊢; exact .inl (.inl hv), ?_, hu [c] (by rcases hc with rfl | rfl <;> decide), ?_⟩
        · intro d hd; cases hd; exact hlow.2.2.1
        · rintro ⟨u, hu⟩
          simp at hu
          rcases hc with rfl | rfl <;> simp at hu
        · intro k hk
          obtain ⟨d, u, e, hd⟩ := switch_slash hk
          simp at e
          rw [← e.1, hlow.2.2.2] at hd; cases hd
      exact actAt_passed hl p n .default k toks space hp
    · rintro ⟨u, hu⟩
      simp at hu
      rcases hc with rfl | rfl <;> simp at hu
    · unfold NoAuthor
      rw [List.map_cons, List.map_cons, hlow.1, show lowerChar '\\' = '\\' by decide]
      exact Without.sub hwo fun v hv => by simp [hv]
  cases w with
  | inline b => exact dollar (b ++ ("$".toList ++ rest)) |> (by simpa [Formula.render] using ·)
  | display b => exact dollar ('$' :: (b ++ ("$$".toList ++ rest))) |> (by simpa [Formula.render] using ·)
  | brackets b => exact bracket '[' (b ++ ("\\]".toList ++ rest)) (.inl rfl) |> (by simpa [Formula.render] using ·)
  | parens b => exact bracket '(' (b ++ ("\\)".toList ++ rest)) (.inr rfl) |> (by simpa [Formula.render] using ·)
  | env nm w1 s1 b w2 s2 =>
    obtain ⟨⟨x, hx, rfl⟩, hw1, _, _⟩ := hw
    have hnm : '}' ∉ x.toList ++ (if s1 then ['*'] else []) := by
      have := special_close (List.mem_append_right _ hx)
      cases s1 <;> simp [this]
    obtain ⟨r, hr⟩ : ∃ r, (Formula.env x.toList w1 s1 b w2 s2).render ++ rest = beginText w1 (x.toList ++ (if s1 then ['*'] else [])) r :=
      ⟨b ++ (tag "\\end".toList w2 x.toList s2 ++ rest), by unfold beginText Formula.render tag; simp⟩
    rw [hr]
    obtain ⟨hne, hod⟩ := blank_head (s := (x.toList ++ (if s1 then ['*'] else [])) ++ '}' :: r) (c := '{') hw1 (by decide)
    have hc := clear_spec begin_words.2.2.2.1 hne
    rw [← begin_word] at hc
    refine ⟨?_, fin (Without.sub hc fun v hv => List.mem_append_left _ hv) (begin_picture' hw1 hnm ?_) ?_⟩
    · have hpass := actAt_passed hl p n .default k toks space (passes_spec begin_words.1 hne (hu _ (by decide)))
      rw [← begin_word] at hpass
      exact hpass
    · have key : ∀ v ∈ pictureEnvs, ∀ y ∈ formulaEnvs, ∀ s : Bool, y.toList ++ (if s then ['*'] else []) ≠ v.toList ∧ y.toList ++ (if s then ['*'] else []) ≠ v.toList ++ ['*'] := by decide +kernel
      exact fun v hv => key v hv x hx s1
    · unfold NoAuthor
      rw [begin_word, List.map_cons, List.map_append]
      exact clear_spec begin_words.2.2.2.2 (fun c hc => by
        rw [List.head?_map] at hc
        cases hh : (w1 ++ '{' :: ((x.toList ++ (if s1 then ['*'] else [])) ++ '}' :: r)).head? with
        | none => rw [hh] at hc; cases hc
        | some d =>
          rw [hh] at hc
          obtain rfl : lowerChar d = c := by simpa using hc
          rw [lower_name (hne d hh) (hod d hh)]; exact hne d hh)

/-! ## What a formula is read to -/

/-- A formula whose commands are symbols (or are read as they are), and the equation it is read to; `none` if there is nothing in it. -/
inductive _root_.L2J.Spec.FormulaReads (h : List (Def × Bool)) (w : Formula) : Option Eqn.Tok → Prop
  | empty : strip w.body = [] → w ≠ .inline [] → FormulaReads h w none
  | symbols (t : Str) (ls : List (Str × Str × Str)) (core : Str) : strip w.body ≠ [] → w.Text (withLabels t ls) → LabelsOk t ls → core = (if ls = [] then t else strip (withoutLabels t ls)) →
      NoPair core → Unmet h core → Symbols core → FormulaReads h w (some ⟨core, w.isDisplay, w.isAligned, w.isNumbered, ls.map (·.2.1), []⟩)

/-- What is assumed of the handlers the formulas are given to: layout commands are taken away, and boxes are only made for the commands for boxes. -/
structure MathReady {V X} (cfg : Cfg V X) : Prop where
  fmt : cfg.eqFmt = Fmt.mathFormatter cfg.fmt
  boxes : BoxesOnly cfg.boxes

theorem equation_none_of_empty {V X} {cfg : Cfg V X} (ho : SomeOrder cfg.order) (p : Parse V X) (n : Nat) (st : St V X) (toks : List Tok) (w : Formula) (hw : w.Ok) (rest : Str) (hb : strip w.body = [])
    (hne : w ≠ .inline []) : equation cfg p n st toks (w.render ++ rest) = some (.ok st (toks, (w.render.length : Nat))) := by
  unfold equation mathText
  rw [Eqn.first_formula cfg.order ho w hw hne rest]
  simp only [Option.isSome_some, if_true, hb, List.isEmpty_nil]
  unfold equationWith
  rw [Eqn.C52_empty cfg.order ho _ _ _ _ _ w hw hb hne rest]

theorem equation_symbols {V X} {cfg : Cfg V X} (ho : SomeOrder cfg.order) (hl : Letters cfg.cmds) (hm : MathReady cfg) {h} {st : St V X} (k : Known cfg h st) (toks : List Tok) (w : Formula) (hw : w.Ok) (rest : Str)
    {t : Str} {ls : List (Str × Str × Str)} {core : Str} (hb : strip w.body ≠ []) (ht : w.Text (withLabels t ls)) (hlab : LabelsOk t ls) (hcore : core = (if ls = [] then t else strip (withoutLabels t ls)))
    (hp : NoPair core) (hu : Unmet h core) (hs : Symbols core) :
    ∃ N, ∀ n, N ≤ n → ∀ p, equation cfg p n st toks (w.render ++ rest) =
      some (.ok st.fresh (toks ++ [.mk st.next "equation".toList (.eqn ⟨core, w.isDisplay, w.isAligned, w.isNumbered, ls.map (·.2.1), []⟩) [] none], (w.render.length : Nat))) := by
  have hst : strip core = core := by
    rw [hcore]
    split
    · rename_i hls; subst hls; exact Pre.text_strip ht
    · exact strip_strip _
  obtain ⟨N, hN⟩ := Eqn.C52_formula_partial cfg.order ho (fun _ => core) cfg.eqFmt cfg.boxes st.eqn w hw hb rest t ls ht hlab core hcore hp st.eqn.boxes core
    (by rw [hm.fmt]; exact Pre.Symbols.cleans hm.boxes st.eqn.boxes _ core (Nat.le_refl _) hs) core [] (by rw [hst]; rfl) (Pre.Symbols.contentless hs) (by simp)
  refine ⟨N + 1, fun n hn p => ?_⟩
  have hmt : mathText cfg.order n (w.render ++ rest) = some core := by
    obtain ⟨n, rfl⟩ : ∃ k, n = k + 1 := ⟨n - 1, by omega⟩
    unfold mathText
    rw [Eqn.first_formula cfg.order ho w hw (by rintro rfl; exact hb rfl) rest]
    simp only
    rw [if_neg (by simpa using hb), Eqn.body_text w _ _ _ ht]
    simp only
    rw [Eqn.C52_labels t ls hlab, ← hcore]
    simp only
    exact Eqn.convert_none hp n
  unfold equation
  rw [hmt]
  rw [show (Eqn.firstKind (w.render ++ rest) (Eqn.kinds cfg.order)).isSome = true by rw [Eqn.first_formula cfg.order ho w hw (by rintro rfl; exact hb rfl) rest]; rfl, if_pos rfl]
  simp only [expand_unmet hl k hu, if_true, Res.bind]
  unfold equationWith
  rw [hN n (by omega)]
  simp only
  unfold single
  have : processTok cfg p false (St.fresh { st with eqn := ⟨st.eqn.boxes, st.eqn.aliases⟩ }) (newTok { st with eqn := ⟨st.eqn.boxes, st.eqn.aliases⟩ } "equation".toList
      (.eqn ⟨withMarks 0 core [], w.isDisplay, w.isAligned, w.isNumbered, ls.map (·.2.1), marks 0 []⟩) []) toks =
      .ok st.fresh (toks ++ [.mk st.next "equation".toList (.eqn ⟨core, w.isDisplay, w.isAligned, w.isNumbered, ls.map (·.2.1), []⟩) [] none]) := by
    show processTok cfg p false _ (.mk st.next "equation".toList (.eqn ⟨core, w.isDisplay, w.isAligned, w.isNumbered, ls.map (·.2.1), []⟩) [] none) toks = _
    rw [process_plain cfg _ _ (.mk st.next "equation".toList (.eqn ⟨core, w.isDisplay, w.isAligned, w.isNumbered, ls.map (·.2.1), []⟩) [] none) toks (show "equation".toList ∉ ownTypes by decide)]
    unfold add
    rw [adds_spec (l' := toks ++ [newTok st "equation".toList (.eqn ⟨core, w.isDisplay, w.isAligned, w.isNumbered, ls.map (·.2.1), []⟩) []]) ?_]
    · rfl
    · exact .new _ (fun e => absurd e (by show ¬ ("equation".toList = _ ∨ "equation".toList = _ ∨ "equation".toList = _); decide))
        (fun e => absurd e.1 (by show ¬ ("equation".toList = _ ∨ "equation".toList = _ ∨ "equation".toList = _); decide)) (fun u _ _ ⟨b, hb, _⟩ => absurd hb (by show ¬ "equation".toList = _; decide))
  rw [this]
  rfl

theorem formula_last (w : Formula) : ∃ z, w.render.getLast? = some z ∧ isSpace z = false := by
  cases w with
  | inline b => exact ⟨'$', by rw [Formula.render, List.getLast?_append]; rfl, by decide⟩
  | display b => exact ⟨'$', by rw [Formula.render, List.getLast?_append]; rfl, by decide⟩
  | brackets b => exact ⟨']', by rw [Formula.render, List.getLast?_append]; rfl, by decide⟩
  | parens b => exact ⟨')', by rw [Formula.render, List.getLast?_append]; rfl, by decide⟩
  | env n w1 s1 b w2 s2 => exact ⟨'}', by simp [Formula.render, tag, List.getLast?_append, List.getLast?_cons], by decide⟩

theorem formula_first (w : Formula) : ∃ b r, w.render = b :: r ∧ isSpace b = false := by
  cases w with
  | inline b => exact ⟨'$', _, rfl, by decide⟩
  | display b => exact ⟨'$', _, rfl, by decide⟩
  | brackets b => exact ⟨'\\', _, rfl, by decide⟩
  | parens b => exact ⟨'\\', _, rfl, by decide⟩
  | env n w1 s1 b w2 s2 => exact ⟨'\\', _, rfl, by decide⟩

/-- What a formula gives. -/
def _root_.L2J.Spec.equations (id : Nat) : Option Eqn.Tok → List Tok
  | none => []
  | some q => [.mk id "equation".toList (.eqn q) [] none]

theorem Acts.formula {V X} {cfg : Cfg V X} (ho : SomeOrder cfg.order) (hl : Letters cfg.cmds) (hm : MathReady cfg) {h} {st : St V X} (k : Known cfg h st) (toks : List Tok) (space : Bool) {w : Formula} (hw : w.Ok) (rest : Str)
    {q : Option Eqn.Tok} (hq : FormulaReads h w q) (hu : ∀ m ∈ formulaNames, ∀ x ∈ h, ¬ Meant x.1 m) :
    Acts cfg st toks space (w.render ++ rest) { st with next := st.next + q.toList.length } ⟨toks ++ equations st.next q, false, rest⟩ := by
  obtain ⟨z, hz, hz0⟩ := formula_last w
  cases hq with
  | empty hb hne =>
    refine ⟨0, fun n _ => ?_⟩
    obtain ⟨h1, f, h2⟩ := reach_formula hl (parse cfg n) n k toks space w hw rest hu
    rw [h1]
    unfold actHandlers
    rw [h2, equation_none_of_empty ho _ n st toks w hw rest hb hne]
    simp only [orElse, Res.bind]
    rw [move_ok _ _ _ _ _ rfl, endsBlank_last' _ hz, hz0]
    simp [equations]
  | symbols t ls core hb ht hlab hcore hp hun hs =>
    obtain ⟨N, hN⟩ := equation_symbols ho hl hm k toks w hw rest hb ht hlab hcore hp hun hs
    refine ⟨N, fun n hn => ?_⟩
    obtain ⟨h1, f, h2⟩ := reach_formula hl (parse cfg n) n k toks space w hw rest hu
    rw [h1]
    unfold actHandlers
    rw [h2, hN n hn]
    simp only [orElse, Res.bind]
    rw [move_ok _ _ _ _ _ rfl, endsBlank_last' _ hz, hz0]
    rfl

end L2J.Psr
