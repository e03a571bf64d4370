import Verif.Props.C64j
/-! C64: formulas with commands in them. -/
namespace L2J.Spec
open Cmds

/-- The commands with content of their own that may be found in a formula. -/
def contentWords : List String :=
  ["abstract", "part", "chapter", "footnote", "caption", "subcaption", "captionof", "input", "include", "autoref", "eqref", "pageref", "ref", "cref", "hyperref",
   "href", "bookmark", "belowpdfbookmark", "currentpdfbookmark", "pdfbookmark", "footnotetext", "url", "path", "doi", "includegraphics", "includepdf", "graphicspath",
   "cite", "citep", "citet", "cites", "citealt", "citealp", "citeauthor", "citenum", "citeyear", "citeyearpar", "citefullauthor", "defcitealias", "citetalias",
   "citepalias", "title", "appendix", "appendices", "keywords", "bibliography", "addbibresource"]

/-- The boxes. -/
def boxWords : List String :=
  ["\\fbox", "\\hbox", "\\vbox", "\\parbox", "\\makebox", "\\framebox", "\\raisebox", "\\colorbox", "\\fcolorbox", "\\scalebox", "\\mbox", "\\pbox", "\\resizebox",
   "\\rotatebox", "\\adjustbox", "\\fancyhead", "\\rhead", "\\chead", "\\lhead", "\\usebox", "\\sbox", "\\savebox", "\\newsavebox", "\\newbox", "\\setbox"]

/-- One of the four letters outside ASCII that count as ASCII letters where upper and lower case are not distinguished. -/
def oddLetter (c : Char) : Bool := c.toNat == 0x130 || c.toNat == 0x131 || c.toNat == 0x17f || c.toNat == 0x212a

/-- A symbol `\w` of a formula: no layout command (horizontal space is allowed), no box, no command with content, in whatever case. -/
structure MathSymbol (w rest : Str) : Prop where
  name : Ends w rest
  layout : NotLayoutMath w rest
  box : Without boxWords ('\\' :: (w ++ rest))
  content : ∀ v ∈ contentWords, w.map lowerChar ≠ v.toList
  mark : ¬ "footnotemark".toList <+: w.map lowerChar
  heading : ¬ "section".toList <:+ w.map lowerChar ∧ ¬ "paragraph".toList <:+ w.map lowerChar
  odd : (∀ c ∈ w, oddLetter c = false) ∧ ∀ c ∈ rest.head?, oddLetter c = false

/-- Every command of the text is a symbol. -/
def Symbols (s : Str) : Prop := ∀ a b, s = a ++ '\\' :: b → ∃ w rest, b = w ++ rest ∧ MathSymbol w rest

/-- The handler of boxes does nothing where no box is written. -/
def BoxesOnly {V} (env : Boxes.Env V) : Prop := ∀ s, Without boxWords s → (env.other s).2 = 0

end L2J.Spec
namespace L2J.Pre
open Cmds Defn L2J.Spec

theorem spacing_only : ∀ e ∈ Fmt.entries, e.name ≠ "spacing" → e.act ≠ .spacing := by
  intro e he h ha
  have key : ∀ i ∈ List.range Fmt.entries.length, (Fmt.entries[i]?.all fun e => e.name == "spacing" || decide (e.act ≠ Fmt.Act.spacing)) = true := by decide +kernel
  obtain ⟨i, hi, hx⟩ := List.mem_iff_getElem.1 he
  have h1 : Fmt.entries[i]? = some e := by rw [List.getElem?_eq_getElem hi, hx]
  have := key i (by simp [hi])
  rw [h1] at this
  simp [h, ha] at this

/-- In a formula, a symbol is no layout command. -/
theorem math_symbol (fmt : Str → Option Str → Str) {w rest : Str} (he : Ends w rest) (hn : NotLayoutMath w rest) : (Fmt.mathFormatter fmt ('\\' :: (w ++ rest))).2 = 0 := by
  unfold Fmt.mathFormatter Fmt.handleMath
  rw [Fmt.handleWith_flat, Fmt.firstAlt_none]
  intro p hp
  unfold Fmt.flat at hp
  obtain ⟨e, he1, hp1⟩ := List.mem_flatMap.1 hp
  obtain ⟨a, ha, rfl⟩ := List.mem_map.1 hp1
  obtain ⟨he2, he3⟩ := List.mem_filter.1 he1
  have hsp := spacing_only e he2 (by simpa using he3)
  have hp2 : (e.act, a) ∈ Fmt.flat Fmt.entries := List.mem_flatMap.2 ⟨e, he2, hp1⟩
  rw [Fmt.table_split] at hp2
  by_cases hm : (e.act, a) = (Fmt.Act.drop, Fmt.makeAlt)
  · have : a = Fmt.makeAlt := congrArg (fun x => x.2) hm
    rw [this]; exact make_dead_word he hn.2.2.2.1
  · refine table_dead (p := (e.act, a)) he hn ?_ (fun h => absurd h hsp)
    unfold Fmt.table
    rcases List.mem_append.1 hp2 with h | h
    · exact List.mem_append_left _ h
    · rcases List.mem_cons.1 h with h | h
      · exact absurd h hm
      · exact List.mem_append_right _ h

theorem no_box {V} {env : Boxes.Env V} (hb : BoxesOnly env) {s : Str} (h : Without boxWords s) (st : Boxes.State V) : (Boxes.handle env st s).2.2 = 0 := by
  have h1 : Boxes.matchSet s = none := by
    unfold Boxes.matchSet
    rw [if_neg]
    unfold startsWith
    rw [List.isPrefixOf_iff_prefix]
    exact h "\\setbox" (by decide)
  have h2 : Boxes.matchSaved s = none := by
    unfold Boxes.matchSaved
    split
    · rename_i r
      have : Boxes.keywords.find? (fun k => startsWith r k) = none := by
        rw [List.find?_eq_none]
        intro k hk hs
        unfold startsWith at hs
        rw [List.isPrefixOf_iff_prefix] at hs
        have key : ∀ k ∈ Boxes.keywords, ∃ v ∈ boxWords, v.toList = '\\' :: k := by
          intro k hk
          simp only [Boxes.keywords, List.mem_cons, List.not_mem_nil, or_false] at hk
          rcases hk with rfl | rfl | rfl | rfl | rfl
          · exact ⟨"\\usebox", by decide, rfl⟩
          · exact ⟨"\\sbox", by decide, rfl⟩
          · exact ⟨"\\savebox", by decide, rfl⟩
          · exact ⟨"\\newsavebox", by decide, rfl⟩
          · exact ⟨"\\newbox", by decide, rfl⟩
        obtain ⟨v, hv, e⟩ := key k hk
        exact h v hv (by rw [e]; exact List.cons_prefix_cons.2 ⟨rfl, hs⟩)
      rw [this]
    · rfl
  unfold Boxes.handle
  rw [h1, h2]
  exact hb s h

theorem fold_cases {c : Char} (h1 : isLetter c = false) (h2 : oddLetter c = false) : Content.foldLetter c = false := by
  unfold Content.foldLetter
  unfold oddLetter at h2
  simp only [Bool.or_eq_false_iff] at h2 ⊢
  exact ⟨⟨⟨⟨h1, h2.1.1.1⟩, h2.1.1.2⟩, h2.1.2⟩, h2.2⟩

/-- A pattern has only words of the list `L` (or the headings, or `\footnotemark`). -/
def nameOk (L : List Str) (p : Content.Kind × Content.Names × Re) : Bool :=
  match p.2.1 with
  | .words l => if p.1 = .footnotemark then decide (l = ["footnotemark".toList]) else l.all fun w => L.contains w
  | .subs w => decide (w = "section".toList ∨ w = "paragraph".toList) && decide (p.1 ≠ .footnotemark)
  | .grouped _ l => decide (p.1 ≠ .footnotemark) && l.all fun w => L.contains w

theorem nameOk_spec {L : List Str} {p : Content.Kind × Content.Names × Re} (h : nameOk L p = true) : match p.2.1 with
    | .words l => if p.1 = .footnotemark then l = ["footnotemark".toList] else ∀ w ∈ l, w ∈ L
    | .subs w => (w = "section".toList ∨ w = "paragraph".toList) ∧ p.1 ≠ .footnotemark
    | .grouped _ l => p.1 ≠ .footnotemark ∧ ∀ w ∈ l, w ∈ L := by
  unfold nameOk at h
  cases hn : p.2.1 with
  | words l =>
    rw [hn] at h
    simp only at h ⊢
    split <;> rename_i hk
    · rw [if_pos hk] at h; exact of_decide_eq_true h
    · rw [if_neg hk] at h
      exact fun w hw => List.contains_iff_mem.1 (List.all_eq_true.1 h w hw)
  | subs w =>
    rw [hn] at h
    simp only [Bool.and_eq_true, decide_eq_true_eq] at h
    exact h
  | grouped n l =>
    rw [hn] at h
    simp only [Bool.and_eq_true, decide_eq_true_eq, List.all_eq_true] at h
    exact ⟨h.1, fun w hw => List.contains_iff_mem.1 (h.2 w hw)⟩

theorem content_ok : ∀ i ∈ List.range Content.patterns.length, (Content.patterns[i]?.all (nameOk (contentWords.map String.toList))) = true := by decide +kernel

/-- The words of the patterns for commands with content. -/
theorem content_names (p) (hp : p ∈ Content.patterns) : nameOk (contentWords.map String.toList) p = true := by
  obtain ⟨i, hi, hx⟩ := List.mem_iff_getElem.1 hp
  have h1 : Content.patterns[i]? = some p := by rw [List.getElem?_eq_getElem hi, hx]
  have := content_ok i (by simp [hi])
  rw [h1] at this
  exact this

theorem content_low : ∀ v ∈ contentWords.map String.toList, ∀ c ∈ v, 'a' ≤ c ∧ c ≤ 'z' := by decide +kernel

/-- What a symbol has in common with other commands that are no commands with content. -/
structure ContentFree (w rest : Str) : Prop where
  name : Ends w rest
  content : ∀ v ∈ contentWords, w.map lowerChar ≠ v.toList
  mark : ¬ "footnotemark".toList <+: w.map lowerChar
  heading : ¬ "section".toList <:+ w.map lowerChar ∧ ¬ "paragraph".toList <:+ w.map lowerChar
  odd : (∀ c ∈ w, oddLetter c = false) ∧ ∀ c ∈ rest.head?, oddLetter c = false

theorem content_free {w rest q : Str} (h : ContentFree w rest) (hq : q = [] ∨ q.head? = some '\\') : Content.canHandle ('\\' :: (w ++ rest ++ q)) = false := by
  have hrest : ∀ c, (rest ++ q).head? = some c → isNameChar c = false ∨ ∃ d, w = [d] ∧ isNameChar d = false := by
    intro c hc
    rcases h.name with ⟨_, _, hr⟩ | ⟨d, rfl, hd⟩
    · left
      cases rest with
      | nil =>
        rcases hq with rfl | hq
        · cases hc
        · rw [List.nil_append, hq] at hc; cases hc; decide
      | cons x rest => exact hr c (by simpa using hc)
    · exact .inr ⟨d, rfl, hd⟩
  have nolet : ∀ {c}, isNameChar c = false → isLetter c = false := by
    intro c hc
    cases hl : isLetter c with
    | false => rfl
    | true => rw [letter_name c hl] at hc; cases hc
  unfold Content.canHandle
  rw [List.append_assoc]
  rcases h.name with ⟨hw, hl, hr⟩ | ⟨d, rfl, hd⟩
  · have word : Content.Word w (rest ++ q) := by
      refine ⟨hl, fun c hc => ?_⟩
      cases rest with
      | nil =>
        rcases hq with rfl | hq
        · cases hc
        · rw [List.nil_append, hq] at hc; cases hc; decide
      | cons x rest =>
        have hx : x = c := by simpa using hc
        subst hx
        exact fold_cases (nolet (hr x rfl)) (h.odd.2 x rfl)
    rw [Content.firstPattern_none word]
    · rfl
    intro p hp
    have hn := nameOk_spec (content_names p hp)
    have hlow := Content.patterns_low p hp
    unfold Content.Refuses
    cases hpn : p.2.1 with
    | words l =>
      rw [hpn] at hn
      simp only at hn
      split <;> rename_i hk
      · rw [if_pos hk] at hn
        subst hn
        rintro u ⟨t, rfl⟩ ha
        simp only [Content.Names.Accepts, List.any_cons, List.any_nil, Bool.or_false] at ha
        have := lower_eq (by decide +kernel) ha
        exact h.mark ⟨t.map lowerChar, by rw [List.map_append, this]⟩
      · rw [if_neg hk] at hn
        intro ha
        simp only [Content.Names.Accepts, List.any_eq_true] at ha
        obtain ⟨v, hv, ha⟩ := ha
        obtain ⟨s, hs, e⟩ := List.mem_map.1 (hn v hv)
        exact h.content s hs (by rw [e]; exact lower_eq (content_low v (hn v hv)) ha)
    | subs v =>
      rw [hpn] at hn
      simp only at hn
      rw [if_neg hn.2]
      rintro ⟨a, b, rfl, _, hb⟩
      have hv : (∀ c ∈ v, 'a' ≤ c ∧ c ≤ 'z') := by
        rcases hn.1 with rfl | rfl <;> decide +kernel
      have := lower_eq hv hb
      rcases hn.1 with rfl | rfl
      · exact h.heading.1 ⟨a.map lowerChar, by rw [List.map_append, this]⟩
      · exact h.heading.2 ⟨a.map lowerChar, by rw [List.map_append, this]⟩
    | grouped n l =>
      rw [hpn] at hn
      simp only at hn
      rw [if_neg hn.1]
      intro ha
      simp only [Content.Names.Accepts, List.any_eq_true] at ha
      obtain ⟨v, hv, ha⟩ := ha
      obtain ⟨s, hs, e⟩ := List.mem_map.1 (hn.2 v hv)
      exact h.content s hs (by rw [e]; exact lower_eq (content_low v (hn.2 v hv)) ha)
  · have hd' : Content.foldLetter d = false := fold_cases (nolet hd) (h.odd.1 d (by simp))
    have word : Content.Word [] (d :: (rest ++ q)) := ⟨by simp, fun c hc => by
      have : d = c := by simpa using hc
      subst this; exact hd'⟩
    rw [show [d] ++ (rest ++ q) = [] ++ (d :: (rest ++ q)) from rfl, Content.firstPattern_none word]
    · rfl
    intro p hp
    have hn := nameOk_spec (content_names p hp)
    have hne : ∀ v ∈ contentWords.map String.toList, Content.ciEq v [] = false := by decide +kernel
    unfold Content.Refuses
    cases hpn : p.2.1 with
    | words l =>
      rw [hpn] at hn
      simp only at hn
      split <;> rename_i hk
      · rw [if_pos hk] at hn
        subst hn
        rintro u hu ha
        rw [List.prefix_nil] at hu
        subst hu
        cases ha
      · rw [if_neg hk] at hn
        intro ha
        simp only [Content.Names.Accepts, List.any_eq_true] at ha
        obtain ⟨v, hv, ha⟩ := ha
        rw [hne v (hn v hv)] at ha; cases ha
    | subs v =>
      rw [hpn] at hn
      simp only at hn
      rw [if_neg hn.2]
      rintro ⟨a, b, e, _, hb⟩
      have : a = [] ∧ b = [] := by simpa using e.symm
      rw [this.2] at hb
      rcases hn.1 with rfl | rfl <;> cases hb
    | grouped n l =>
      rw [hpn] at hn
      simp only at hn
      rw [if_neg hn.1]
      intro ha
      simp only [Content.Names.Accepts, List.any_eq_true] at ha
      obtain ⟨v, hv, ha⟩ := ha
      rw [hne v (hn.2 v hv)] at ha; cases ha

/-- A symbol is no command with content. -/
theorem no_content {w rest q : Str} (h : MathSymbol w rest) (hq : q = [] ∨ q.head? = some '\\') : Content.canHandle ('\\' :: (w ++ rest ++ q)) = false :=
  content_free ⟨h.name, h.content, h.mark, h.heading, h.odd⟩ hq

theorem Symbols.rest {a b : Str} (h : Symbols (a ++ b)) : Symbols b := fun x y e => h (a ++ x) y (by rw [e]; simp)

theorem Symbols.cleans {V} {fmt : Str → Option Str → Str} {env : Boxes.Env V} (hb : BoxesOnly env) (st : Boxes.State V) : ∀ (n : Nat) (s : Str), s.length ≤ n → Symbols s → Cleans (Fmt.mathFormatter fmt) env st s st s := by
  intro n
  induction n with
  | zero =>
    intro s hs _
    have : s = [] := List.length_eq_zero_iff.1 (by omega)
    subst this
    exact .done _ _ (by simp)
  | succ n ih =>
    intro s hs h
    by_cases hm : '\\' ∈ s
    · obtain ⟨a, b, rfl, ha⟩ := List.eq_append_cons_of_mem hm
      obtain ⟨w, rest, rfl, hw⟩ := h a b rfl
      refine .keep st a _ st _ ha ⟨math_symbol fmt hw.name hw.layout, no_box hb hw.box st⟩ (ih _ ?_ ?_)
      · simp only [List.length_append, List.length_cons] at hs ⊢; omega
      · exact Symbols.rest (a := ['\\']) (Symbols.rest h)
    · exact .done _ _ hm

theorem Symbols.contentless {s : Str} (h : Symbols s) : Contentless s := by
  intro k hk q hq
  rw [List.drop_append_of_le_length (by omega)]
  cases hd : s.drop k with
  | nil => have := congrArg List.length hd; rw [List.length_drop] at this; simp at this; omega
  | cons c d =>
    by_cases hc : c = '\\'
    · subst hc
      obtain ⟨w, rest, rfl, hw⟩ := h (s.take k) d (by rw [← hd, List.take_append_drop])
      exact no_content hw hq
    · have := Eqn.contentless_plain (t := [c]) (by simpa using fun e => hc e.symm) 0 (by simp)
      unfold Content.canHandle
      have : ∀ ps, Content.firstPattern (c :: (d ++ q)) ps = none := by
        intro ps
        induction ps with
        | nil => rfl
        | cons p ps ih =>
          unfold Content.firstPattern
          rw [(show Dead (Content.patternRe p) (c :: (d ++ q)) from Dead.seq (Dead.char (by simpa using fun e => hc e))).matchAt []]
          exact ih
      rw [List.cons_append, this]; rfl

theorem text_strip {w : Formula} {t : Str} (h : w.Text t) : strip t = t := by
  cases w with
  | env n w1 s1 b w2 s2 =>
    unfold Formula.Text at h
    simp only at h
    split at h
    · obtain ⟨a, u, _, _, rfl⟩ := h; exact strip_strip _
    · rw [h]; exact strip_strip _
  | _ => rw [h.1]; exact strip_strip _

/-- C64: formulas whose commands are all symbols, with labels, are readable. -/
theorem C64_formula_symbols {V} (cfg : Cfg V) (ho : SomeOrder cfg.order) (hf : cfg.eqFmt = Fmt.mathFormatter cfg.fmt) (hb : BoxesOnly cfg.env)
    (w : Formula) (hw : w.Ok) (hne : strip w.body ≠ []) (t : Str) (ls : List (Str × Str × Str)) (ht : w.Text (withLabels t ls)) (hl : LabelsOk t ls)
    (core : Str) (hcore : core = if ls = [] then t else strip (withoutLabels t ls)) (hp : NoPair core) (hs : Symbols core) : Accepts cfg w.render := by
  intro e rest
  have hst : strip core = core := by
    rw [hcore]
    split
    · rename_i hls; subst hls; exact text_strip ht
    · exact strip_strip _
  obtain ⟨N, hN⟩ := Eqn.C52_formula_partial cfg.order ho id cfg.eqFmt cfg.env e w hw hne rest t ls ht hl core hcore hp e.boxes core
    (by rw [hf]; exact Symbols.cleans hb e.boxes _ core (Nat.le_refl _) hs) core [] (by rw [hst]; rfl) (Symbols.contentless hs) (by simp)
  exact ⟨_, _, N, hN⟩

/-- C64: any formula that the equation handler can take in every state of the boxes is readable. -/
theorem C64_formula_general {V} (cfg : Cfg V) (ho : SomeOrder cfg.order) (w : Formula) (hw : w.Ok) (hne : strip w.body ≠ []) (t : Str) (ls : List (Str × Str × Str))
    (ht : w.Text (withLabels t ls)) (hl : LabelsOk t ls) (core : Str) (hcore : core = if ls = [] then t else strip (withoutLabels t ls)) (hp : NoPair core)
    (hcl : ∀ b : Boxes.State V, ∃ b' clean u cs, Cleans cfg.eqFmt cfg.env b core b' clean ∧ strip clean = withCommands u cs ∧ Contentless u ∧ ∀ e ∈ cs, Gives e.1 e.2.1 ∧ Contentless e.2.2) :
    Accepts cfg w.render := by
  intro e rest
  obtain ⟨b', clean, u, cs, h1, h2, h3, h4⟩ := hcl e.boxes
  obtain ⟨N, hN⟩ := Eqn.C52_formula_partial cfg.order ho id cfg.eqFmt cfg.env e w hw hne rest t ls ht hl core hcore hp b' clean h1 u cs h2 h3 h4
  exact ⟨_, _, N, hN⟩

/-- Where `\end` is followed by a brace there are no pairs of commands. -/
theorem noPair_end {t : Str} (h : ∀ a b, t = a ++ "\\end".toList ++ b → ∀ c ∈ b.head?, isWord c = false ∧ c ≠ '@') : NoPair t := by
  intro a n b c hn hc e
  cases n with
  | nil => exact hn rfl
  | cons x n =>
    have := h (a ++ '\\' :: (x :: n ++ b)) (x :: n ++ c) (by rw [e]; simp) x (by simp)
    rcases hc x (by simp) with h | h
    · rw [h] at this; cases this.1
    · exact this.2 h

end L2J.Pre
