import Verif.Props.C64f
import Verif.Props.C63e
import Verif.Props.C32
/-! C64: the use of what was defined, conditionals, packages. -/
namespace L2J.Pre
open Cmds Defn L2J.Spec

/-- The command `\w` is neither built in nor defined, and no formula begins with it; it may be a conditional. -/
structure _root_.L2J.Spec.Unmeant (h : List (Def × Bool)) (w rest : Str) : Prop where
  name : Ends w rest
  plain : ∀ c ∈ w.head?, c ∉ "$%&_#{}~".toList
  layout : NotLayout w rest
  builtin : Without (defineWords ++ effectWords) ('\\' :: (w ++ rest))
  csname : ¬ "csname".toList <+: w ++ rest
  formula : NoFormula ('\\' :: (w ++ rest))
  user : ∀ x ∈ h, ¬ Meant x.1 w

theorem act_unmeant {V} {cfg : Cfg V} (ho : SomeOrder cfg.order) (hl : Letters cfg.cmds) {h} {st : St V} (k : Known cfg h st) {w rest : Str} (hw : Unmeant h w rest) (n : Nat) :
    act cfg n st ('\\' :: (w ++ rest)) = actIf st ('\\' :: (w ++ rest)) := by
  have he : Without effectWords ('\\' :: (w ++ rest)) := Without.sub hw.builtin fun w hw => by simp [hw]
  rw [act_none ho he hw.formula, quotes_none (by simp), actDefine_none he (Without.sub hw.builtin fun w hw => by simp [hw]), actFormat_none (noLayout_word cfg hw.name hw.layout),
    actCommand_none he (user_word hl k hw.name hw.csname hw.user)]

/-! The use of a command without arguments. -/

/-- The definitions say that `\n` stands for `content`: the last definition of `\n` says so, it was not made while another kind of definition of `\n` stood,
and `content` does not use `\n`. -/
def _root_.L2J.Spec.StandsFor (h : List (Def × Bool)) (n content : Str) : Prop :=
  ∃ before after d, h = before ++ (d, false) :: after ∧
    (d = .newcommand n content 0 [] false ∨ d = .def_ n [] content false none ∨ (d = .let_ n content none ∧ OnlyBuiltin content)) ∧
    (∀ x ∈ before, Meant x.1 n → x.1.place = d.place) ∧ (∀ x ∈ after, ¬ Meant x.1 n) ∧
    ¬ Contains content ('\\' :: n) ∧ ¬ "\\@ifstar".toList <+: strip content

theorem search_contains {cfg : Cmds.Cfg} {n content : Str} (h : ¬ Contains content ('\\' :: n)) : (newcommandUsage cfg n).search content = none := by
  unfold Re.search
  rcases Re.searchFrom_spec (newcommandUsage cfg n) content [] with ⟨h1, _⟩ | ⟨k, m, hk, h1, h2, _⟩
  · exact h1
  · exfalso
    have hd : ¬ ('\\' :: n) <+: content.drop k := by
      rintro ⟨t, ht⟩
      refine h ⟨content.take k, t, ?_⟩
      rw [List.append_assoc, ht, List.take_append_drop]
    have := (show Dead (newcommandUsage cfg n) (content.drop k) from Dead.seq (Dead.lit hd)).matchAt ((content.take k).reverse ++ [])
    rw [this] at h2; cases h2

theorem suffix_run {n rest rev : Str} (hr : ∀ c, rest.head? = some c → isNameChar c = false) :
    (Re.seq (.lit ['\\']) (.seq (.lit n) suffixRe)).matchAt rev ('\\' :: (n ++ rest)) = some ⟨rev, '\\' :: (n ++ rest), n.length + 1, []⟩ := by
  have hs : Eats suffixRe [] rest [] [] := by
    intro rev
    show Hd suffixRe ⟨rev, rest, []⟩ ⟨rev, rest, []⟩
    unfold Hd
    cases rest with
    | nil => rfl
    | cons x r =>
      have := hr x rfl
      simp [suffixRe, Re.run, this]
  have := (Eats.seq (x := ['\\']) (g1 := []) (Eats.lit _ _ _) (Eats.seq (x := n) (y := []) (g1 := []) (Eats.lit _ _ _) hs)).matchAt rev
  simp only [List.append_nil, List.cons_append, List.nil_append, List.length_cons] at this
  exact this

theorem use_value {cfg : Cmds.Cfg} (hl : Letters cfg) {h : List (Def × Bool)} {p : Proc} (hreg : registerAll cfg Proc.empty h = some (.ok p)) (hpl : ∀ x ∈ h, PlainDef x.1)
    {n content rest : Str} (hs : StandsFor h n content) (hw : n ∉ whitelisted) (hn : n ≠ [] ∧ ∀ c ∈ n, isLetter c = true) (hr : ∀ c, rest.head? = some c → isNameChar c = false) :
    p.handle cfg ('\\' :: (n ++ rest)) = (content, n.length + 1) := by
  obtain ⟨before, after, d, rfl, hd, hsame, hafter, hself, hstar⟩ := hs
  obtain ⟨p0, h0, _⟩ := registerAll_append _ _ _ _ hreg
  have hstar' : startsWith (strip content) "\\@ifstar".toList = false := by
    unfold startsWith
    cases hh : "\\@ifstar".toList.isPrefixOf (strip content) with
    | false => rfl
    | true => exact absurd (List.isPrefixOf_iff_prefix.1 hh) hstar
  have hne : ('\\' :: n) ≠ content := by
    intro e; exact hself ⟨[], [], by rw [← e]; simp⟩
  have hwl : (n.isEmpty || whitelisted.contains n) = false := by
    rw [Bool.or_eq_false_iff]; exact ⟨by simpa using hn.1, by simpa using hw⟩
  have htext : (⟨[], '\\' :: (n ++ rest), n.length + 1, []⟩ : Match).text = '\\' :: n := by simp [Match.text]
  rcases hd with rfl | rfl | ⟨rfl, hb⟩
  · exact C34_newcommand_used_partial cfg hl before after n content hpl p0 p h0 hreg hw (search_contains hself) hstar' hsame hafter hn rest hr
  · have hnum : ∀ s : Str, (∀ c ∈ s, isLetter c = true) → cutParam s = none := by
      intro s hs
      cases hc : cutParam s with
      | none => rfl
      | some x =>
        obtain ⟨a, d, b, e, _⟩ := (cutParam_iff s).1 (by rw [hc]; rfl)
        have := hs '#' (by rw [e]; simp)
        cases this
    have hbody : defBody cfg 1 (n ++ []) = (.seq (.lit n) suffixRe, 0) := by
      unfold defBody
      cases n with
      | nil => exact absurd rfl hn.1
      | cons a n =>
        have : pieces (a :: n ++ []).length (a :: n ++ []) = [a :: n] := by
          simp only [List.append_nil, List.length_cons, pieces, hnum _ hn.2]
        rw [this]
    have hus : (Def.def_ n [] content false none).usage cfg = .seq (.lit ['\\']) (.seq (.lit n) suffixRe) := by
      show Re.seq (.lit ['\\']) (defBody cfg 1 (n ++ [])).1 = _
      rw [hbody]
    have hent : entryOf cfg p0 (.def_ n [] content false none) false = some (.ok (some ⟨.seq (.lit ['\\']) (.seq (.lit n) suffixRe), .groups 0 (.plain content), false⟩)) := by
      unfold entryOf
      have : (Def.def_ n [] content false none).name = n := rfl
      have hg : (Def.def_ n [] content false none).numGroups cfg = 0 := by
        show (defBody cfg 1 (n ++ [])).2 * _ = 0
        rw [hbody]; simp
      have hc : conditional cfg content (.seq (.lit ['\\']) (.seq (.lit n) suffixRe)) = (.plain content, .seq (.lit ['\\']) (.seq (.lit n) suffixRe)) := by
        unfold conditional; simp only [hstar']; rfl
      simp only [this, hwl, Bool.false_eq_true, if_false, hus, hbody, hg, hc, if_true]
    obtain ⟨_, hh⟩ := C34_latest_partial cfg hl before after _ false n hpl p0 p _ h0 hent hreg rfl hsame hafter rest (.inl ⟨hn.1, hn.2, hr⟩)
    rw [hh _ (suffix_run hr) rfl, htext]
    simp only [Handler.run, Body.get, Match.stop, List.length_nil, Nat.zero_add, List.range_zero, List.filterMap_nil, List.map_nil, substituteArgs, List.isEmpty_nil, if_true]
    rw [if_neg hne]
  · have hex := C34_expand_partial cfg hl before (fun x hx => hpl x (by simp [hx])) p0 h0 content hb false
    have hus : (Def.let_ n content none).usage cfg = .seq (.lit ['\\']) (.seq (.lit n) suffixRe) := by
      show Re.seq (.lit ['\\']) (.seq (rawRe n) suffixRe) = _
      rw [rawRe_word (fun c hc => letter_name c (hn.2 c hc))]
    have hent : entryOf cfg p0 (.let_ n content none) false = some (.ok (some ⟨.seq (.lit ['\\']) (.seq (.lit n) suffixRe), .const content, false⟩)) := by
      unfold entryOf
      have : (Def.let_ n content none).name = n := rfl
      simp only [this, hwl, Bool.false_eq_true, if_false, hus, hex]
    obtain ⟨_, hh⟩ := C34_latest_partial cfg hl before after _ false n hpl p0 p _ h0 hent hreg rfl hsame hafter rest (.inl ⟨hn.1, hn.2, hr⟩)
    rw [hh _ (suffix_run hr) rfl, htext]
    simp only [Handler.run, Match.stop, List.length_nil, Nat.zero_add]
    rw [if_neg hne]

theorem act_use {V} {cfg : Cfg V} (ho : SomeOrder cfg.order) (hl : Letters cfg.cmds) {h} {st : St V} (k : Known cfg h st) {n content rest : Str} (hw : Unmeant [] n rest)
    (hwl : n ∉ whitelisted) (hn : n ≠ [] ∧ ∀ c ∈ n, isLetter c = true) (hs : StandsFor h n content) (m : Nat) : act cfg m st ('\\' :: (n ++ rest)) = .next st [] (content ++ rest) := by
  have he : Without effectWords ('\\' :: (n ++ rest)) := Without.sub hw.builtin fun w hw => by simp [hw]
  have hend : ∀ c, rest.head? = some c → isNameChar c = false := by
    rcases hw.name with ⟨_, _, h3⟩ | ⟨c, rfl, hc⟩
    · exact h3
    · have := letter_name c (hn.2 c (by simp)); rw [hc] at this; cases this
  rw [act_none ho he hw.formula, quotes_none (by simp), actDefine_none he (Without.sub hw.builtin fun w hw => by simp [hw]), actFormat_none (noLayout_word cfg hw.name hw.layout),
    actCommand_some he (use_value hl k.reg k.plain hs hwl hn hend) (by omega)]
  rw [show ('\\' :: (n ++ rest)).drop (n.length + 1) = rest by simp]

/-- A use is replaced by what it stands for, and this is read on. -/
theorem Runs.use {V} {cfg : Cfg V} (ho : SomeOrder cfg.order) (hl : Letters cfg.cmds) {h} {st st' : St V} (k : Known cfg h st) {n content rest out : Str} (hw : Unmeant [] n rest)
    (hwl : n ∉ whitelisted) (hn : n ≠ [] ∧ ∀ c ∈ n, isLetter c = true) (hs : StandsFor h n content) (hr : Runs cfg st (content ++ rest) st' out) :
    Runs cfg st ('\\' :: (n ++ rest)) st' out :=
  Runs.act (o := []) (ends_hit hw.name hw.plain) ⟨0, fun m _ => act_use ho hl k hw hwl hn hs m⟩ hr

/-! Conditionals. -/

/-- The switches that are declared. -/
def _root_.L2J.Spec.switches (h : List (Def × Bool)) : List Str := h.reverse.filterMap fun x => match x.1 with | .newif n => some n | _ => none

theorem Known.names {V} {cfg : Cfg V} {h} {st : St V} (k : Known cfg h st) : st.ifs = switches h ∧ ∀ m ∈ switches h, IfName m := by
  refine ⟨k.ifs, fun m hm => ?_⟩
  unfold switches at hm
  obtain ⟨x, hx, he⟩ := List.mem_filterMap.1 hm
  have := k.plain x (by simpa using hx)
  obtain ⟨d, b⟩ := x
  cases d <;> simp at he
  subst he
  exact this

theorem Runs.cond {V} {cfg : Cfg V} (ho : SomeOrder cfg.order) (hl : Letters cfg.cmds) {h} {st st' : St V} (k : Known cfg h st) {w X rest type c a b out : Str} {e : Nat} (hw : Unmeant h w X)
    (hc : Cond.handle (switches h) ('\\' :: (w ++ X)) = .token type c a b e) (hd : ('\\' :: (w ++ X)).drop e = rest) (ht : '@' ∉ type) (hr : Runs cfg st (a ++ rest) st' out) :
    Runs cfg st ('\\' :: (w ++ X)) st' out := by
  refine Runs.act (o := []) (ends_hit hw.name hw.plain) ⟨0, fun m _ => ?_⟩ hr
  rw [act_unmeant ho hl k hw]
  unfold actIf
  rw [k.names.1, hc]
  simp only [if_pos (Cond.C63_bounds _ _ _ _ _ _ _ hc).1, hd]
  rw [if_neg (by simpa using ht)]

theorem no_at {ns : List Str} {n : Str} (hn : ∀ c ∈ n, isLetter c = true) : '@' ∉ "conditional-".toList ++ if n ∈ ns then n else "if".toList := by
  intro h
  rcases List.mem_append.1 h with h | h
  · revert h; decide
  · split at h
    · have := hn _ h; revert this; decide
    · revert h; decide

theorem Runs.fi {V} {cfg : Cfg V} (ho : SomeOrder cfg.order) (hl : Letters cfg.cmds) {h} {st st' : St V} (k : Known cfg h st) {n x rest out : Str} (hw : Unmeant h ("if".toList ++ n) (x ++ ("\\fi".toList ++ rest)))
    (hn : ∀ c ∈ n, isLetter c = true) (hop : Opens (switches h) n (x ++ "\\fi".toList)) (hown : n ≠ "ifthenelse".toList) (hx : CondText (switches h) true x) (hre : ∀ c ∈ rest.head?, isWord c = false)
    (hr : Runs cfg st ((if n = "false".toList then [] else strip x) ++ rest) st' out) : Runs cfg st ("\\if".toList ++ n ++ (x ++ ("\\fi".toList ++ rest))) st' out := by
  have hown' : n ∈ switches h → n ∉ ownIfs := by
    intro _ hm
    simp only [ownIfs, List.map_cons, List.map_nil, List.mem_cons, List.not_mem_nil, or_false] at hm
    rcases hm with rfl | rfl | rfl | rfl | rfl
    · exact hown rfl
    all_goals exact absurd (hn '@' (by decide)) (by decide)
  have := Cond.C63_fi (switches h) k.names.2 n x rest hop hown' hx hre
  have e1 : "\\if".toList ++ n ++ (x ++ ("\\fi".toList ++ rest)) = '\\' :: (("if".toList ++ n) ++ (x ++ ("\\fi".toList ++ rest))) := rfl
  rw [e1] at this ⊢
  refine Runs.cond ho hl k hw this ?_ (no_at hn) hr
  rw [← e1, show "\\if".toList ++ n ++ (x ++ ("\\fi".toList ++ rest)) = ("\\if".toList ++ n ++ x ++ "\\fi".toList) ++ rest by simp only [List.append_assoc], List.drop_left]

theorem Runs.else_ {V} {cfg : Cfg V} (ho : SomeOrder cfg.order) (hl : Letters cfg.cmds) {h} {st st' : St V} (k : Known cfg h st) {n x y rest out : Str}
    (hw : Unmeant h ("if".toList ++ n) (x ++ ("\\else".toList ++ (y ++ ("\\fi".toList ++ rest)))))
    (hn : ∀ c ∈ n, isLetter c = true) (hop : Opens (switches h) n (x ++ "\\else".toList)) (hown : n ≠ "ifthenelse".toList) (hx : CondText (switches h) true x) (hy : CondText (switches h) true y)
    (hy0 : ∀ c ∈ y.head?, isWord c = false) (hre : ∀ c ∈ rest.head?, isWord c = false)
    (hr : Runs cfg st ((if n = "false".toList then strip y else strip x) ++ rest) st' out) : Runs cfg st ("\\if".toList ++ n ++ (x ++ ("\\else".toList ++ (y ++ ("\\fi".toList ++ rest))))) st' out := by
  have hown' : n ∈ switches h → n ∉ ownIfs := by
    intro _ hm
    simp only [ownIfs, List.map_cons, List.map_nil, List.mem_cons, List.not_mem_nil, or_false] at hm
    rcases hm with rfl | rfl | rfl | rfl | rfl
    · exact hown rfl
    all_goals exact absurd (hn '@' (by decide)) (by decide)
  have := Cond.C63_else (switches h) k.names.2 n x y rest hop hown' hx hy hy0 hre
  have e1 : "\\if".toList ++ n ++ (x ++ ("\\else".toList ++ (y ++ ("\\fi".toList ++ rest)))) = '\\' :: (("if".toList ++ n) ++ (x ++ ("\\else".toList ++ (y ++ ("\\fi".toList ++ rest))))) := rfl
  rw [e1] at this ⊢
  refine Runs.cond ho hl k hw this ?_ (no_at hn) hr
  rw [← e1, show "\\if".toList ++ n ++ (x ++ ("\\else".toList ++ (y ++ ("\\fi".toList ++ rest)))) = ("\\if".toList ++ n ++ x ++ "\\else".toList ++ y ++ "\\fi".toList) ++ rest by simp only [List.append_assoc],
    List.drop_left]

theorem Runs.ifthenelse {V} {cfg : Cfg V} (ho : SomeOrder cfg.order) (hl : Letters cfg.cmds) {h} {st st' : St V} (k : Known cfg h st) {w1 c w2 a w3 b rest out : Str}
    (hw : Unmeant h "ifthenelse".toList (wrapAll '{' '}' [(w1, c), (w2, a), (w3, b)] ++ rest)) (hns : ∀ m ∈ switches h, ¬ m <+: "thenelse".toList)
    (hwr : WellWrapped '{' '}' [(w1, c), (w2, a), (w3, b)]) (hr : Runs cfg st (a ++ rest) st' out) :
    Runs cfg st ("\\ifthenelse".toList ++ (wrapAll '{' '}' [(w1, c), (w2, a), (w3, b)] ++ rest)) st' out := by
  have := Cond.C63_ifthenelse (switches h) (fun m hm => ⟨k.names.2 m hm, hns m hm⟩) w1 c w2 a w3 b rest hwr
  have e1 : "\\ifthenelse".toList ++ (wrapAll '{' '}' [(w1, c), (w2, a), (w3, b)] ++ rest) = '\\' :: ("ifthenelse".toList ++ (wrapAll '{' '}' [(w1, c), (w2, a), (w3, b)] ++ rest)) := rfl
  rw [e1] at this ⊢
  refine Runs.cond ho hl k hw this ?_ (by decide) hr
  rw [← e1, ← List.append_assoc, List.drop_left]

/-! Packages. -/

/-- `\usepackage[options]{names}`. -/
structure _root_.L2J.Spec.PackageText where
  word : String
  ws : Str
  options : Option Str
  ws2 : Str
  names : Str

def _root_.L2J.Spec.PackageText.written (p : PackageText) : Str := p.word.toList ++ (p.ws ++ (bracketed p.options ++ (p.ws2 ++ '{' :: (p.names ++ ['}']))))

def _root_.L2J.Spec.PackageText.Ok (p : PackageText) : Prop :=
  Blank p.ws ∧ (∀ o ∈ p.options, ']' ∉ o) ∧ Blank p.ws2 ∧ (p.options = none → p.ws2 = []) ∧ p.names ≠ [] ∧ '}' ∉ p.names

theorem packTail_eats {p : PackageText} (h : p.Ok) (rest : Str) (g) : Eats packTail (p.ws ++ (bracketed p.options ++ (p.ws2 ++ '{' :: (p.names ++ ['}'])))) rest g ((1, p.names) :: g) := by
  obtain ⟨h1, h2, h3, h4, h5, h6⟩ := h
  have ho : Eats Fmt.optArg (bracketed p.options) (p.ws2 ++ '{' :: (p.names ++ ['}']) ++ rest) g g := by
    unfold Fmt.optArg
    cases hp : p.options with
    | none =>
      rw [h4 hp]
      exact Eats.optNone (Dead.seq (Dead.char (by simp)))
    | some x =>
      exact Eats.optSome (Eats.seq (x := ['[']) (Eats.lit _ _ _) (Eats.seq (Eats.star_chr _ (fun c hc => by simp; rintro rfl; exact h2 x hp hc) (by simp)) (Eats.lit _ _ _)))
  have hsp : ∀ c ∈ (bracketed p.options ++ (p.ws2 ++ '{' :: (p.names ++ ['}'])) ++ rest).head?, isSpace c = false := by
    cases hp : p.options with
    | none => rw [h4 hp]; simp [bracketed]; decide
    | some x => simp [bracketed]; decide
  exact Eats.seq (g1 := g) (Eats.spaces h1 hsp) (Eats.seq (g1 := g) ho (Eats.seq (g1 := g) (Eats.spaces h3 (by simp; decide)) (braceContent_eats 1 h5 h6)))

/-- What the files of a package or class define. -/
def _root_.L2J.Spec.loaded (ts : List Defn.Tok) : List (Def × Bool) := ts.flatMap fun t => entered t true

theorem settled_sty (d : Def) : Settled d true := by
  cases d with
  | let_ => exact .inl rfl
  | def_ n p c e cs => cases e with
    | true => exact .inl rfl
    | false => trivial
  | _ => trivial

theorem addAll_known {V} {cfg : Cfg V} (hl : Letters cfg.cmds) : ∀ (ts : List Defn.Tok) {h} {st : St V}, Known cfg h st → (∀ x ∈ loaded ts, PlainDef x.1) →
    ∃ st1, addAll cfg st ts = some (.ok st1) ∧ Known cfg (h ++ loaded ts) st1 ∧ st1.eqn = st.eqn ∧ st1.blocks = st.blocks ∧ st1.toks = st.toks
  | [], h, st, k, _ => ⟨st, rfl, by simpa [loaded] using k, rfl, rfl, rfl⟩
  | t :: ts, h, st, k, hp => by
    have hlo : loaded (t :: ts) = entered t true ++ loaded ts := rfl
    obtain ⟨st1, h1, k1, a1, a2, a3, a4⟩ := Known.add hl k (t := t) (sty := true) (fun x hx => ⟨hp x (by rw [hlo]; simp [hx]), settled_sty _⟩)
    obtain ⟨st2, h2, k2, b2, b3, b4⟩ := addAll_known hl ts k1 (fun x hx => hp x (by rw [hlo]; simp [hx]))
    refine ⟨st2, ?_, by rw [hlo, ← List.append_assoc]; exact k2, b2.trans a2, b3.trans a3, b4.trans a4⟩
    unfold addAll
    rw [h1]
    exact h2

/-- The words that load a package. -/
def _root_.L2J.Spec.packageWords : List String := ["\\usepackage", "\\RequirePackage"]

theorem package_start {w : String} (hw : w ∈ packageWords) (X : Str) :
    firstHit none (w.toList ++ X) = some 0 ∧ addtoRe.matchAt [] (w.toList ++ X) = none ∧ NoFormula (w.toList ++ X) ∧ (w.toList ++ X).head? ≠ some '`' ∧ 0 < w.toList.length ∧
    Without defineWords (w.toList ++ X) ∧ Without ["\\define@key", "\\setkeys"] (w.toList ++ X) := by
  have hs : ∀ w ∈ packageWords, startsDef w.toList = true := by decide +kernel
  have hs2 : ∀ w ∈ packageWords, ∀ v ∈ defineWords ++ ["\\define@key", "\\setkeys"], v.toList.isPrefixOf w.toList = false ∧ w.toList.isPrefixOf v.toList = false := by decide +kernel
  have hf := hs w hw
  have hf2 := hs2 w hw
  have hne : w.toList ≠ "\\addtolength".toList := (show ∀ w ∈ packageWords, w.toList ≠ "\\addtolength".toList by decide +kernel) w hw
  clear hs hs2 hw
  revert hf hf2 hne
  generalize w.toList = v
  intro hf hf2 hne
  simp only [startsDef, Bool.and_eq_true, beq_iff_eq, Bool.not_eq_true', Bool.or_eq_false_iff, Bool.or_eq_true] at hf
  obtain ⟨⟨⟨h1, h2⟩, h3, h4⟩, h5⟩ := hf
  have npre : ∀ {u : Str}, u.isPrefixOf v = false → v.isPrefixOf u = false → ¬ u <+: v ++ X := by
    intro u ha hb hp
    rcases Fmt.prefix_split hp with h | ⟨d, r, h, _⟩
    · rw [List.isPrefixOf_iff_prefix.2 h] at ha; cases ha
    · rw [List.isPrefixOf_iff_prefix.2 ⟨_, h.symm⟩] at hb; cases hb
  have ha : addtoRe.matchAt [] (v ++ X) = none := by
    rcases h5 with ⟨a, b⟩ | h
    · exact (Dead.seq (Dead.lit (npre a b))).matchAt []
    · exact absurd h hne
  have hb := npre h3 h4
  have hw1 : Without (defineWords ++ ["\\define@key", "\\setkeys"]) (v ++ X) := fun u hu => npre (hf2 u hu).1 (hf2 u hu).2
  obtain ⟨c, t, rfl, hc⟩ : ∃ c t, v = '\\' :: c :: t ∧ (!escapable c && c != '[' && c != '(') = true := by
    cases v with
    | nil => cases h1
    | cons a v =>
      cases v with
      | nil => simp at h2
      | cons c t => simp at h1; exact ⟨c, t, by rw [h1], by simpa using h2⟩
  simp only [Bool.and_eq_true, Bool.not_eq_true', bne_iff_ne, ne_eq] at hc
  refine ⟨hit_slash (s := c :: t ++ X) (by simp [hc.1.1]), ha, .inl ?_, by simp, by simp, Without.sub hw1 (fun w h => by simp [h]), Without.sub hw1 (fun w h => List.mem_append_right _ h)⟩
  rintro (⟨u, hu⟩ | ⟨u, hu⟩ | ⟨u, hu⟩ | ⟨n, _, v, star, hv, u, hu⟩)
  · simp at hu
  · simp at hu; exact hc.1.2 hu.1.symm
  · simp at hu; exact hc.2 hu.1.symm
  · refine hb ?_
    rw [← hu]; unfold tag; rw [List.append_assoc]; exact ⟨_, rfl⟩

theorem Runs.package {V} {cfg : Cfg V} (ho : SomeOrder cfg.order) {st st1 st' : St V} {p : PackageText} (hw : p.word ∈ packageWords) (hp : p.Ok) {rest out : Str}
    (h1 : addAll cfg st (cfg.packages (strip p.names)) = some (.ok st1)) (hr : Runs cfg { st1 with toks := st1.toks ++ cfg.packages (strip p.names) } rest st' out) :
    Runs cfg st (p.written ++ rest) st' out := by
  unfold PackageText.written
  have hwo : p.word.toList = "\\usepackage".toList ∨ p.word.toList = "\\RequirePackage".toList := by
    simp only [packageWords, List.mem_cons, List.not_mem_nil, or_false] at hw
    rcases hw with h | h
    · rw [h]; exact .inl rfl
    · rw [h]; exact .inr rfl
  generalize ht : p.ws ++ (bracketed p.options ++ (p.ws2 ++ '{' :: (p.names ++ ['}']))) = t
  have he := packTail_eats hp rest []
  rw [ht] at he
  have hm : usepackageRe.matchAt [] (p.word.toList ++ t ++ rest) = some ⟨[], p.word.toList ++ t ++ rest, (p.word.toList ++ t).length, [(1, p.names)]⟩ := by
    have : Eats (.alt (.lit "\\usepackage".toList) (.lit "\\RequirePackage".toList)) p.word.toList (t ++ rest) [] [] := by
      rcases hwo with h | h
      · rw [h]; exact Eats.left (Eats.lit _ _ _)
      · rw [h]; exact Eats.right (Dead.lit (by rintro ⟨u, hu⟩; simp at hu)) (Eats.lit _ _ _)
    exact (Eats.seq (g1 := []) this he).matchAt []
  obtain ⟨a1, a2, a3, a4, a5, a6, a7⟩ := package_start hw (t ++ rest)
  rw [← List.append_assoc] at a1 a2 a3 a4 a6 a7
  refine Runs.act (o := []) a1 ⟨0, fun n _ => ?_⟩ hr
  unfold Pre.act
  rw [a2]
  unfold actMath
  simp only [math_none ho a3, Nat.lt_irrefl, if_false]
  rw [quotes_none a4]
  unfold actDefine
  have hk : KeyVal.handle cfg.cmds.alpha st.keys (p.word.toList ++ t ++ rest) = (st.keys, none, 0) := by
    unfold KeyVal.handle KeyVal.matchKw startsWith
    rw [if_neg (by rw [List.isPrefixOf_iff_prefix]; exact a7 "\\define@key" (by simp)), if_neg (by rw [List.isPrefixOf_iff_prefix]; exact a7 "\\setkeys" (by simp))]
  have hst : ({ proc := st.proc, keys := st.keys, ifs := st.ifs, eqn := st.eqn, blocks := st.blocks, toks := st.toks } : St V) = st := rfl
  simp only [define_none a6, Bool.false_eq_true, if_false, hk, hst]
  unfold actPackage
  rw [hm]
  have hg : Match.group ⟨[], p.word.toList ++ t ++ rest, (p.word.toList ++ t).length, [(1, p.names)]⟩ 1 = some p.names := by simp [Match.group]
  have hst2 : Match.stop ⟨[], p.word.toList ++ t ++ rest, (p.word.toList ++ t).length, [(1, p.names)]⟩ = (p.word.toList ++ t).length := by simp [Match.stop]
  simp only [hg, Option.getD_some, h1, hst2, List.drop_left]

end L2J.Pre
