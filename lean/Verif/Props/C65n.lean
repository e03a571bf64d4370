import Verif.Props.C65m
/-! C65: the parser as a whole; conditionals and switches for fonts, sizes and colours. -/
namespace L2J.Psr
open Cmds Defn L2J.Spec
open Pre (keyval_none Without.sub)

/-- No definition has a say at the command `\w`. -/
structure _root_.L2J.Spec.Undefined (h : List (Def × Bool)) (w rest : Str) : Prop where
  name : Ends w rest
  plain : ∀ c ∈ w.head?, c ∉ "$%&_#{}~".toList
  builtin : Without (defineWords ++ effectWords) ('\\' :: (w ++ rest))
  csname : ¬ "csname".toList <+: w ++ rest
  user : ∀ x ∈ h, ¬ Meant x.1 w

theorem actAt_undefined {V X} {cfg : Cfg V X} (hl : Letters cfg.cmds) (p : Parse V X) (n : Nat) (o : Opts) {h} {st : St V X} (k : Known cfg h st) (toks : List Tok) (space : Bool) {w rest : Str}
    (hw : Undefined h w rest) : actAt cfg p n o st toks space ('\\' :: (w ++ rest)) = actIf cfg p n o st toks space ('\\' :: (w ++ rest)) := by
  have he : Without effectWords ('\\' :: (w ++ rest)) := Without.sub hw.builtin fun w hw => by simp [hw]
  have hu : st.proc.handle cfg.cmds ('\\' :: (w ++ rest)) = ('\\' :: (w ++ rest), 0) := Pre.user_word (cfg := preCfg cfg) hl k.pre hw.name hw.csname hw.user
  rw [actAt_word cfg p n o st toks space hw.name hw.plain, act_early cfg p n o st toks space he, hu]
  rw [if_neg (by simp), actDefine_none cfg p n o st toks space he (Without.sub hw.builtin fun w hw => by simp [hw])]

/-! ## Conditionals -/

/-- A conditional, the text that is kept of it, and the text behind it. -/
inductive _root_.L2J.Spec.Chosen (h : List (Def × Bool)) : Str → Str → Str → Prop
  /-- `\if… … \fi`: the text is kept, but for `\iffalse`. -/
  | fi (n x rest : Str) : Undefined h ("if".toList ++ n) (x ++ ("\\fi".toList ++ rest)) → (∀ c ∈ n, isLetter c = true) → Opens (switches h) n (x ++ "\\fi".toList) →
      n ≠ "ifthenelse".toList → CondText (switches h) true x → (∀ c ∈ rest.head?, isWord c = false) →
      Chosen h ("if".toList ++ n ++ (x ++ ("\\fi".toList ++ rest))) (if n = "false".toList then [] else strip x) rest
  /-- `\if… … \else … \fi`: the first text is kept, with `\iffalse` the second. -/
  | else_ (n x y rest : Str) : Undefined h ("if".toList ++ n) (x ++ ("\\else".toList ++ (y ++ ("\\fi".toList ++ rest)))) → (∀ c ∈ n, isLetter c = true) →
      Opens (switches h) n (x ++ "\\else".toList) → n ≠ "ifthenelse".toList → CondText (switches h) true x → CondText (switches h) true y → (∀ c ∈ y.head?, isWord c = false) →
      (∀ c ∈ rest.head?, isWord c = false) →
      Chosen h ("if".toList ++ n ++ (x ++ ("\\else".toList ++ (y ++ ("\\fi".toList ++ rest))))) (if n = "false".toList then strip y else strip x) rest
  /-- `\ifthenelse{…}{…}{…}`: the first text is kept. -/
  | ifthenelse (w1 c w2 a w3 b rest : Str) : Undefined h "ifthenelse".toList (wrapAll '{' '}' [(w1, c), (w2, a), (w3, b)] ++ rest) →
      (∀ m ∈ switches h, ¬ m <+: "thenelse".toList) → WellWrapped '{' '}' [(w1, c), (w2, a), (w3, b)] →
      Chosen h ("ifthenelse".toList ++ (wrapAll '{' '}' [(w1, c), (w2, a), (w3, b)] ++ rest)) a rest

theorem Acts.cond {V X} {cfg : Cfg V X} (hl : Letters cfg.cmds) {h} {st : St V X} (k : Known cfg h st) (toks : List Tok) (space : Bool) {w x rest type c a b : Str} {e : Nat} (hw : Undefined h w x)
    (hc : Cond.handle (switches h) ('\\' :: (w ++ x)) = .token type c a b e) (hd : ('\\' :: (w ++ x)).drop e = rest) : Acts cfg st toks space ('\\' :: (w ++ x)) st ⟨toks, space, a ++ rest⟩ := by
  refine ⟨0, fun m _ => ?_⟩
  rw [actAt_undefined hl _ m _ k toks space hw]
  unfold actIf
  rw [show st.ifs = switches h from k.pre.names.1, hc]
  simp only [if_pos (Cond.C63_bounds _ _ _ _ _ _ _ hc).1, hd]

theorem not_own {h : List (Def × Bool)} {n : Str} (hn : ∀ c ∈ n, isLetter c = true) (hown : n ≠ "ifthenelse".toList) : n ∈ switches h → n ∉ ownIfs := by
  intro _ hm
  simp only [ownIfs, List.map_cons, List.map_nil, List.mem_cons, List.not_mem_nil, or_false] at hm
  rcases hm with rfl | rfl | rfl | rfl | rfl
  · exact hown rfl
  all_goals exact absurd (hn '@' (by decide)) (by decide)

theorem Acts.chosen {V X} {cfg : Cfg V X} (hl : Letters cfg.cmds) {h} {st : St V X} (k : Known cfg h st) (toks : List Tok) (space : Bool) {s out rest : Str} (hc : Chosen h s out rest) :
    Acts cfg st toks space ('\\' :: s) st ⟨toks, space, out ++ rest⟩ := by
  cases hc with
  | fi n x rest hw hn hop hown hx hre =>
    have := Cond.C63_fi (switches h) k.pre.names.2 n x rest hop (not_own hn hown) hx hre
    have e1 : "\\if".toList ++ n ++ (x ++ ("\\fi".toList ++ rest)) = '\\' :: (("if".toList ++ n) ++ (x ++ ("\\fi".toList ++ rest))) := rfl
    rw [e1] at this
    refine Acts.cond hl k toks space hw this ?_
    rw [← e1, show "\\if".toList ++ n ++ (x ++ ("\\fi".toList ++ rest)) = ("\\if".toList ++ n ++ x ++ "\\fi".toList) ++ rest by simp only [List.append_assoc], List.drop_left]
  | else_ n x y rest hw hn hop hown hx hy hy0 hre =>
    have := Cond.C63_else (switches h) k.pre.names.2 n x y rest hop (not_own hn hown) hx hy hy0 hre
    have e1 : "\\if".toList ++ n ++ (x ++ ("\\else".toList ++ (y ++ ("\\fi".toList ++ rest)))) = '\\' :: (("if".toList ++ n) ++ (x ++ ("\\else".toList ++ (y ++ ("\\fi".toList ++ rest))))) := rfl
    rw [e1] at this
    refine Acts.cond hl k toks space hw this ?_
    rw [← e1, show "\\if".toList ++ n ++ (x ++ ("\\else".toList ++ (y ++ ("\\fi".toList ++ rest)))) = ("\\if".toList ++ n ++ x ++ "\\else".toList ++ y ++ "\\fi".toList) ++ rest by simp only [List.append_assoc],
      List.drop_left]
  | ifthenelse w1 c w2 a w3 b rest hw hns hwr =>
    have := Cond.C63_ifthenelse (switches h) (fun m hm => ⟨k.pre.names.2 m hm, hns m hm⟩) w1 c w2 out w3 b rest hwr
    have e1 : "\\ifthenelse".toList ++ (wrapAll '{' '}' [(w1, c), (w2, out), (w3, b)] ++ rest) = '\\' :: ("ifthenelse".toList ++ (wrapAll '{' '}' [(w1, c), (w2, out), (w3, b)] ++ rest)) := rfl
    rw [e1] at this
    refine Acts.cond hl k toks space hw this ?_
    rw [← e1, ← List.append_assoc, List.drop_left]

/-! ## Switches -/

/-- A switch for a font, a size or a colour, the command it stands for, and the text behind it. -/
inductive _root_.L2J.Spec.Switched : Str → Str → Str → Prop
  /-- A switch with an argument in braces. -/
  | braces {k : Legacy.Kind} {n style cmd : String} (ws body rest : Str) : (n, style) ∈ switchTable k → (n, cmd) ∈ modernTable → (∀ c ∈ ws, isSpace c = true) → Wrappable '{' '}' body →
      Switched (command n ws body ++ rest) (command cmd [] (strip body)) rest
  /-- A switch reaches to the next switch of its kind, or to the end of the group. -/
  | switch {k : Legacy.Kind} {n style cmd : String} (ws next tail close : Str) (parts : List (Str × Part)) : (n, style) ∈ switchTable k → (n, cmd) ∈ modernTable →
      (∀ c ∈ ws, isSpace c = true) → (∀ c ∈ (pieces parts tail ++ (next ++ close)).head?, isSpace c = false ∧ c ≠ '{') → NoLetterAt (ws ++ (pieces parts tail ++ (next ++ close))) →
      Wrappable '{' '}' (pieces parts tail ++ next) → GroupEnd close → (close ≠ [] → pieces parts tail ++ next ≠ []) →
      (next = [] ∨ (SwitchAt k next ∧ ¬ '\\' :: n.toList <+: next ++ close)) → NoPairs (pieces parts tail ++ next) → PiecesOk k next parts tail → ¬ EndsWithSwitch (pieces parts tail) →
      Switched ('\\' :: (n.toList ++ (ws ++ (pieces parts tail ++ (next ++ close))))) (command cmd [] (pieces parts tail)) (next ++ close)
  /-- The same switch again is left out. -/
  | off {k : Legacy.Kind} {n style cmd : String} (ws tail close r : Str) (parts : List (Str × Part)) : (n, style) ∈ switchTable k → (n, cmd) ∈ modernTable →
      (∀ c ∈ ws, isSpace c = true) → (∀ c ∈ (pieces parts tail ++ '\\' :: (n.toList ++ r) ++ close).head?, isSpace c = false ∧ c ≠ '{') →
      NoLetterAt (ws ++ (pieces parts tail ++ '\\' :: (n.toList ++ r) ++ close)) → NoLetterAt r → Wrappable '{' '}' (pieces parts tail ++ '\\' :: (n.toList ++ r)) → GroupEnd close →
      NoPairs (pieces parts tail ++ '\\' :: (n.toList ++ r)) → PiecesOk k ('\\' :: (n.toList ++ r)) parts tail → ¬ EndsWithSwitch (pieces parts tail) →
      Switched ('\\' :: (n.toList ++ (ws ++ (pieces parts tail ++ '\\' :: (n.toList ++ r) ++ close)))) (command cmd [] (pieces parts tail)) (r ++ close)
  /-- `\normalcolor` is left out. -/
  | normal (rest : Str) : (∀ c ∈ rest.head?, isWord c = false) → Switched ("\\normalcolor".toList ++ rest) [] rest
  /-- A colour. -/
  | color (ws0 : Str) (m : Option Str) (ws c next tail close : Str) (parts : List (Str × Part)) : (∀ x ∈ ws0, isSpace x = true) → (∀ x ∈ m, x ≠ [] ∧ ∀ y ∈ x, isWord y = true) →
      (∀ x ∈ ws, isSpace x = true) → Wrappable '{' '}' c → Wrappable '{' '}' (pieces parts tail ++ next) → GroupEnd close → (close ≠ [] → pieces parts tail ++ next ≠ []) →
      (next = [] ∨ (SwitchAt .color next ∧ ∀ x ∈ m, 'c' ∉ x ∧ 'n' ∉ x)) → NoPairs (pieces parts tail ++ next) → PiecesOk .color next parts tail → ¬ EndsWithSwitch (pieces parts tail) →
      Switched ("\\color".toList ++ (ws0 ++ (colorModel m ++ (ws ++ '{' :: (c ++ '}' :: (pieces parts tail ++ (next ++ close)))))))
        ("\\textcolor".toList ++ (colorModel m ++ wrapAll '{' '}' [([], c), ([], pieces parts tail)])) (next ++ close)

theorem modern_unique {n a b : String} (ha : (n, a) ∈ modernTable) (hb : (n, b) ∈ modernTable) : a = b := by
  have : ∀ x ∈ modernTable, ∀ y ∈ modernTable, x.1 = y.1 → x.2 = y.2 := by decide +kernel
  exact this _ ha _ hb rfl

theorem switched_handle {s out rest : Str} (h : Switched s out rest) : ∃ e, Legacy.handle s = some (.ok (out, e)) ∧ 0 < e ∧ s.drop e = rest := by
  cases h with
  | braces ws body rest h hm hws hb =>
    obtain ⟨cmd', h0, _, h2⟩ := Legacy.C58_braces h ws body rest hws hb
    obtain rfl := modern_unique hm h0
    exact ⟨_, h2, by simp [command], List.drop_left⟩
  | switch ws next tail close parts h hm hws hstart hX hw hc hne hn hp hok hend =>
    obtain ⟨cmd', h0, _, h2⟩ := Legacy.C58_switch h ws next tail close parts hws hstart hX hw hc hne hn hp hok hend
    obtain rfl := modern_unique hm h0
    refine ⟨_, h2, by simp, ?_⟩
    rw [show ∀ n x y z : Str, '\\' :: (n ++ (x ++ (y ++ z))) = ('\\' :: (n ++ (x ++ y))) ++ z from fun n x y z => by simp, List.drop_left]
  | off ws tail close r parts h hm hws hstart hX hr hw hc hp hok hend =>
    obtain ⟨cmd', h0, _, h2⟩ := Legacy.C58_off h ws tail close r parts hws hstart hX hr hw hc hp hok hend
    obtain rfl := modern_unique hm h0
    refine ⟨_, h2, by simp, ?_⟩
    rw [show ∀ n x y z r : Str, '\\' :: (n ++ (x ++ (y ++ '\\' :: (n ++ r) ++ z))) = ('\\' :: (n ++ (x ++ (y ++ '\\' :: n)))) ++ (r ++ z) from fun n x y z r => by simp, List.drop_left]
  | normal rest hr => exact ⟨_, Legacy.C58_normalcolor rest hr, by decide, List.drop_left⟩
  | color ws0 m ws c next tail close parts h0 hm hws hcol hw hc hne hn hp hok hend =>
    refine ⟨_, Legacy.C58_color ws0 m ws c next tail close parts h0 hm hws hcol hw hc hne hn hp hok hend, by simp, ?_⟩
    rw [show ∀ a b d e f g z : Str, a ++ (b ++ (d ++ (e ++ '{' :: (f ++ '}' :: (g ++ z))))) = (a ++ (b ++ (d ++ (e ++ '{' :: (f ++ '}' :: g))))) ++ z from fun a b d e f g z => by simp, List.drop_left]

/-- The names of the switches. -/
def switchNames : List String := fontSwitches.map (·.1) ++ sizeSwitches.map (·.1) ++ ["color", "normalcolor"]

theorem switched_name {s out rest : Str} (h : Switched s out rest) : ∃ n ∈ switchNames, ∃ y, s = '\\' :: (n.toList ++ y) := by
  have key : ∀ {k : Legacy.Kind} {n style : String}, (n, style) ∈ switchTable k → n ∈ switchNames := by
    intro k n style h
    unfold switchNames
    cases k with
    | font => exact List.mem_append_left _ (List.mem_append_left _ (List.mem_map_of_mem (f := (·.1)) h))
    | size => exact List.mem_append_left _ (List.mem_append_right _ (List.mem_map_of_mem (f := (·.1)) h))
    | color => cases h
  cases h with
  | braces ws body rest h _ _ _ => exact ⟨_, key h, ws ++ '{' :: (body ++ '}' :: rest), by simp [command]⟩
  | switch ws next tail close parts h => exact ⟨_, key h, _, rfl⟩
  | off ws tail close r parts h => exact ⟨_, key h, _, rfl⟩
  | normal rest _ => exact ⟨"normalcolor", by simp [switchNames], rest, rfl⟩
  | color => exact ⟨"color", by simp [switchNames], _, rfl⟩

/-- Neither text is the start of the other. -/
def apart (a b : Str) : Bool := !a.isPrefixOf b && !b.isPrefixOf a

theorem apart_not {a b x : Str} (h : apart a b = true) : ¬ a <+: b ++ x := by
  unfold apart at h
  rw [Bool.and_eq_true, Bool.not_eq_true', Bool.not_eq_true'] at h
  intro hp
  rcases Fmt.prefix_split hp with h1 | ⟨d, r, h1, _⟩
  · rw [List.isPrefixOf_iff_prefix.2 h1] at h; cases h.1
  · rw [List.isPrefixOf_iff_prefix.2 ⟨_, h1.symm⟩] at h; cases h.2

def switchApart : Bool := switchNames.all fun n => (defineWords ++ effectWords ++ condWords).all (fun v => apart v.toList ('\\' :: n.toList)) && startsPlain ('\\' :: n.toList)

theorem switch_apart : switchApart = true := by decide +kernel

theorem Acts.switched {V X} {cfg : Cfg V X} (hl : Letters cfg.cmds) {h} {st : St V X} (k : Known cfg h st) (toks : List Tok) (space : Bool) {w x out rest : Str} (hs : Switched ('\\' :: (w ++ x)) out rest)
    (hw : Ends w x) (hu : ∀ y ∈ h, ¬ Meant y.1 w) : Acts cfg st toks space ('\\' :: (w ++ x)) st ⟨toks, space, out ++ rest⟩ := by
  obtain ⟨n, hn, y, hy⟩ := switched_name hs
  have ha := List.all_eq_true.1 switch_apart n hn
  rw [Bool.and_eq_true] at ha
  have hb : Without (defineWords ++ effectWords ++ condWords) ('\\' :: (w ++ x)) := fun v hv => by
    rw [hy]; exact apart_not (x := y) (List.all_eq_true.1 ha.1 v hv)
  obtain ⟨hpl, hcs⟩ := plain_head (x := y) ha.2 (show '\\' :: (w ++ x) = ('\\' :: n.toList) ++ y from hy)
  have hun : Undefined h w x := ⟨hw, hpl, Without.sub hb fun v hv => List.mem_append_left _ hv, hcs, hu⟩
  obtain ⟨e, h1, h2, h3⟩ := switched_handle hs
  refine ⟨0, fun m _ => ?_⟩
  rw [actAt_undefined hl _ m _ k toks space hun]
  unfold actIf actLegacy
  rw [Pre.cond_none (Without.sub hb fun v hv => List.mem_append_right _ hv)]
  simp only
  show (match (if true then Legacy.handle ('\\' :: (w ++ x)) else none) with | some (.error _) => _ | some (.ok (t, e)) => _ | none => _) = _
  rw [if_pos rfl, h1]
  simp only [if_pos h2, h3]

end L2J.Psr
