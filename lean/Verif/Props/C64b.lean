import Verif.Props.C64
import Verif.Spec.Preprocess
/-! C64: where the parts of the loop do nothing. -/
namespace L2J.Pre
open Cmds Defn L2J.Spec

theorem not_word {ws : List String} {s : Str} (h : Without ws s) {w : Str} (hw : w ∈ ws.map String.toList) : ¬ w <+: s := by
  obtain ⟨x, hx, rfl⟩ := List.mem_map.1 hw
  exact h x hx

theorem addto_none {s : Str} (h : Without effectWords s) : addtoRe.matchAt [] s = none :=
  (Dead.seq (Dead.lit (not_word h (by decide +kernel)))).matchAt []

theorem usepackage_none {s : Str} (h : Without effectWords s) : usepackageRe.matchAt [] s = none :=
  (Dead.seq (Dead.alt (Dead.lit (not_word h (by decide +kernel))) (Dead.lit (not_word h (by decide +kernel))))).matchAt []

theorem keyval_none {s : Str} (h : Without effectWords s) (alpha : Char → Bool) (keys : KeyVal.Defs) : KeyVal.handle alpha keys s = (keys, none, 0) := by
  have h1 : ¬ "\\define@key".toList <+: s := not_word h (by decide +kernel)
  have h2 : ¬ "\\setkeys".toList <+: s := not_word h (by decide +kernel)
  unfold KeyVal.handle KeyVal.matchKw startsWith
  rw [if_neg (by rw [List.isPrefixOf_iff_prefix]; exact h1), if_neg (by rw [List.isPrefixOf_iff_prefix]; exact h2)]

theorem define_words : ∀ k ∈ order, ∀ w ∈ k.words, w ∈ defineWords.map String.toList := by decide +kernel

theorem define_none {s : Str} (h : Without defineWords s) : Defn.canHandle s = false := by
  have key : ∀ l : List Defn.Kind, l ⊆ order → Defn.firstKind s l = none := by
    intro l
    induction l with
    | nil => intro _; rfl
    | cons k l ih =>
      intro hl
      unfold Defn.firstKind
      have hk : k ∈ order := hl (by simp)
      rw [(show Dead k.re s from Dead.seq (Dead.group 0 (anyOf_dead fun v hv => not_word h (define_words k hk v hv)))).matchAt []]
      exact ih fun x hx => hl (by simp [hx])
  unfold Defn.canHandle
  rw [key order (fun _ h => h)]
  rfl

theorem cond_none {s : Str} (h : Without condWords s) (ns : List Str) : Cond.handle ns s = .notHandled := by
  have h1 : ¬ "\\if".toList <+: s := not_word h (by decide +kernel)
  have h2 : ¬ "\\@if".toList <+: s := not_word h (by decide +kernel)
  have h3 : ¬ "\\IfFileExists".toList <+: s := not_word h (by decide +kernel)
  have t : ∀ {u v : Str}, ¬ u <+: s → u <+: v → ¬ v <+: s := fun hu huv hv => hu (huv.trans hv)
  have key : Cond.firstIf s (Cond.allIfs ns) = none := by
    have dead : ∀ x ∈ Cond.allIfs ns, x.2.1.matchAt [] s = none := by
      intro x hx
      unfold Cond.allIfs at hx
      rcases List.mem_append.1 hx with hx | hx
      · obtain ⟨n, _, rfl⟩ := List.mem_map.1 hx
        exact (Dead.seq (Dead.lit (t h1 ⟨n, rfl⟩))).matchAt []
      · unfold Cond.defaults at hx
        simp only [List.mem_cons, List.not_mem_nil, or_false] at hx
        rcases hx with rfl | rfl | rfl | rfl | rfl | rfl | rfl | rfl | rfl | rfl | rfl | rfl | rfl
        · exact (Dead.seq (Dead.lit (t h1 (by decide)))).matchAt []
        · exact (Dead.seq (Dead.lit (t h1 (by decide)))).matchAt []
        · exact (Dead.seq (Dead.lit h1)).matchAt []
        · exact (Dead.seq (Dead.lit (t h1 (by decide)))).matchAt []
        · exact (Dead.seq (Dead.lit (t h1 (by decide)))).matchAt []
        · exact (Dead.seq (Dead.lit (t h1 (by decide)))).matchAt []
        · exact (Dead.seq (Dead.lit (t h1 (by decide)))).matchAt []
        · exact (Dead.seq (Dead.lit h3)).matchAt []
        · exact (Dead.seq (Dead.lit (t h2 (by decide)))).matchAt []
        · exact (Dead.seq (Dead.lit (t h2 (by decide)))).matchAt []
        · exact (Dead.seq (Dead.lit (t h2 (by decide)))).matchAt []
        · exact (Dead.seq (Dead.lit (t h2 (by decide)))).matchAt []
        · exact (Cond.ifRe_dead2 h1 h2).matchAt []
    generalize Cond.allIfs ns = l at dead
    induction l with
    | nil => rfl
    | cons x l ih =>
      unfold Cond.firstIf
      rw [dead x (by simp)]
      exact ih fun y hy => dead y (by simp [hy])
  unfold Cond.handle
  rw [key]

theorem csname_none {s : Str} (h : ¬ "\\csname".toList <+: s) : handleCsname s = (s, 0) := by
  unfold handleCsname
  rw [(show Dead csnameRe s from Dead.seq (Dead.seq (Dead.lit h))).matchAt []]

/-- What the definitions say about a state. -/
structure Known {V} (cfg : Cfg V) (h : List (Def × Bool)) (st : St V) : Prop where
  reg : registerAll cfg.cmds Proc.empty h = some (.ok st.proc)
  plain : ∀ x ∈ h, PlainDef x.1
  ifs : st.ifs = (h.reverse.filterMap fun x => match x.1 with | .newif n => some n | _ => none)

theorem Known.eqn {V} {cfg : Cfg V} {h} {st : St V} (k : Known cfg h st) (e) : Known cfg h { st with eqn := e } := ⟨k.reg, k.plain, k.ifs⟩

/-- No definition has a say. -/
theorem user_none {V} {cfg : Cfg V} {h} {st : St V} (k : Known cfg h st) {s : Str} (hs : ¬ "\\csname".toList <+: s)
    (hd : ∀ x ∈ h, ∀ rev g, (x.1.usage cfg.cmds).run ⟨rev, s, g⟩ = []) : (st.proc.handle cfg.cmds s) = (s, 0) := by
  have hf : firstMatch s st.proc.entries = none := by
    refine firstMatch_none _ (fun e he => ?_)
    obtain ⟨⟨key, hk⟩, _⟩ := entries_mem he
    obtain ⟨b, hb⟩ := mem_dict hk
    obtain ⟨⟨d, sty⟩, hx, p0, _, hent⟩ := origin k.reg b (key, e) hb
    cases hm : e.pattern.matchAt [] s with
    | none => rfl
    | some m =>
      have := (entryOf_pattern hent).2.2 _ (matchAt_ne (by rw [hm]; simp))
      exact absurd (hd _ hx [] []) this
  unfold Proc.handle
  rw [hf]
  exact csname_none hs

theorem user_text {V} {cfg : Cfg V} {h} {st : St V} (k : Known cfg h st) {s : Str} (hs : s.head? ≠ some '\\') : (st.proc.handle cfg.cmds s) = (s, 0) := by
  refine user_none k ?_ (fun x hx rev g => ?_)
  · rintro ⟨t, rfl⟩; exact hs rfl
  · by_cases hr : (x.1.usage cfg.cmds).run ⟨rev, s, g⟩ = []
    · exact hr
    · exact absurd (usage_slash (k.plain x hx) hr) hs

/-- A command no definition has given a meaning. -/
theorem user_word {V} {cfg : Cfg V} (hl : Letters cfg.cmds) {h} {st : St V} (k : Known cfg h st) {w rest : Str} (he : Ends w rest) (hc : ¬ "csname".toList <+: w ++ rest)
    (hm : ∀ x ∈ h, ¬ Meant x.1 w) : (st.proc.handle cfg.cmds ('\\' :: (w ++ rest))) = ('\\' :: (w ++ rest), 0) := by
  refine user_none k ?_ (fun x hx rev g => ?_)
  · rintro ⟨t, ht⟩
    exact hc ⟨t, by simpa using ht⟩
  · by_cases hr : (x.1.usage cfg.cmds).run ⟨rev, '\\' :: (w ++ rest), g⟩ = []
    · exact hr
    · exact absurd (usage_meant hl (k.plain x hx) he hr) (hm x hx)

/-- No formula begins here. -/
def _root_.L2J.Spec.OpensFormula (s : Str) : Prop :=
  "$".toList <+: s ∨ "\\[".toList <+: s ∨ "\\(".toList <+: s ∨ ∃ n ∈ formulaEnvs, ∃ w star, (∀ c ∈ w, isSpace c = true) ∧ tag "\\begin".toList w n.toList star <+: s
def _root_.L2J.Spec.NoFormula (s : Str) : Prop := ¬ OpensFormula s ∨ Unclosed s

theorem math_none {V} {cfg : Cfg V} (ho : SomeOrder cfg.order) {s : Str} (h : NoFormula s) (fuel : Nat) (e : Eqn.State V) :
    Eqn.handle cfg.order id cfg.eqFmt cfg.env fuel e s = .ok e none 0 := by
  rcases h with h | h
  · have hk : Eqn.firstKind s (Eqn.kinds cfg.order) = none := by
      unfold Eqn.kinds
      rw [Eqn.firstKind_skip]
      · have hd : ¬ "$".toList <+: s := fun x => h (.inl x)
        have hdd : ¬ "$$".toList <+: s := fun x => hd ((by decide : "$".toList <+: "$$".toList).trans x)
        have hb : ¬ "\\[".toList <+: s := fun x => h (.inr (.inl x))
        have hp : ¬ "\\(".toList <+: s := fun x => h (.inr (.inr (.inl x)))
        have f : ∀ u : Str, ¬ u <+: s → startsWith s u = false := by
          intro u hu; unfold startsWith
          cases hh : u.isPrefixOf s with
          | false => rfl
          | true => exact absurd (List.isPrefixOf_iff_prefix.1 hh) hu
        simp only [Eqn.firstKind, Eqn.matchKind, f _ hd, f _ hdd, f _ hb, f _ hp, Bool.false_eq_true, if_false]
      · intro x hx
        obtain ⟨n, hn, rfl⟩ := (ho x).1 hx
        unfold Eqn.matchKind
        simp only
        cases hm : Eqn.matchTag "\\begin".toList n.toList s with
        | none => rfl
        | some e =>
          obtain ⟨w, star, r, hr, hw, _⟩ := Eqn.tag_inv hm
          exact absurd (.inr (.inr (.inr ⟨n, hn, w, star, hw, r, hr.symm⟩))) h
    unfold Eqn.handle
    rw [hk]
  · exact Eqn.C52_unclosed cfg.order ho id cfg.eqFmt cfg.env fuel e s h

theorem quotes_none {s : Str} (h : s.head? ≠ some '`') : quotes s = s := by
  have h1 : ¬ ['`', '`'] <+: s := by rintro ⟨t, rfl⟩; exact h rfl
  have h2 : ¬ ['`'] <+: s := by rintro ⟨t, rfl⟩; exact h rfl
  have e1 : quote doubleRe '"' s = s := by
    unfold quote doubleRe; rw [(Dead.seq (Dead.lit h1)).matchAt []]
  have e2 : quote singleRe '\'' s = s := by
    unfold quote singleRe; rw [(Dead.seq (Dead.lit h2)).matchAt []]
  unfold quotes
  rw [e1, e2]

/-- The layout handler does nothing here. -/
def NoLayout {V} (cfg : Cfg V) (s : Str) : Prop := ∃ b, Fmt.handle cfg.fmt s = .ok ⟨.nothing, 0, b⟩

theorem actIf_none {V} {st : St V} {s : Str} (h : Without condWords s) : actIf st s = .next st (s.take 1) (s.drop 1) := by
  unfold actIf; rw [cond_none h]

theorem manager_none {V} {cfg : Cfg V} {st : St V} {s : Str} (he : Without effectWords s) : manager cfg st s = (st, st.proc.handle cfg.cmds s) := by
  unfold manager; rw [keyval_none he]; rfl

theorem actCommand_none {V} {cfg : Cfg V} {st : St V} {s : Str} (he : Without effectWords s) (hu : st.proc.handle cfg.cmds s = (s, 0)) : actCommand cfg st s = actIf st s := by
  unfold actCommand; simp only [manager_none he, hu]; rfl

theorem actCommand_some {V} {cfg : Cfg V} {st : St V} {s : Str} (he : Without effectWords s) {t : Str} {e : Nat} (hu : st.proc.handle cfg.cmds s = (t, e)) (hp : 0 < e) :
    actCommand cfg st s = .next st [] (t ++ s.drop e) := by
  unfold actCommand; simp only [manager_none he, hu]; rw [if_pos hp]

theorem actFormat_none {V} {cfg : Cfg V} {st : St V} {s : Str} (hf : NoLayout cfg s) : actFormat cfg st s = actCommand cfg st s := by
  obtain ⟨b, hf⟩ := hf
  unfold actFormat; rw [hf]; rfl

theorem actPackage_none {V} {cfg : Cfg V} {st : St V} {s : Str} (he : Without effectWords s) : actPackage cfg st s = actFormat cfg st s := by
  unfold actPackage; rw [usepackage_none he]

theorem actDefine_none {V} {cfg : Cfg V} {st : St V} {s : Str} (he : Without effectWords s) (hd : Without defineWords s) : actDefine cfg st s = actFormat cfg st s := by
  unfold actDefine
  rw [define_none hd, keyval_none he]
  simp only [Bool.false_eq_true, if_false]
  exact actPackage_none he

theorem act_none {V} {cfg : Cfg V} (ho : SomeOrder cfg.order) {st : St V} {s : Str} (he : Without effectWords s) (hm : NoFormula s) (fuel : Nat) :
    act cfg fuel st s = actDefine cfg st (quotes s) := by
  unfold act
  rw [addto_none he]
  unfold actMath
  rw [math_none ho hm]
  rfl

end L2J.Pre
