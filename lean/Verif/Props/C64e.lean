import Verif.Props.C64d
/-! C64: formulas and layout commands. -/
namespace L2J.Pre
open Cmds Defn L2J.Spec

/-! Formulas. -/

/-- The equation handler takes this text for a formula, whatever follows it. -/
def Accepts {V} (cfg : Cfg V) (f : Str) : Prop :=
  ∀ (e : Eqn.State V) (rest : Str), ∃ e' tok N, ∀ fuel, N ≤ fuel → Eqn.handle cfg.order id cfg.eqFmt cfg.env fuel e (f ++ rest) = .ok e' tok f.length

theorem hit_dollar (s : Str) : firstHit none ('$' :: s) = some 0 := by
  unfold firstHit; rw [if_pos (by simp [hitAt])]

theorem formula_hit (w : Formula) (rest : Str) : firstHit none (w.render ++ rest) = some 0 ∧ addtoRe.matchAt [] (w.render ++ rest) = none ∧ 0 < w.render.length := by
  have dead : ∀ {c : Char} {t : Str}, c ≠ 'a' → addtoRe.matchAt [] ('\\' :: c :: t) = none := by
    intro c t hc
    refine (Dead.seq (Dead.lit ?_)).matchAt []
    rintro ⟨u, hu⟩
    have := congrArg (fun l => l[1]?) hu
    simp at this
    exact hc this.symm
  have dollar : ∀ t : Str, addtoRe.matchAt [] ('$' :: t) = none := by
    intro t
    refine (Dead.seq (Dead.lit ?_)).matchAt []
    rintro ⟨u, hu⟩
    have := congrArg (fun l => l[0]?) hu
    simp at this
  cases w with
  | inline b => exact ⟨hit_dollar _, dollar _, by simp [Formula.render]⟩
  | display b => exact ⟨hit_dollar _, dollar _, by simp [Formula.render]⟩
  | brackets b => exact ⟨hit_slash (s := '[' :: (b ++ "\\]".toList ++ rest)) (by simp; decide), dead (by decide), by simp [Formula.render]⟩
  | parens b => exact ⟨hit_slash (s := '(' :: (b ++ "\\)".toList ++ rest)) (by simp; decide), dead (by decide), by simp [Formula.render]⟩
  | env n w1 s1 b w2 s2 =>
    have e : (Formula.env n w1 s1 b w2 s2).render ++ rest = '\\' :: 'b' :: ("egin".toList ++ (w1 ++ '{' :: (n ++ ((if s1 then ['*'] else []) ++ ['}']))) ++ b ++ tag "\\end".toList w2 n s2 ++ rest) := rfl
    exact ⟨by rw [e]; exact hit_slash (by simp; decide), by rw [e]; exact dead (by decide), by simp [Formula.render, tag]⟩

theorem placeholder_harmless (n : Nat) : ∀ c ∈ mathPlaceholder n, Harmless c := by
  intro c hc
  unfold mathPlaceholder at hc
  simp only [List.mem_append] at hc
  have fixed : ∀ c ∈ "__MATH_BLOCK_".toList ++ "__".toList, Harmless c := by unfold Harmless; decide
  rcases hc with (hc | hc) | hc
  · exact fixed c (List.mem_append_left _ hc)
  · have := natStr_digits n c hc
    refine ⟨?_, ?_, ?_, ?_⟩ <;> (rintro rfl; revert this; decide)
  · exact fixed c (List.mem_append_right _ hc)

theorem Runs.formula {V} {cfg : Cfg V} (ho : SomeOrder cfg.order) {h} {st : St V} (k : Known cfg h st) (w : Formula) (ha : Accepts cfg w.render) (rest : Str) :
    ∃ e', ∀ st' out, Runs cfg { st with eqn := e', blocks := st.blocks ++ [(mathPlaceholder st.blocks.length, w.render)] } rest st' out →
      Runs cfg st (w.render ++ rest) st' (mathPlaceholder st.blocks.length ++ out) := by
  obtain ⟨e', tok, N, hN⟩ := ha st.eqn rest
  obtain ⟨h0, h1, h2⟩ := formula_hit w rest
  refine ⟨e', fun st' out hr => ?_⟩
  have k' : Known cfg h { st with eqn := e', blocks := st.blocks ++ [(mathPlaceholder st.blocks.length, w.render)] } := ⟨k.reg, k.plain, k.ifs⟩
  refine Runs.act (o := []) h0 ⟨N, fun n hn => ?_⟩ (Runs.chars (inert ho k') (placeholder_harmless _) hr)
  unfold Pre.act
  rw [h1]
  unfold actMath
  simp only [hN n hn, if_pos h2, List.take_left, List.drop_left]

theorem C64_formula_plain {V} (cfg : Cfg V) (ho : SomeOrder cfg.order) (w : Formula) (hw : w.Ok) (hb : strip w.body ≠ []) (hbs : '\\' ∉ w.body) (ht : w.Text (strip w.body)) : Accepts cfg w.render :=
  fun e rest => ⟨e, _, Eqn.C52_plain cfg.order ho cfg.eqFmt cfg.env e w hw hb hbs ht rest⟩

theorem C64_formula_empty {V} (cfg : Cfg V) (ho : SomeOrder cfg.order) (w : Formula) (hw : w.Ok) (hb : strip w.body = []) (hne : w ≠ .inline []) : Accepts cfg w.render :=
  fun e rest => ⟨e, _, 0, fun fuel _ => Eqn.C52_empty cfg.order ho id cfg.eqFmt cfg.env fuel e w hw hb hne rest⟩

/-! Layout commands. -/

/-- `t`, followed by `rest`, is a layout command, and `out` is left of it. -/
inductive _root_.L2J.Spec.Layout : Str → Str → Str → Prop
  | silent (w : String) (rest) : w ∈ silentWords → WordEnds rest → Layout w.toList rest []
  | line (w : String) (rest) : w ∈ lineWords → WordEnds rest → Layout w.toList rest ['\n']
  | blank (w : String) (rest) : w ∈ blankWords → NameEnds rest → Layout w.toList rest [' ']
  | flat (w : String) (l rest) : (w, l.length) ∈ flatWords → (∀ e ∈ l, Blank e.1) → (∀ e ∈ l, '}' ∉ e.2) → Layout (w.toList ++ wrapAll '{' '}' l) rest []
  | flat1 (w : String) (l rest) : (w, l.length) ∈ flatWords1 → (∀ e ∈ l, Blank e.1) → (∀ e ∈ l, e.2 ≠ [] ∧ '}' ∉ e.2) → Layout (w.toList ++ wrapAll '{' '}' l) rest []
  | group (w : String) (ws body rest) : w ∈ groupWords → Blank ws → Wrappable '{' '}' body → Layout (w.toList ++ (ws ++ '{' :: (body ++ ['}']))) rest []
  | groups (w : String) (l rest) : (w, l.length) ∈ groupsWords → WellWrapped '{' '}' l → Layout (w.toList ++ wrapAll '{' '}' l) rest []
  | vspace (st ws x rest) : st = [] ∨ st = ['*'] → Blank ws → '}' ∉ x → Layout ("\\vspace".toList ++ (st ++ (ws ++ '{' :: (x ++ ['}'])))) rest ['\n']
  | hspace (st ws x rest) : st = [] ∨ st = ['*'] → Blank ws → x ≠ [] → '}' ∉ x → Layout ("\\hspace".toList ++ (st ++ (ws ++ '{' :: (x ++ ['}'])))) rest [' ']
  | length (w : String) (ws : Str) (x : LengthText) (rest) : w ∈ lengthWords → Blank ws → x.Ok → (∀ c ∈ rest.head?, isLetter c = false) → Layout (w.toList ++ (ws ++ x.written)) rest []

/-- A layout command is nothing else. -/
structure Free (s : Str) : Prop where
  hit : firstHit none s = some 0
  effect : Without effectWords s
  define : Without defineWords s
  formula : NoFormula s
  quote : s.head? ≠ some '`'

/-- The word begins no other built-in command, and none begins it. -/
def free (w : Str) : Bool :=
  w.head? == some '\\' && (w.tail.head?.any fun c => !escapable c && c != '[' && c != '(') && !("\\begin".toList.isPrefixOf w) &&
    (defineWords ++ effectWords).all fun v => !((headCore v.toList).isPrefixOf w)

theorem without_word {ws : List String} (hs : ∀ v ∈ ws, v.toList.head? = some '\\') {w X : Str} (hw : w.head? = some '\\') (hX : NameEnds X) (h : ∀ v ∈ ws, ¬ headCore v.toList <+: w) : Without ws (w ++ X) := by
  intro v hv hp
  have h1 := hs v hv
  refine h v hv ?_
  revert hp h1
  generalize v.toList = u
  intro hp h1
  cases u with
  | nil => cases h1
  | cons a u =>
    cases w with
    | nil => cases hw
    | cons b w =>
      rw [List.cons_append, List.cons_prefix_cons] at hp
      simp at hw
      unfold headCore
      rw [List.cons_prefix_cons]
      exact ⟨hw.symm, takeWhile_prefix hp.2 hX⟩

theorem free_word {w X : Str} (hf : free w = true) (hX : NameEnds X) : Free (w ++ X) := by
  simp only [free, Bool.and_eq_true, beq_iff_eq, List.all_eq_true, Bool.not_eq_true', List.mem_append] at hf
  obtain ⟨⟨⟨h1, h2⟩, h3⟩, h4⟩ := hf
  have hp : ∀ v ∈ defineWords ++ effectWords, ¬ headCore v.toList <+: w := by
    intro v hv hp
    have := h4 v (List.mem_append.1 hv)
    rw [List.isPrefixOf_iff_prefix.2 hp] at this; cases this
  have hs : ∀ v ∈ defineWords ++ effectWords, v.toList.head? = some '\\' := fun v hv => words_slash _ (List.mem_map.2 ⟨v, List.mem_append_left _ hv, rfl⟩)
  have hwo := without_word hs h1 hX hp
  obtain ⟨c, t, rfl, hc⟩ : ∃ c t, w = '\\' :: c :: t ∧ (!escapable c && c != '[' && c != '(') = true := by
    cases w with
    | nil => cases h1
    | cons a w =>
      cases w with
      | nil => simp at h2
      | cons c t => simp at h1; exact ⟨c, t, by rw [h1], by simpa using h2⟩
  simp only [Bool.and_eq_true, Bool.not_eq_true', bne_iff_ne, ne_eq] at hc
  refine ⟨hit_slash (s := c :: t ++ X) (by simp [hc.1.1]), Without.sub hwo (fun w h => by simp [h]), Without.sub hwo (fun w h => by simp [h]), .inl ?_, by simp⟩
  rintro (⟨u, hu⟩ | ⟨u, hu⟩ | ⟨u, hu⟩ | ⟨n, _, v, star, hv, u, hu⟩)
  · simp at hu
  · simp at hu; exact hc.1.2 hu.1.symm
  · simp at hu; exact hc.2 hu.1.symm
  · have hp : "\\begin".toList <+: '\\' :: c :: t ++ X := by
      rw [← hu]; unfold tag; rw [List.append_assoc]; exact ⟨_, rfl⟩
    rcases Fmt.prefix_split hp with h | ⟨d, r, h, h'⟩
    · rw [List.isPrefixOf_iff_prefix.2 h] at h3; cases h3
    · obtain ⟨y, hy⟩ := h'
      have hd := hX d (by rw [← hy]; rfl)
      have : isNameChar d = true := by
        have hm : d ∈ "begin".toList := by
          have e : "begin".toList = c :: t ++ d :: r := by
            have := h; simpa using this
          rw [e]; simp
        exact (by decide : ∀ x ∈ "begin".toList, isNameChar x = true) d hm
      rw [hd] at this; cases this

theorem free_silent : ∀ w ∈ silentWords, free w.toList = true := by decide +kernel
theorem free_line : ∀ w ∈ lineWords, free w.toList = true := by decide +kernel
theorem free_blank : ∀ w ∈ blankWords, free w.toList = true := by decide +kernel
theorem free_flat : ∀ w ∈ flatWords, free w.1.toList = true := by decide +kernel
theorem free_flat1 : ∀ w ∈ flatWords1, free w.1.toList = true := by decide +kernel
theorem free_group : ∀ w ∈ groupWords, free w.toList = true := by decide +kernel
theorem free_groups : ∀ w ∈ groupsWords, free w.1.toList = true := by decide +kernel
theorem groups_pos : ∀ x ∈ groupsWords, 0 < x.2 := by decide +kernel
theorem free_length : ∀ w ∈ lengthWords, free w.toList = true := by decide +kernel
theorem free_vspace : free "\\vspace".toList = true := by decide +kernel
theorem free_hspace : free "\\hspace".toList = true := by decide +kernel

theorem free_pos {w : Str} (hf : free w = true) (x : Str) : 0 < (w ++ x).length := by
  cases w with
  | nil => cases hf
  | cons a w => simp

/-- What is done to a layout command. -/
def Laid {V} (cfg : Cfg V) (t rest out : Str) : Prop :=
  Free (t ++ rest) ∧ ∃ o, Fmt.handle cfg.fmt (t ++ rest) = .ok ⟨o, t.length, false⟩ ∧ 0 < t.length ∧ ((o = .text out ∧ out ≠ []) ∨ (o = .nothing ∧ out = []))

theorem laid_of {V} (cfg : Cfg V) {w x rest out : Str} {o : Fmt.Out} {n : Nat} (hf : free w = true) (hX : NameEnds (x ++ rest)) (h : Fmt.handle cfg.fmt (w ++ (x ++ rest)) = .ok ⟨o, n, false⟩)
    (hn : n = (w ++ x).length) (ho : (o = .text out ∧ out ≠ []) ∨ (o = .nothing ∧ out = [])) : Laid cfg (w ++ x) rest out := by
  subst hn
  unfold Laid
  rw [List.append_assoc]
  exact ⟨free_word hf hX, o, h, free_pos hf x, ho⟩

theorem laid_word {V} (cfg : Cfg V) {w rest out : Str} {o : Fmt.Out} {n : Nat} (hf : free w = true) (hX : NameEnds rest) (h : Fmt.handle cfg.fmt (w ++ rest) = .ok ⟨o, n, false⟩)
    (hn : n = w.length) (ho : (o = .text out ∧ out ≠ []) ∨ (o = .nothing ∧ out = [])) : Laid cfg w rest out := by
  have := laid_of cfg (x := []) hf hX h (by simpa using hn) ho
  simpa using this

theorem flat_ne {l : List (Str × Str)} {n : Nat} (hn : n = l.length) (h : 0 < n) : l ≠ [] := by
  intro h'; rw [h'] at hn; simp at hn; omega

theorem laid_silent {V} (cfg : Cfg V) (w : String) (rest : Str) (hw : w ∈ silentWords) (hr : WordEnds rest) : Laid cfg w.toList rest [] :=
  laid_word cfg (free_silent w hw) (Spec.WordEnds.name hr) (Fmt.C62_silent cfg.fmt w hw rest hr) rfl (.inr ⟨rfl, rfl⟩)
theorem laid_line {V} (cfg : Cfg V) (w : String) (rest : Str) (hw : w ∈ lineWords) (hr : WordEnds rest) : Laid cfg w.toList rest ['\n'] :=
  laid_word cfg (free_line w hw) (Spec.WordEnds.name hr) (Fmt.C62_line cfg.fmt w hw rest hr) rfl (.inl ⟨rfl, by simp⟩)
theorem laid_blank {V} (cfg : Cfg V) (w : String) (rest : Str) (hw : w ∈ blankWords) (hr : NameEnds rest) : Laid cfg w.toList rest [' '] :=
  laid_word cfg (free_blank w hw) hr (Fmt.C62_blank cfg.fmt w hw rest hr) rfl (.inl ⟨rfl, by simp⟩)
theorem laid_flat {V} (cfg : Cfg V) (w : String) (l) (rest : Str) (hw : (w, l.length) ∈ flatWords) (h1 : ∀ e ∈ l, Blank e.1) (h2 : ∀ e ∈ l, '}' ∉ e.2) :
    Laid cfg (w.toList ++ wrapAll '{' '}' l) rest [] :=
  laid_of cfg (w := w.toList) (free_flat (w, l.length) hw) (Fmt.wrapAll_head (P := fun c => isNameChar c = false) h1 space_name (by decide) (flat_ne rfl (Fmt.flatWords_pos (w, l.length) (List.mem_append_left _ hw))))
    (Fmt.C62_flat cfg.fmt w l hw h1 h2 rest) (by rw [List.length_append]) (.inr ⟨rfl, rfl⟩)
theorem laid_flat1 {V} (cfg : Cfg V) (w : String) (l) (rest : Str) (hw : (w, l.length) ∈ flatWords1) (h1 : ∀ e ∈ l, Blank e.1) (h2 : ∀ e ∈ l, e.2 ≠ [] ∧ '}' ∉ e.2) :
    Laid cfg (w.toList ++ wrapAll '{' '}' l) rest [] :=
  laid_of cfg (w := w.toList) (free_flat1 (w, l.length) hw) (Fmt.wrapAll_head (P := fun c => isNameChar c = false) h1 space_name (by decide) (flat_ne rfl (Fmt.flatWords_pos (w, l.length) (List.mem_append_right _ hw))))
    (Fmt.C62_flat1 cfg.fmt w l hw h1 h2 rest) (by rw [List.length_append]) (.inr ⟨rfl, rfl⟩)
theorem laid_group {V} (cfg : Cfg V) (w : String) (ws body rest : Str) (hw : w ∈ groupWords) (hws : Blank ws) (hb : Wrappable '{' '}' body) :
    Laid cfg (w.toList ++ (ws ++ '{' :: (body ++ ['}']))) rest [] := by
  have e : (ws ++ '{' :: (body ++ ['}'])) ++ rest = ws ++ '{' :: (body ++ '}' :: rest) := by simp
  exact laid_of cfg (free_group _ hw) (by rw [e]; exact head_blank hws space_name (by simp; decide)) (by rw [e]; exact Fmt.C62_group cfg.fmt w hw ws body rest hws hb)
    (by simp only [List.length_append, List.length_cons, List.length_nil]; omega) (.inr ⟨rfl, rfl⟩)
theorem laid_groups {V} (cfg : Cfg V) (w : String) (l) (rest : Str) (hw : (w, l.length) ∈ groupsWords) (hl : WellWrapped '{' '}' l) :
    Laid cfg (w.toList ++ wrapAll '{' '}' l) rest [] :=
  laid_of cfg (w := w.toList) (free_groups (w, l.length) hw) (Fmt.wrapAll_head (P := fun c => isNameChar c = false) (fun e he => (hl e he).1) space_name (by decide) (flat_ne rfl (groups_pos (w, l.length) hw)))
    (Fmt.C62_groups cfg.fmt w l hw hl rest) (by rw [List.length_append]) (.inr ⟨rfl, rfl⟩)
theorem laid_vspace {V} (cfg : Cfg V) (st ws x rest : Str) (hst : st = [] ∨ st = ['*']) (hws : Blank ws) (hx : '}' ∉ x) :
    Laid cfg ("\\vspace".toList ++ (st ++ (ws ++ '{' :: (x ++ ['}'])))) rest ['\n'] := by
  have := Fmt.C62_vspace cfg.fmt st ws x rest hst hws hx
  have f := free_vspace
  revert this f
  generalize "\\vspace".toList = kw
  intro this f
  exact laid_of cfg f (by rw [List.append_assoc, List.append_assoc]; exact Fmt.star_name hst hws (by intro c hc; simp at hc; subst hc; decide)) this
    (by simp only [List.length_append, List.length_cons, List.length_nil]) (.inl ⟨rfl, by simp⟩)
theorem laid_hspace {V} (cfg : Cfg V) (st ws x rest : Str) (hst : st = [] ∨ st = ['*']) (hws : Blank ws) (h0 : x ≠ []) (hx : '}' ∉ x) :
    Laid cfg ("\\hspace".toList ++ (st ++ (ws ++ '{' :: (x ++ ['}'])))) rest [' '] := by
  have := Fmt.C62_hspace cfg.fmt st ws x rest hst hws h0 hx
  have f := free_hspace
  revert this f
  generalize "\\hspace".toList = kw
  intro this f
  exact laid_of cfg f (by rw [List.append_assoc, List.append_assoc]; exact Fmt.star_name hst hws (by intro c hc; simp at hc; subst hc; decide)) this
    (by simp only [List.length_append, List.length_cons, List.length_nil]) (.inl ⟨rfl, by simp⟩)
theorem laid_length {V} (cfg : Cfg V) (w : String) (ws : Str) (x : LengthText) (rest : Str) (hw : w ∈ lengthWords) (hws : Blank ws) (hx : x.Ok) (hr : ∀ c ∈ rest.head?, isLetter c = false) :
    Laid cfg (w.toList ++ (ws ++ x.written)) rest [] := by
  have hn : ∀ c ∈ (x.written ++ rest).head?, isSpace c = false ∧ isNameChar c = false ∧ c ≠ '=' := by
    unfold LengthText.written; rw [List.append_assoc]; exact Fmt.num_first hx.1 _
  have := Fmt.C62_length cfg.fmt w hw ws [] [] x rest hws (by unfold Blank; simp) (.inr ⟨rfl, rfl⟩) hx hr
  simp only [List.nil_append] at this
  refine laid_of cfg (free_length _ hw) ?_ this (by simp only [List.length_append]) (.inr ⟨rfl, rfl⟩)
  rw [List.append_assoc]
  exact head_blank hws space_name fun c hc => (hn c hc).2.1

/-- What is known of a layout command. -/
theorem layout_step {V} (cfg : Cfg V) {t rest out : Str} (h : Layout t rest out) : Laid cfg t rest out := by
  cases h with
  | silent w _ hw hr => exact laid_silent cfg w _ hw hr
  | line w _ hw hr => exact laid_line cfg w _ hw hr
  | blank w _ hw hr => exact laid_blank cfg w _ hw hr
  | flat w l _ hw h1 h2 => exact laid_flat cfg w l _ hw h1 h2
  | flat1 w l _ hw h1 h2 => exact laid_flat1 cfg w l _ hw h1 h2
  | group w ws body _ hw hws hb => exact laid_group cfg w ws body _ hw hws hb
  | groups w l _ hw hl => exact laid_groups cfg w l _ hw hl
  | vspace st ws x _ hst hws hx => exact laid_vspace cfg st ws x _ hst hws hx
  | hspace st ws x _ hst hws h0 hx => exact laid_hspace cfg st ws x _ hst hws h0 hx
  | length w ws x _ hw hws hx hr => exact laid_length cfg w ws x _ hw hws hx hr

theorem Runs.layout {V} {cfg : Cfg V} (ho : SomeOrder cfg.order) {st st' : St V} {t rest o out : Str} (hl : Layout t rest o)
    (hr : Runs cfg st (o ++ rest) st' out) : Runs cfg st (t ++ rest) st' out := by
  obtain ⟨hf, r, h1, h2, h3⟩ := layout_step cfg hl
  refine Runs.act (o := []) hf.hit ⟨0, fun n _ => ?_⟩ hr
  rw [act_none ho hf.effect hf.formula, quotes_none hf.quote, actDefine_none hf.effect hf.define]
  unfold actFormat
  rw [h1]
  simp only [if_pos h2, List.drop_left]
  rcases h3 with ⟨rfl, _⟩ | ⟨rfl, rfl⟩
  · rfl
  · rfl

end L2J.Pre
