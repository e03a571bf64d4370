import Verif.Props.C62
import Verif.Props.C57
/-! C62, continued: commands with arguments. -/
namespace L2J.Fmt
open Defn Cmds L2J.Spec

theorem braces0_eats {x rest : Str} {g} (h : '}' ∉ x) : Eats braces0 ('{' :: (x ++ ['}'])) rest g g :=
  Eats.seq (x := ['{']) (Eats.lit _ _ _) (Eats.seq (Eats.star_chr _ (fun c hc => by simp; rintro rfl; exact h hc) (by simp)) (Eats.lit _ _ _))

theorem braces1_eats {x rest : Str} {g} (h0 : x ≠ []) (h : '}' ∉ x) : Eats braces1 ('{' :: (x ++ ['}'])) rest g g :=
  Eats.seq (x := ['{']) (Eats.lit _ _ _) (Eats.seq (Eats.plus_chr _ h0 (fun c hc => by simp; rintro rfl; exact h hc) (by simp)) (Eats.lit _ _ _))

theorem ws_eats {b : Re} {ws x rest : Str} {g g'} (hws : Blank ws) (hx : ∀ c ∈ (x ++ rest).head?, isSpace c = false) (h : Eats b x rest g g') : Eats (Fmt.ws b) (ws ++ x) rest g g' :=
  Eats.seq (Eats.spaces hws hx) h

/-- So many arguments. -/
def flatRe (b : Re) : Nat → Re
  | 0 => .eps
  | 1 => Fmt.ws b
  | n + 2 => Fmt.ws (.seq b (flatRe b (n + 1)))

theorem flat_eats {b : Re} {g} : ∀ (l : List (Str × Str)) (rest : Str), (∀ e ∈ l, Blank e.1) → (∀ e ∈ l, ∀ r, Eats b ('{' :: (e.2 ++ ['}'])) r g g) →
    Eats (flatRe b l.length) (wrapAll '{' '}' l) rest g g
  | [], rest, _, _ => Eats.eps rest g
  | [(s, a)], rest, h1, h2 => by
    have := ws_eats (h1 (s, a) (by simp)) (by simp; decide) (h2 (s, a) (by simp) rest)
    simpa [flatRe, wrapAll] using this
  | (s, a) :: e :: l, rest, h1, h2 => by
    have ih := flat_eats (b := b) (g := g) (e :: l) rest (fun x hx => h1 x (by simp [hx])) (fun x hx => h2 x (by simp [hx]))
    have := ws_eats (h1 (s, a) (by simp)) (by simp; decide) (Eats.seq (h2 (s, a) (by simp) (wrapAll '{' '}' (e :: l) ++ rest)) ih)
    simpa [flatRe, wrapAll] using this

theorem wrapAll_head {l : List (Str × Str)} {rest : Str} {P : Char → Prop} (h1 : ∀ e ∈ l, Blank e.1) (hs : ∀ c, isSpace c = true → P c) (hb : P '{') (hl : l ≠ []) :
    ∀ c ∈ (wrapAll '{' '}' l ++ rest).head?, P c := by
  cases l with
  | nil => exact absurd rfl hl
  | cons e l =>
    obtain ⟨s, a⟩ := e
    simp only [wrapAll, List.append_assoc]
    exact head_blank (h1 (s, a) (by simp)) hs (by simpa using hb)

@[simp] theorem endsWith_last (x : Str) (c d : Char) : endsWith (x ++ [c]) [d] = (d == c) := by
  simp [endsWith, List.isSuffixOf, List.isPrefixOf]

theorem locate_pairs {α} {ws : List (String × α)} {ps : List Nat} {f : String × α → Act × Alt} (h1 : (ws.map (·.1)).map (fun w => scanPos w.toList table 0) = ps.map some)
    (h2 : ps.map (fun i => table[i]?) = ws.map fun w => some (f w)) {w : String × α} (hw : w ∈ ws) : locate w.1.toList = some (f w) := by
  induction ws generalizing ps with
  | nil => cases hw
  | cons v ws ih =>
    cases ps with
    | nil => cases h1
    | cons i ps =>
      simp only [List.map_cons, List.cons.injEq] at h1 h2
      rcases List.mem_cons.1 hw with rfl | hw
      · exact locate_at h1.1 h2.1
      · exact ih h1.2 h2.2 hw

theorem flatWords_at {x : String × Nat} (hw : x ∈ flatWords) : locate x.1.toList = some (.drop, ⟨x.1.toList, flatRe braces0 x.2⟩) :=
  locate_pairs (f := fun x => (Act.drop, (⟨x.1.toList, flatRe braces0 x.2⟩ : Alt))) (ps := [18, 25, 77, 78, 79, 80, 81, 82, 83, 157, 174, 176, 192, 193, 195])
    (by decide +kernel) rfl hw

theorem flatWords1_at {x : String × Nat} (hw : x ∈ flatWords1) (h : x.1 ≠ "\\NeedsTeXFormat") : locate x.1.toList = some (.drop, ⟨x.1.toList, flatRe braces1 x.2⟩) := by
  have : x ∈ flatWords1.tail := by
    rcases List.mem_cons.1 hw with rfl | hw
    · exact absurd rfl h
    · exact hw
  exact locate_pairs (f := fun x => (Act.drop, (⟨x.1.toList, flatRe braces1 x.2⟩ : Alt))) (ps := [7, 90, 131, 136, 137, 138, 163, 173, 179, 180])
    (by decide +kernel) rfl this

theorem group_at {w : String} (hw : w ∈ groupWords) : locate w.toList = some (.nested, ⟨w.toList, wsOpen⟩) :=
  locate_all (f := fun w => (.nested, ⟨w.toList, wsOpen⟩)) (ps := [6, 9, 88, 200, 203, 229]) (by decide +kernel) rfl hw

theorem groups_at {x : String × Nat} (hw : x ∈ groupsWords) : locate x.1.toList = some (.blocks x.2, ⟨x.1.toList, wsOpen⟩) :=
  locate_pairs (f := fun x => (.blocks x.2, ⟨x.1.toList, wsOpen⟩)) (ps := [24, 133, 134, 196]) (by decide +kernel) rfl hw

theorem declare_at {x : String × Nat} (hw : x ∈ declareWords) : locate x.1.toList = some (.declare, ⟨x.1.toList, star? wsOpen⟩) :=
  locate_pairs (f := fun x => (.declare, ⟨x.1.toList, star? wsOpen⟩)) (ps := [139, 140, 141, 142, 143, 144]) (by decide +kernel) rfl hw

theorem flatWords_pos : ∀ x ∈ flatWords ++ flatWords1, 0 < x.2 := by decide +kernel

/-- C62: a layout command with its arguments leaves nothing, and nothing else is taken. -/
theorem C62_flat (fmt : Str → Option Str → Str) (w : String) (l : List (Str × Str)) (hw : (w, l.length) ∈ flatWords) (h1 : ∀ e ∈ l, Blank e.1) (h2 : ∀ e ∈ l, '}' ∉ e.2) (rest : Str) :
    handle fmt (w.toList ++ (wrapAll '{' '}' l ++ rest)) = .ok ⟨.nothing, w.toList.length + (wrapAll '{' '}' l).length, false⟩ := by
  have hl : l ≠ [] := by
    have := flatWords_pos _ (List.mem_append_left _ hw)
    intro h; rw [h] at this; simp at this
  have := handle_word fmt (flatWords_at hw) ((show ∀ w ∈ flatWords, notMake w.1.toList = true by decide +kernel) _ hw)
    (wrapAll_head (P := fun c => isNameChar c = false) h1 space_name (by decide) hl) (flat_eats l rest h1 fun e he r => braces0_eats (h2 e he))
  simpa [Act.run, Match.stop] using this

/-- C62: the same for commands whose arguments must not be empty. -/
theorem C62_flat1 (fmt : Str → Option Str → Str) (w : String) (l : List (Str × Str)) (hw : (w, l.length) ∈ flatWords1) (h1 : ∀ e ∈ l, Blank e.1) (h2 : ∀ e ∈ l, e.2 ≠ [] ∧ '}' ∉ e.2)
    (rest : Str) : handle fmt (w.toList ++ (wrapAll '{' '}' l ++ rest)) = .ok ⟨.nothing, w.toList.length + (wrapAll '{' '}' l).length, false⟩ := by
  have hl : l ≠ [] := by
    have := flatWords_pos _ (List.mem_append_right _ hw)
    intro h; rw [h] at this; simp at this
  have hn := (show ∀ w ∈ flatWords1, notMake w.1.toList = true by decide +kernel) _ hw
  have hX := wrapAll_head (rest := rest) (P := fun c => isNameChar c = false) h1 space_name (by decide) hl
  have he : ∀ g, Eats (flatRe braces1 l.length) (wrapAll '{' '}' l) rest g g := fun g => flat_eats l rest h1 fun e he r => braces1_eats (h2 e he).1 (h2 e he).2
  by_cases hc : w = "\\NeedsTeXFormat"
  · subst hc
    have hlen : l.length = 1 := by
      have := (show ∀ x ∈ flatWords1, x.1 = "\\NeedsTeXFormat" → x.2 = 1 by decide +kernel) _ hw rfl
      exact this
    match l, hlen, hX, he with
    | [(s, a)], _, hX, he =>
      have := handle_word fmt (locate_at (w := "\\NeedsTeXFormat".toList) (i := 1) (x := (.classSetup, ⟨"\\NeedsTeXFormat".toList, Fmt.ws braces1⟩)) (by decide +kernel) rfl) hn hX (he _)
      rw [this]
      unfold Act.run
      simp only
      rw [if_neg]
      · simp [Match.stop]
      · unfold Match.text
        simp only [wrapAll]
        generalize "\\NeedsTeXFormat".toList = w0
        rw [← List.append_assoc w0, ← List.length_append, List.take_left, show w0 ++ (s ++ '{' :: (a ++ ['}'])) = (w0 ++ (s ++ '{' :: a)) ++ ['}'] by simp, endsWith_last]
        decide
  · have := handle_word fmt (flatWords1_at hw hc) hn hX (he _)
    simpa [Act.run, Match.stop] using this

theorem open_eats {ws rest : Str} {g} (hws : Blank ws) : Eats wsOpen (ws ++ ['{']) rest g g := ws_eats hws (by simp; decide) (Eats.lit _ _ _)

/-- What begins with the brace a match ends with. -/
theorem nested_run (fmt : Str → Option Str → Str) {w t body rest : Str} {g} (hb : Wrappable '{' '}' body) :
    Act.nested.run fmt (w ++ ((t ++ ['{']) ++ (body ++ '}' :: rest))) ⟨[], w ++ ((t ++ ['{']) ++ (body ++ '}' :: rest)), w.length + (t ++ ['{']).length, g⟩ =
      .ok ⟨.nothing, w.length + t.length + (body.length + 2), false⟩ := by
  have hd : (w ++ ((t ++ ['{']) ++ (body ++ '}' :: rest))).drop (w.length + t.length) = '{' :: (body ++ '}' :: rest) := by
    rw [show w ++ ((t ++ ['{']) ++ (body ++ '}' :: rest)) = (w ++ t) ++ '{' :: (body ++ '}' :: rest) by simp, ← List.length_append, List.drop_left]
  unfold Act.run
  simp only [Match.stop, List.length_nil, List.length_append, List.length_cons, Nat.zero_add, show w.length + (t.length + 1) - 1 = w.length + t.length by omega, hd]
  unfold blockEnd
  rw [Style.extract_wrapped '{' '}' (by decide) (by decide) (by decide) body rest hb]

/-- C62: a layout command whose argument may have groups inside leaves nothing. -/
theorem C62_group (fmt : Str → Option Str → Str) (w : String) (hw : w ∈ groupWords) (ws body rest : Str) (hws : Blank ws) (hb : Wrappable '{' '}' body) :
    handle fmt (w.toList ++ (ws ++ '{' :: (body ++ '}' :: rest))) = .ok ⟨.nothing, w.toList.length + ws.length + (body.length + 2), false⟩ := by
  have := handle_word fmt (group_at hw) ((show ∀ w ∈ groupWords, notMake w.toList = true by decide +kernel) w hw)
    (t := ws ++ ['{']) (rest := body ++ '}' :: rest) (by rw [List.append_assoc]; exact head_blank hws space_name (by simp; decide)) (open_eats hws)
  rw [nested_run fmt hb] at this
  simpa using this

/-- So many groups, the first of which opens at the end of the match. -/
theorem blocks_at {w t : Str} {l : List (Str × Str)} {rest : Str} {a : Str} (hl : WellWrapped '{' '}' (([], a) :: l)) :
    (seqBlocks ((w ++ ((t ++ ['{']) ++ (a ++ '}' :: (wrapAll '{' '}' l ++ rest)))).drop (w.length + (t ++ ['{']).length - 1)) '{' '}' (some (l.length + 1))).2 =
      (wrapAll '{' '}' (([], a) :: l)).length := by
  rw [show w ++ ((t ++ ['{']) ++ (a ++ '}' :: (wrapAll '{' '}' l ++ rest))) = (w ++ t) ++ (wrapAll '{' '}' (([], a) :: l) ++ rest) by simp [wrapAll],
    show w.length + (t ++ ['{']).length - 1 = (w ++ t).length by simp, List.drop_left,
    show l.length + 1 = (([], a) :: l : List (Str × Str)).length by simp, seqBlocks_wrap '{' '}' (by decide) (by decide) (by decide) _ rest hl]

/-- C62: a layout command with several arguments that may have groups inside leaves nothing. -/
theorem C62_groups (fmt : Str → Option Str → Str) (w : String) (l : List (Str × Str)) (hw : (w, l.length) ∈ groupsWords) (hl : WellWrapped '{' '}' l) (rest : Str) :
    handle fmt (w.toList ++ (wrapAll '{' '}' l ++ rest)) = .ok ⟨.nothing, w.toList.length + (wrapAll '{' '}' l).length, false⟩ := by
  cases l with
  | nil => exact absurd ((show ∀ x ∈ groupsWords, 0 < x.2 by decide +kernel) _ hw) (by simp)
  | cons e l =>
    obtain ⟨ws, a⟩ := e
    have hws : Blank ws := (hl (ws, a) (by simp)).1
    have := handle_word fmt (groups_at hw) ((show ∀ w ∈ groupsWords, notMake w.1.toList = true by decide +kernel) _ hw)
      (t := ws ++ ['{']) (rest := a ++ '}' :: (wrapAll '{' '}' l ++ rest)) (by rw [List.append_assoc]; exact head_blank hws space_name (by simp; decide)) (open_eats hws)
    have e1 : w.toList ++ (wrapAll '{' '}' ((ws, a) :: l) ++ rest) = w.toList ++ ((ws ++ ['{']) ++ (a ++ '}' :: (wrapAll '{' '}' l ++ rest))) := by simp [wrapAll]
    rw [e1, this]
    unfold Act.run
    simp only [Match.stop, List.length_nil, Nat.zero_add]
    rw [show ((ws, a) :: l).length = l.length + 1 from rfl, blocks_at (by intro e he; rcases List.mem_cons.1 he with rfl | he; exact ⟨by simp, (hl (ws, a) (by simp)).2⟩; exact hl e (by simp [he]))]
    simp [wrapAll]; omega

theorem starOpen_eats {st ws rest : Str} {g} (hst : st = [] ∨ st = ['*']) (hws : Blank ws) : Eats (star? wsOpen) (st ++ (ws ++ ['{'])) rest g g := by
  rcases hst with rfl | rfl
  · exact Eats.seq (x := []) (Eats.optNone (Dead.char (by
      intro h
      have := head_blank (P := fun c => c ≠ '*') hws (fun c hc => by rintro rfl; revert hc; decide) (r := '{' :: rest) (by simp) '*' (by rw [List.append_assoc] at h; exact h)
      exact this rfl))) (open_eats hws)
  · exact Eats.seq (x := ['*']) (Eats.optSome (Eats.lit _ _ _)) (open_eats hws)

theorem declare_count : ∀ x ∈ declareWords, declareBlocks x.1.toList = x.2 := by decide +kernel

/-- C62: a font or option declaration with all its arguments leaves nothing. -/
theorem C62_declare (fmt : Str → Option Str → Str) (w : String) (st : Str) (l : List (Str × Str)) (hst : st = [] ∨ st = ['*']) (hw : (w, l.length) ∈ declareWords) (hl : WellWrapped '{' '}' l) (rest : Str) :
    handle fmt (w.toList ++ (st ++ (wrapAll '{' '}' l ++ rest))) = .ok ⟨.nothing, w.toList.length + (st.length + (wrapAll '{' '}' l).length), false⟩ := by
  cases l with
  | nil => exact absurd ((show ∀ x ∈ declareWords, 0 < x.2 by decide +kernel) _ hw) (by simp)
  | cons e l =>
    obtain ⟨ws, a⟩ := e
    have hws : Blank ws := (hl (ws, a) (by simp)).1
    have hX : NameEnds (st ++ (ws ++ ['{']) ++ (a ++ '}' :: (wrapAll '{' '}' l ++ rest))) := by
      rcases hst with rfl | rfl
      · rw [List.nil_append, List.append_assoc]; exact head_blank hws space_name (by simp; decide)
      · intro c hc; simp at hc; subst hc; decide
    have := handle_word fmt (declare_at hw) ((show ∀ w ∈ declareWords, notMake w.1.toList = true by decide +kernel) _ hw)
      (t := st ++ (ws ++ ['{'])) (rest := a ++ '}' :: (wrapAll '{' '}' l ++ rest)) hX (starOpen_eats hst hws)
    have e1 : w.toList ++ (st ++ (wrapAll '{' '}' ((ws, a) :: l) ++ rest)) = w.toList ++ ((st ++ (ws ++ ['{'])) ++ (a ++ '}' :: (wrapAll '{' '}' l ++ rest))) := by simp [wrapAll]
    rw [e1, this]
    unfold Act.run
    simp only [Match.stop, Match.group, List.length_nil, Nat.zero_add]
    rw [show ((([(0, w.toList)] : List (Nat × Str)).find? (fun x => x.1 == 0)).map (·.2)).getD [] = w.toList from rfl, declare_count _ hw,
      show ((ws, a) :: l).length = l.length + 1 from rfl, show st ++ (ws ++ ['{']) = (st ++ ws) ++ ['{'] by simp,
      blocks_at (by intro e he; rcases List.mem_cons.1 he with rfl | he; exact ⟨by simp, (hl (ws, a) (by simp)).2⟩; exact hl e (by simp [he]))]
    simp [wrapAll]; omega

end L2J.Fmt
