import Verif.Props.C62e
/-! C62, continued: lengths with values, optional arguments, and where the property fails. -/
namespace L2J.Fmt
open Defn Cmds L2J.Spec

/-- The units. -/
def _root_.L2J.Spec.lengthUnits : List String := ["pt", "mm", "cm", "in", "em", "ex", "sp", "bp", "dd", "cc", "nd", "nc"]

theorem unit_eats {u : String} (hu : u ∈ lengthUnits) (rest : Str) (g) : Eats pointUnits u.toList rest g g := by
  refine Eats.optSome (anyOf_hit (List.mem_map.2 ⟨u, hu, rfl⟩) ?_)
  intro v hv hne hp
  obtain ⟨v, hv2, rfl⟩ := List.mem_map.1 hv
  have key : ∀ u ∈ lengthUnits, u.toList.length = 2 := by decide +kernel
  obtain ⟨t, ht⟩ := hp
  exact hne (List.append_inj_left ht ((key v hv2).trans (key u hu).symm))

/-- A written length: a number, blanks, a unit. -/
structure _root_.L2J.Spec.LengthText where
  number : NumText
  ws : Str
  unit : String

def _root_.L2J.Spec.LengthText.written (x : LengthText) : Str := x.number.written ++ (x.ws ++ x.unit.toList)

def _root_.L2J.Spec.LengthText.Ok (x : LengthText) : Prop := x.number.Ok ∧ Blank x.ws ∧ x.unit ∈ lengthUnits

theorem unit_first {u : String} (hu : u ∈ lengthUnits) (X : Str) : ∀ c ∈ (u.toList ++ X).head?, isDigit c = false ∧ c ≠ '.' ∧ isSpace c = false := by
  have key : ∀ u ∈ lengthUnits, (u.toList.head?.any fun c => !isDigit c && c != '.' && !isSpace c) = true := by decide +kernel
  have h := key u hu
  intro d hd
  cases hx : u.toList with
  | nil => rw [hx] at h; simp at h
  | cons a b =>
    rw [hx] at h hd
    simp at hd h
    subst hd
    exact ⟨h.1.1, h.1.2, h.2⟩

theorem letterEnd_eats {rest : Str} {g} (hr : ∀ c ∈ rest.head?, isLetter c = false) : Eats (.nlook (.chr isLetter)) [] rest g g := by
  intro rev
  have : (Re.chr isLetter).run ⟨rev, rest, g⟩ = [] := Dead.chr isLetter hr rev g
  show (if ((Re.chr isLetter).run ⟨rev, rest, g⟩).isEmpty then [_] else []).head? = _
  rw [this]
  rfl

theorem space_digit_point (c : Char) (h : isSpace c = true) : isDigit c = false ∧ c ≠ '.' := by
  refine ⟨?_, by rintro rfl; revert h; decide⟩
  cases hd : isDigit c with
  | false => rfl
  | true => rw [Envs.digit_nospace c hd] at h; cases h

theorem points_eats {x : LengthText} (h : x.Ok) {rest : Str} {g} (hr : ∀ c ∈ rest.head?, isLetter c = false) : Eats pointsRe x.written rest g g := by
  obtain ⟨h1, h2, h3⟩ := h
  have e : x.written = x.number.written ++ (x.ws ++ (x.unit.toList ++ [])) := by simp [LengthText.written]
  rw [e]
  refine Eats.seq (num_eats h1 ?_) (Eats.seq (Eats.spaces h2 ?_) (Eats.seq (unit_eats h3 _ _) (letterEnd_eats hr)))
  · rw [List.append_nil, List.append_assoc]
    exact head_blank (P := fun c => isDigit c = false ∧ (x.number.fraction = none → c ≠ '.')) h2 (fun c hc => ⟨(space_digit_point c hc).1, fun _ => (space_digit_point c hc).2⟩)
      (fun c hc => ⟨(unit_first h3 rest c hc).1, fun _ => (unit_first h3 rest c hc).2.1⟩)
  · rw [List.append_nil]; exact fun c hc => (unit_first h3 rest c hc).2.2

theorem num_first {n : NumText} (h : n.Ok) (X : Str) : ∀ c ∈ (n.written ++ X).head?, isSpace c = false ∧ isNameChar c = false ∧ c ≠ '=' := by
  obtain ⟨c, t, e, hc⟩ := num_head h X
  intro d hd
  rw [e] at hd
  simp at hd
  subst hd
  rcases hc with rfl | rfl | rfl | hc
  · decide
  · decide
  · decide
  · refine ⟨Envs.digit_nospace _ hc, ?_, by rintro rfl; revert hc; decide⟩
    cases hn : isNameChar c with
    | false => rfl
    | true =>
      exfalso
      simp only [isDigit, isNameChar, isLetter, Bool.or_eq_true, Bool.and_eq_true, decide_eq_true_eq, beq_iff_eq] at hc hn
      have a1 : ('0' : Char).toNat = 48 := rfl
      have a2 : ('9' : Char).toNat = 57 := rfl
      rcases hn with (hn | hn) | hn
      · have := hc.2; have := hn.1; simp only [Char.le_def, UInt32.le_iff_toNat_le] at *; simp at *; omega
      · have := hc.2; have := hn.1; simp only [Char.le_def, UInt32.le_iff_toNat_le] at *; simp at *; omega
      · subst hn; revert hc; decide

theorem length_at {w : String} (hw : w ∈ lengthWords) : locate w.toList = some (.drop, ⟨w.toList, Fmt.ws (.opt (.seq (.opt (.lit ['='])) (Fmt.ws pointsRe)))⟩) :=
  locate_all (f := fun w => (.drop, ⟨w.toList, Fmt.ws (.opt (.seq (.opt (.lit ['='])) (Fmt.ws pointsRe)))⟩))
    (ps := [93, 94, 95, 96, 97, 98, 99, 100, 101, 102, 103, 104, 105, 106, 107, 108, 109, 110, 111]) (by decide +kernel) rfl hw

/-- C62: a length that is set leaves nothing: `\parindent=0pt`, `\textwidth 12.5 cm`. -/
theorem C62_length (fmt : Str → Option Str → Str) (w : String) (hw : w ∈ lengthWords) (ws1 eq ws2 : Str) (x : LengthText) (rest : Str) (h1 : Blank ws1) (h2 : Blank ws2)
    (he : eq = ['='] ∨ (eq = [] ∧ ws2 = [])) (hx : x.Ok) (hr : ∀ c ∈ rest.head?, isLetter c = false) :
    handle fmt (w.toList ++ ((ws1 ++ (eq ++ (ws2 ++ x.written))) ++ rest)) = .ok ⟨.nothing, w.toList.length + (ws1 ++ (eq ++ (ws2 ++ x.written))).length, false⟩ := by
  have hn : ∀ X, ∀ c ∈ (x.written ++ X).head?, isSpace c = false ∧ isNameChar c = false ∧ c ≠ '=' := by
    intro X; unfold LengthText.written; rw [List.append_assoc]; exact num_first hx.1 _
  have ht : ∀ g, Eats (Fmt.ws (.opt (.seq (.opt (.lit ['='])) (Fmt.ws pointsRe)))) (ws1 ++ (eq ++ (ws2 ++ x.written))) rest g g := by
    intro g
    rcases he with rfl | ⟨rfl, rfl⟩
    · refine ws_eats h1 (by simp; decide) (Eats.optSome (Eats.seq (Eats.optSome (Eats.lit _ _ _)) (ws_eats h2 ?_ (points_eats hx hr))))
      exact fun c hc => (hn rest c hc).1
    · refine ws_eats h1 ?_ (Eats.optSome (Eats.seq (Eats.optNone (Dead.char fun h => ?_)) (ws_eats h2 ?_ (points_eats hx hr))))
      · exact fun c hc => (hn rest c hc).1
      · exact (hn rest '=' h).2.2 rfl
      · exact fun c hc => (hn rest c hc).1
  have hX : NameEnds ((ws1 ++ (eq ++ (ws2 ++ x.written))) ++ rest) := by
    rw [List.append_assoc]
    refine head_blank h1 space_name ?_
    rcases he with rfl | ⟨rfl, rfl⟩
    · intro c hc; simp at hc; subst hc; decide
    · exact fun c hc => (hn rest c hc).2.1
  have := handle_word fmt (length_at hw) ((show ∀ w ∈ lengthWords, notMake w.toList = true by decide +kernel) w hw) hX (ht _)
  simpa [Act.run, Match.stop] using this

/-- C62: `\kern` and `\hskip` with a length; the second is a blank. -/
theorem C62_kern (fmt : Str → Option Str → Str) (ws : Str) (x : LengthText) (rest : Str) (hws : Blank ws) (hx : x.Ok) (hr : ∀ c ∈ rest.head?, isLetter c = false) :
    handle fmt ("\\kern".toList ++ ((ws ++ x.written) ++ rest)) = .ok ⟨.nothing, "\\kern".toList.length + (ws ++ x.written).length, false⟩ := by
  have hn : ∀ c ∈ (x.written ++ rest).head?, isSpace c = false ∧ isNameChar c = false ∧ c ≠ '=' := by
    unfold LengthText.written; rw [List.append_assoc]; exact num_first hx.1 _
  have := handle_word fmt (locate_at (w := "\\kern".toList) (i := 132) (x := (.drop, ⟨"\\kern".toList, Fmt.ws pointsRe⟩)) (by decide +kernel) rfl) (by decide +kernel)
    (t := ws ++ x.written) (rest := rest) (by rw [List.append_assoc]; exact head_blank hws space_name fun c hc => (hn c hc).2.1)
    (ws_eats hws (fun c hc => (hn c hc).1) (points_eats hx hr))
  rw [this]
  generalize "\\kern".toList = w
  simp [Act.run, Match.stop]

/-- C62: `\lineskip` with a length vanishes, and no number before it does. -/
theorem C62_lineskip (fmt : Str → Option Str → Str) (ws : Str) (x : LengthText) (rest : Str) (hws : Blank ws) (hx : x.Ok) (hr : ∀ c ∈ rest.head?, isLetter c = false) :
    handle fmt ("\\lineskip".toList ++ ((ws ++ x.written) ++ rest)) = .ok ⟨.nothing, "\\lineskip".toList.length + (ws ++ x.written).length, false⟩ := by
  have hn : ∀ c ∈ (x.written ++ rest).head?, isSpace c = false ∧ isNameChar c = false ∧ c ≠ '=' := by
    unfold LengthText.written; rw [List.append_assoc]; exact num_first hx.1 _
  have := handle_word fmt (locate_at (w := "\\lineskip".toList) (i := 113) (x := (.lineskip, ⟨"\\lineskip".toList, Fmt.ws pointsRe⟩)) (by decide +kernel) rfl) (by decide +kernel)
    (t := ws ++ x.written) (rest := rest) (by rw [List.append_assoc]; exact head_blank hws space_name fun c hc => (hn c hc).2.1)
    (ws_eats hws (fun c hc => (hn c hc).1) (points_eats hx hr))
  rw [this]
  unfold Act.run
  simp only [Match.text, Match.stop]
  have hf : startsWith (("\\lineskip".toList ++ ((ws ++ x.written) ++ rest)).take ("\\lineskip".toList.length + (ws ++ x.written).length)) "\\baselineskip".toList = false := by
    generalize ws ++ x.written = v
    rw [← List.length_append, ← List.append_assoc, List.take_left]
    simp [startsWith, List.isPrefixOf]
  rw [hf]
  simp

example : (⟨⟨['-'], "12".toList, some "5".toList⟩, [' '], "cm"⟩ : LengthText).Ok := by
  refine ⟨⟨by simp, by decide, by simp; decide, by simp⟩, by unfold Blank; decide, by decide⟩
example : handle (fun n _ => n) "\\parindent = -12.5 cm x".toList = .ok ⟨.nothing, 21, false⟩ := by decide +kernel

/-- C62: `\rowcolor`, `\columncolor`, `\cellcolor`. -/
theorem color_at {w : String} (hw : w ∈ ["\\rowcolor", "\\columncolor", "\\cellcolor"]) : locate w.toList = some (.drop, ⟨w.toList, star? (Fmt.ws (.seq optArg (Fmt.ws braces0)))⟩) :=
  locate_all (f := fun w => (.drop, ⟨w.toList, star? (Fmt.ws (.seq optArg (Fmt.ws braces0)))⟩)) (ps := [240, 241, 242]) (by decide +kernel) rfl hw

theorem optArg_eats {o : Option Str} {rest : Str} {g} (h : ∀ x ∈ o, ']' ∉ x) (hr : o = none → rest.head? ≠ some '[') : Eats optArg (bracketed o) rest g g := by
  cases o with
  | none => exact Eats.optNone (Dead.seq (Dead.char (hr rfl)))
  | some x =>
    exact Eats.optSome (Eats.seq (x := ['[']) (Eats.lit _ _ _) (Eats.seq (Eats.star_chr _ (fun c hc => by simp; rintro rfl; exact h x rfl hc) (by simp)) (Eats.lit _ _ _)))

theorem blank_bracket {ws X : Str} (hws : Blank ws) (hX : X.head? ≠ some '[') : (ws ++ X).head? ≠ some '[' := by
  intro h
  exact head_blank (P := fun c => c ≠ '[') hws (fun c hc => by rintro rfl; revert hc; decide) (r := X) (fun c hc => by rintro rfl; exact hX hc) '[' h rfl

/-- C62: a colour of a cell, with or without a model, leaves nothing. -/
theorem C62_color (fmt : Str → Option Str → Str) (w : String) (hw : w ∈ ["\\rowcolor", "\\columncolor", "\\cellcolor"]) (st ws1 : Str) (o : Option Str) (ws2 x rest : Str)
    (hst : st = [] ∨ st = ['*']) (h1 : Blank ws1) (ho : ∀ y ∈ o, ']' ∉ y) (h2 : Blank ws2) (ho2 : o = none → ws2 = []) (hx : '}' ∉ x) :
    handle fmt (w.toList ++ ((st ++ (ws1 ++ (bracketed o ++ (ws2 ++ '{' :: (x ++ ['}']))))) ++ rest)) =
      .ok ⟨.nothing, w.toList.length + (st ++ (ws1 ++ (bracketed o ++ (ws2 ++ '{' :: (x ++ ['}']))))).length, false⟩ := by
  have hb : ∀ c ∈ ((bracketed o ++ (ws2 ++ '{' :: (x ++ ['}']))) ++ rest).head?, isSpace c = false ∧ isNameChar c = false ∧ c ≠ '*' := by
    cases o with
    | none => rw [ho2 rfl]; intro c hc; simp [bracketed] at hc; subst hc; decide
    | some y => intro c hc; simp [bracketed] at hc; subst hc; decide
  have ht : ∀ g, Eats (star? (Fmt.ws (.seq optArg (Fmt.ws braces0)))) (st ++ (ws1 ++ (bracketed o ++ (ws2 ++ '{' :: (x ++ ['}']))))) rest g g := by
    intro g
    refine star_eats hst ?_ (ws_eats h1 (fun c hc => (hb c hc).1) (Eats.seq (optArg_eats ho ?_) (ws_eats h2 (by simp; decide) (braces0_eats hx))))
    · rw [List.append_assoc]; exact blank_star h1 fun h => (hb '*' h).2.2 rfl
    · intro _; rw [List.append_assoc]; exact blank_bracket h2 (by simp)
  have hX : NameEnds ((st ++ (ws1 ++ (bracketed o ++ (ws2 ++ '{' :: (x ++ ['}']))))) ++ rest) := by
    rw [List.append_assoc, List.append_assoc]; exact star_name hst h1 fun c hc => (hb c hc).2.1
  have := handle_word fmt (color_at hw) ((show ∀ w ∈ ["\\rowcolor", "\\columncolor", "\\cellcolor"], notMake w.toList = true by decide +kernel) w hw) hX (ht _)
  rw [this]
  simp [Act.run, Match.stop]

theorem setup_at {w : String} (hw : w ∈ ["\\hypersetup", "\\captionsetup"]) : locate w.toList = some (.nested, ⟨w.toList, .seq optArg wsOpen⟩) :=
  locate_all (f := fun w => (.nested, ⟨w.toList, .seq optArg wsOpen⟩)) (ps := [12, 13]) (by decide +kernel) rfl hw

/-- C62: `\hypersetup{options}`, `\captionsetup[type]{options}`. -/
theorem C62_setup (fmt : Str → Option Str → Str) (w : String) (hw : w ∈ ["\\hypersetup", "\\captionsetup"]) (o : Option Str) (ws body rest : Str) (ho : ∀ y ∈ o, ']' ∉ y) (hws : Blank ws)
    (hb : Wrappable '{' '}' body) :
    handle fmt (w.toList ++ (bracketed o ++ (ws ++ '{' :: (body ++ '}' :: rest)))) = .ok ⟨.nothing, w.toList.length + (bracketed o ++ ws).length + (body.length + 2), false⟩ := by
  have ht : ∀ g, Eats (.seq optArg wsOpen) ((bracketed o ++ ws) ++ ['{']) (body ++ '}' :: rest) g g := by
    intro g
    rw [List.append_assoc]
    exact Eats.seq (optArg_eats ho fun _ => by rw [List.append_assoc]; exact blank_bracket hws (by simp)) (open_eats hws)
  have hX : NameEnds (((bracketed o ++ ws) ++ ['{']) ++ (body ++ '}' :: rest)) := by
    cases o with
    | none => simp only [bracketed, List.nil_append, List.append_assoc]; exact head_blank hws space_name (by simp; decide)
    | some y => intro c hc; simp [bracketed] at hc; subst hc; decide
  have := handle_word fmt (setup_at hw) ((show ∀ w ∈ ["\\hypersetup", "\\captionsetup"], notMake w.toList = true by decide +kernel) w hw) hX (ht _)
  rw [nested_run fmt hb] at this
  simpa using this

theorem contents_at {w : String} (hw : w ∈ ["\\addtocontents", "\\addtocounter", "\\newpagestyle", "\\renewpagestyle"]) : locate w.toList = some (.nested, ⟨w.toList, Fmt.ws (.seq braces0 wsOpen)⟩) :=
  locate_all (f := fun w => (.nested, ⟨w.toList, Fmt.ws (.seq braces0 wsOpen)⟩)) (ps := [19, 20, 86, 87]) (by decide +kernel) rfl hw

/-- C62: `\addtocontents{file}{text}`, `\addtocounter{name}{value}`, `\newpagestyle{name}{text}`. -/
theorem C62_contents (fmt : Str → Option Str → Str) (w : String) (hw : w ∈ ["\\addtocontents", "\\addtocounter", "\\newpagestyle", "\\renewpagestyle"]) (ws1 x ws2 body rest : Str)
    (h1 : Blank ws1) (hx : '}' ∉ x) (h2 : Blank ws2) (hb : Wrappable '{' '}' body) :
    handle fmt (w.toList ++ (ws1 ++ '{' :: (x ++ ['}'] ++ (ws2 ++ '{' :: (body ++ '}' :: rest))))) =
      .ok ⟨.nothing, w.toList.length + (ws1 ++ '{' :: (x ++ ['}'] ++ ws2)).length + (body.length + 2), false⟩ := by
  have ht : ∀ g, Eats (Fmt.ws (.seq braces0 wsOpen)) ((ws1 ++ '{' :: (x ++ ['}'] ++ ws2)) ++ ['{']) (body ++ '}' :: rest) g g := by
    intro g
    have := ws_eats h1 (by simp; decide) (Eats.seq (braces0_eats (x := x) (rest := (ws2 ++ ['{']) ++ (body ++ '}' :: rest)) (g := g) hx) (open_eats (rest := body ++ '}' :: rest) h2))
    simpa using this
  have hX : NameEnds (((ws1 ++ '{' :: (x ++ ['}'] ++ ws2)) ++ ['{']) ++ (body ++ '}' :: rest)) := by
    rw [List.append_assoc, List.append_assoc]; exact head_blank h1 space_name (by simp; decide)
  have := handle_word fmt (contents_at hw) ((show ∀ w ∈ ["\\addtocontents", "\\addtocounter", "\\newpagestyle", "\\renewpagestyle"], notMake w.toList = true by decide +kernel) w hw) hX (ht _)
  rw [nested_run fmt hb] at this
  simpa using this

end L2J.Fmt
