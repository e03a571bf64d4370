import Verif.Props.C62b
/-! C62, continued: spaces, equations, phantoms, numbers, lengths, and what goes wrong. -/
namespace L2J.Fmt
open Defn Cmds L2J.Spec

theorem star_eats {b : Re} {st x rest : Str} {g g'} (hst : st = [] ∨ st = ['*']) (hx : (x ++ rest).head? ≠ some '*') (h : Eats b x rest g g') : Eats (star? b) (st ++ x) rest g g' := by
  rcases hst with rfl | rfl
  · exact Eats.seq (x := []) (Eats.optNone (Dead.char hx)) h
  · exact Eats.seq (x := ['*']) (Eats.optSome (Eats.lit _ _ _)) h

theorem blank_star {ws X : Str} (hws : Blank ws) (hX : X.head? ≠ some '*') : (ws ++ X).head? ≠ some '*' := by
  intro h
  exact head_blank (P := fun c => c ≠ '*') hws (fun c hc => by rintro rfl; revert hc; decide) (r := X) (fun c hc => by rintro rfl; exact hX hc) '*' h rfl

theorem star_name {st ws X : Str} (hst : st = [] ∨ st = ['*']) (hws : Blank ws) (hX : NameEnds X) : NameEnds (st ++ (ws ++ X)) := by
  rcases hst with rfl | rfl
  · rw [List.nil_append]; exact head_blank hws space_name hX
  · intro c hc; simp at hc; subst hc; decide

/-- C62: `\vspace{length}` and `\vspace*{length}` are a newline. -/
theorem C62_vspace (fmt : Str → Option Str → Str) (st ws x rest : Str) (hst : st = [] ∨ st = ['*']) (hws : Blank ws) (hx : '}' ∉ x) :
    handle fmt ("\\vspace".toList ++ (st ++ (ws ++ '{' :: (x ++ ['}'])) ++ rest)) = .ok ⟨.text ['\n'], ("\\vspace".toList ++ (st ++ (ws ++ '{' :: (x ++ ['}'])))).length, false⟩ := by
  have := handle_word fmt (locate_at (w := "\\vspace".toList) (i := 204) (x := (.text ['\n'], ⟨"\\vspace".toList, star? (Fmt.ws braces0)⟩)) (by decide +kernel) rfl) (by decide +kernel)
    (t := st ++ (ws ++ '{' :: (x ++ ['}']))) (rest := rest) (by rw [List.append_assoc, List.append_assoc]; exact star_name hst hws (by intro c hc; simp at hc; subst hc; decide))
    (star_eats hst (by rw [List.append_assoc]; exact blank_star hws (by simp)) (ws_eats hws (by simp; decide) (braces0_eats hx)))
  rw [this]
  generalize "\\vspace".toList = w
  simp [Act.run, Match.stop]

/-- C62: `\hspace{length}` and `\hspace*{length}` are a blank. -/
theorem C62_hspace (fmt : Str → Option Str → Str) (st ws x rest : Str) (hst : st = [] ∨ st = ['*']) (hws : Blank ws) (h0 : x ≠ []) (hx : '}' ∉ x) :
    handle fmt ("\\hspace".toList ++ (st ++ (ws ++ '{' :: (x ++ ['}'])) ++ rest)) = .ok ⟨.text [' '], ("\\hspace".toList ++ (st ++ (ws ++ '{' :: (x ++ ['}'])))).length, false⟩ := by
  have := handle_word fmt (locate_at (w := "\\hspace".toList) (i := 128) (x := (.spacing, ⟨"\\hspace".toList, star? (Fmt.ws braces1)⟩)) (by decide +kernel) rfl) (by decide +kernel)
    (t := st ++ (ws ++ '{' :: (x ++ ['}']))) (rest := rest) (by rw [List.append_assoc, List.append_assoc]; exact star_name hst hws (by intro c hc; simp at hc; subst hc; decide))
    (star_eats hst (by rw [List.append_assoc]; exact blank_star hws (by simp)) (ws_eats hws (by simp; decide) (braces1_eats h0 hx)))
  rw [this]
  have hne : Match.text ⟨[], "\\hspace".toList ++ (st ++ (ws ++ '{' :: (x ++ ['}'])) ++ rest), "\\hspace".toList.length + (st ++ (ws ++ '{' :: (x ++ ['}']))).length, [(0, "\\hspace".toList)]⟩ ≠ "\\!".toList := by
    simp only [Match.text]
    intro h
    have := congrArg List.length h
    simp only [List.length_take, List.length_append] at this
    have h7 : "\\hspace".toList.length = 7 := by decide
    have h2 : "\\!".toList.length = 2 := by decide
    omega
  simp only [Act.run, hne, if_false]
  generalize "\\hspace".toList = w
  simp [Match.stop]

/-- What begins with the brace a match ends with. -/
theorem drop_brace (w t X : Str) : (w ++ ((t ++ ['{']) ++ X)).drop (w.length + (t ++ ['{']).length - 1) = '{' :: X := by
  rw [show w ++ ((t ++ ['{']) ++ X) = (w ++ t) ++ '{' :: X by simp, show w.length + (t ++ ['{']).length - 1 = (w ++ t).length by simp, List.drop_left]

/-- C62: `\ensuremath{formula}` is an equation of the formula. -/
theorem C62_ensuremath (fmt : Str → Option Str → Str) (ws body rest : Str) (hws : Blank ws) (hb : Wrappable '{' '}' body) :
    handle fmt ("\\ensuremath".toList ++ (ws ++ '{' :: (body ++ '}' :: rest))) = .ok ⟨.equation (some body), ("\\ensuremath".toList ++ (ws ++ '{' :: (body ++ ['}']))).length, false⟩ := by
  have := handle_word fmt (locate_at (w := "\\ensuremath".toList) (i := 201) (x := (.ensuremath, ⟨"\\ensuremath".toList, wsOpen⟩)) (by decide +kernel) rfl) (by decide +kernel)
    (t := ws ++ ['{']) (rest := body ++ '}' :: rest) (by rw [List.append_assoc]; exact head_blank hws space_name (by simp; decide)) (open_eats hws)
  have e : "\\ensuremath".toList ++ (ws ++ '{' :: (body ++ '}' :: rest)) = "\\ensuremath".toList ++ ((ws ++ ['{']) ++ (body ++ '}' :: rest)) := by
    generalize "\\ensuremath".toList = w; simp
  rw [e, this]
  generalize "\\ensuremath".toList = w
  unfold Act.run blockEnd
  simp only [Match.stop, List.length_nil, Nat.zero_add, drop_brace, Style.extract_wrapped '{' '}' (by decide) (by decide) (by decide) body rest hb]
  simp; omega

theorem phantom_at {w : String} (hw : w ∈ ["\\hphantom", "\\vphantom", "\\phantom"]) : locate w.toList = some (.phantom, ⟨w.toList, wsOpen⟩) :=
  locate_all (f := fun w => (.phantom, ⟨w.toList, wsOpen⟩)) (ps := [205, 206, 207]) (by decide +kernel) rfl hw

theorem starts_hphantom {w : String} (hw : w ∈ ["\\hphantom", "\\vphantom", "\\phantom"]) (ws X : Str) (g) :
    startsWith (Match.text ⟨[], w.toList ++ ((ws ++ ['{']) ++ X), w.toList.length + (ws ++ ['{']).length, g⟩) "\\hphantom".toList = (w == "\\hphantom") := by
  have : Match.text ⟨[], w.toList ++ ((ws ++ ['{']) ++ X), w.toList.length + (ws ++ ['{']).length, g⟩ = w.toList ++ (ws ++ ['{']) := by
    unfold Match.text
    simp only
    rw [← List.append_assoc, ← List.length_append, List.take_left]
  rw [this]
  simp only [List.mem_cons, List.not_mem_nil, or_false] at hw
  rcases hw with rfl | rfl | rfl
  · unfold startsWith
    rw [List.isPrefixOf_iff_prefix.2 ⟨_, rfl⟩]; decide
  · rfl
  · rfl

/-- C62: `\hphantom{x}` is as many blanks as `x` has characters, `\vphantom` and `\phantom` are a newline. -/
theorem C62_phantom (fmt : Str → Option Str → Str) (w : String) (hw : w ∈ ["\\hphantom", "\\vphantom", "\\phantom"]) (ws body rest : Str) (hws : Blank ws) (hb : Wrappable '{' '}' body) :
    handle fmt (w.toList ++ (ws ++ '{' :: (body ++ '}' :: rest))) =
      .ok ⟨.text (if w = "\\hphantom" then List.replicate body.length ' ' else ['\n']), (w.toList ++ (ws ++ '{' :: (body ++ ['}']))).length, false⟩ := by
  have := handle_word fmt (phantom_at hw) ((show ∀ w ∈ ["\\hphantom", "\\vphantom", "\\phantom"], notMake w.toList = true by decide +kernel) w hw)
    (t := ws ++ ['{']) (rest := body ++ '}' :: rest) (by rw [List.append_assoc]; exact head_blank hws space_name (by simp; decide)) (open_eats hws)
  have e : w.toList ++ (ws ++ '{' :: (body ++ '}' :: rest)) = w.toList ++ ((ws ++ ['{']) ++ (body ++ '}' :: rest)) := by simp
  rw [e, this]
  unfold Act.run
  simp only [Match.stop, List.length_nil, Nat.zero_add, drop_brace, Style.extract_wrapped '{' '}' (by decide) (by decide) (by decide) body rest hb, starts_hphantom hw]
  simp
  omega

/-- C62 fails for a `\hphantom` whose brace is not closed: the call raises. -/
theorem C62_violated_hphantom (fmt : Str → Option Str → Str) (ws X : Str) (hws : Blank ws) (h : extractNestedContent ('{' :: X) '{' '}' = none) :
    handle fmt ("\\hphantom".toList ++ (ws ++ '{' :: X)) = .error () := by
  have hw : "\\hphantom" ∈ ["\\hphantom", "\\vphantom", "\\phantom"] := by simp
  have := handle_word fmt (phantom_at hw) (by decide +kernel)
    (t := ws ++ ['{']) (rest := X) (by rw [List.append_assoc]; exact head_blank hws space_name (by simp; decide)) (open_eats hws)
  have e : "\\hphantom".toList ++ (ws ++ '{' :: X) = "\\hphantom".toList ++ ((ws ++ ['{']) ++ X) := by
    generalize "\\hphantom".toList = w; simp
  rw [e, this]
  unfold Act.run
  simp only [Match.stop, List.length_nil, Nat.zero_add, drop_brace, h, starts_hphantom hw]
  rfl

example : extractNestedContent "{x".toList '{' '}' = none := by decide +kernel

/-- C62: `\num[options]{number}` is the number as formatted. -/
theorem C62_num (fmt : Str → Option Str → Str) (o : Option Str) (ws x rest : Str) (ho : ∀ y ∈ o, ']' ∉ y) (hws : Blank ws) (hx : '}' ∉ x) :
    handle fmt ("\\num".toList ++ (bracketed o ++ (ws ++ '{' :: (x ++ ['}'])) ++ rest)) = .ok ⟨.text (fmt x o), ("\\num".toList ++ (bracketed o ++ (ws ++ '{' :: (x ++ ['}'])))).length, false⟩ := by
  have hX : NameEnds (bracketed o ++ (ws ++ '{' :: (x ++ ['}'])) ++ rest) := by
    cases o with
    | none => simp only [bracketed, List.nil_append, List.append_assoc]; exact head_blank hws space_name (by simp; decide)
    | some y => intro c hc; simp [bracketed] at hc; subst hc; decide
  have h1 : Eats (optGroupArg 1) (bracketed o) ((ws ++ '{' :: (x ++ ['}'])) ++ rest) [(0, "\\num".toList)] (optGroup 1 o ++ [(0, "\\num".toList)]) :=
    optBracket_eats 1 ho fun _ h => by
      rw [List.append_assoc] at h
      exact head_blank (P := fun c => c ≠ '[') hws (fun c hc => by rintro rfl; revert hc; decide) (r := '{' :: (x ++ ['}']) ++ rest) (by simp) '[' h rfl
  have := handle_word fmt (locate_at (w := "\\num".toList) (i := 149) (x := (.number, ⟨"\\num".toList, _⟩)) (by decide +kernel) rfl) (by decide +kernel)
    (t := bracketed o ++ (ws ++ '{' :: (x ++ ['}']))) (rest := rest) (g := (2, x) :: (optGroup 1 o ++ [(0, "\\num".toList)])) hX
    (Eats.seq h1 (ws_eats hws (by simp; decide) (inBraces_eats 2 hx)))
  rw [this]
  have g2 : ∀ X n, Match.group ⟨[], X, n, (2, x) :: (optGroup 1 o ++ [(0, "\\num".toList)])⟩ 2 = some x := by
    intro X n; simp [Match.group]
  have g1 : ∀ X n, Match.group ⟨[], X, n, (2, x) :: (optGroup 1 o ++ [(0, "\\num".toList)])⟩ 1 = o := by
    intro X n; cases o <;> simp [Match.group, optGroup]
  unfold Act.run
  simp only [g1, g2, Option.getD_some]
  generalize "\\num".toList = w
  simp [Match.stop]

/-- C62: a comment up to the end of its line leaves nothing. -/
theorem C62_comment (fmt : Str → Option Str → Str) (x rest : Str) (hx : '\n' ∉ x) (hr : ∀ c ∈ rest.head?, c = '\n') : handle fmt ('%' :: (x ++ rest)) = .ok ⟨.nothing, x.length + 1, false⟩ := by
  have hm := (Eats.seq (x := ['%']) (Eats.group 0 (Eats.lit ['%'] (x ++ rest) []))
    (Eats.star_chr (· != '\n') (x := x) (rest := rest) (fun c hc => by simp; rintro rfl; exact hx hc) (fun c hc => by simp [hr c hc]))).matchAt []
  unfold handle
  rw [handleWith_flat]
  have : firstAlt ('%' :: (x ++ rest)) (flat entries) = some (.drop, ⟨[], '%' :: (x ++ rest), x.length + 1, [(0, ['%'])]⟩) := by
    show firstAlt _ ((Act.drop, (⟨['%'], .star (.chr (· != '\n'))⟩ : Alt)) :: _) = _
    unfold firstAlt
    rw [show Alt.re (⟨['%'], .star (.chr (· != '\n'))⟩ : Alt) = _ from rfl]
    simp only [List.cons_append, List.nil_append, List.length_cons] at hm ⊢
    rw [Alt.re, hm]
  rw [this]
  simp [Act.run, Match.stop]

/-! Numbers and lengths. -/

/-- Where the longest run fails and the one before does not. -/
theorem charRuns_back {β} (p : Char → Bool) (g : List (Nat × Str)) (k : MSt → List β) {c : Char} {rest : Str} {r : β} (hc : p c = true) (hr : ∀ d ∈ rest.head?, p d = false) :
    ∀ (y rev : Str), (∀ d ∈ y, p d = true) → k ⟨c :: (y.reverse ++ rev), rest, g⟩ = [] → (k ⟨y.reverse ++ rev, c :: rest, g⟩).head? = some r →
      ((charRuns p g rev (y ++ c :: rest)).flatMap k).head? = some r
  | [], rev, _, h1, h2 => by
    have : charRuns p g (c :: rev) rest = [⟨c :: rev, rest, g⟩] := by
      cases rest with
      | nil => rfl
      | cons d rest => simp [charRuns, hr d (by simp)]
    simp only [List.nil_append, charRuns, hc, if_true, this, List.cons_append, List.flatMap_cons, List.flatMap_nil, List.append_nil]
    rw [show k ⟨c :: rev, rest, g⟩ = [] from h1, List.nil_append]
    exact h2
  | a :: y, rev, h0, h1, h2 => by
    have ih := charRuns_back p g k hc hr y (a :: rev) (fun d hd => h0 d (by simp [hd])) (by simpa using h1) (by simpa using h2)
    simp only [List.cons_append, charRuns, h0 a (by simp), if_true, List.flatMap_append]
    rw [List.head?_append, ih]
    rfl

/-- A whole number, where no digit and no point follows. -/
theorem digits_eats {x rest : Str} {g} (h0 : x ≠ []) (hx : ∀ c ∈ x, isDigit c = true) (hr : ∀ c ∈ rest.head?, isDigit c = false ∧ c ≠ '.') :
    Eats (.seq (.star (.chr isDigit)) (.seq (.opt (.lit ['.'])) (.plus (.chr isDigit)))) x rest g g := by
  intro rev
  obtain ⟨y, c, rfl⟩ : ∃ y c, x = y ++ [c] := ⟨x.dropLast, x.getLast h0, (List.dropLast_concat_getLast h0).symm⟩
  unfold Hd
  rw [show (Re.seq (.star (.chr isDigit)) (.seq (.opt (.lit ['.'])) (.plus (.chr isDigit)))).run ⟨rev, y ++ [c] ++ rest, g⟩ =
    ((Re.star (.chr isDigit)).run ⟨rev, y ++ [c] ++ rest, g⟩).flatMap (Re.seq (.opt (.lit ['.'])) (.plus (.chr isDigit))).run from rfl, run_star_chr]
  simp only [List.append_assoc, List.cons_append, List.nil_append, List.reverse_append, List.reverse_cons, List.reverse_nil]
  have hc : isDigit c = true := hx c (by simp)
  refine charRuns_back isDigit g _ hc (fun d hd => (hr d hd).1) y rev (fun d hd => hx d (by simp [hd])) ?_ ?_
  · have hd : Dead (.seq (.opt (.lit ['.'])) (.plus (.chr isDigit))) rest := by
      intro rev g
      rw [show (Re.seq (.opt (.lit ['.'])) (.plus (.chr isDigit))).run ⟨rev, rest, g⟩ = ((Re.lit ['.']).run ⟨rev, rest, g⟩ ++ [(⟨rev, rest, g⟩ : MSt)]).flatMap (Re.plus (.chr isDigit)).run from rfl,
        Dead.char (fun h => (hr '.' h).2 rfl) rev g]
      simp only [List.nil_append, List.flatMap_cons, List.flatMap_nil, List.append_nil]
      exact Dead.seq (Dead.chr isDigit fun c hc => (hr c hc).1) rev g
    exact hd _ _
  · have he : Eats (.seq (.opt (.lit ['.'])) (.plus (.chr isDigit))) ([] ++ [c]) rest g g :=
      Eats.seq (Eats.optNone (Dead.char (by simp; rintro rfl; revert hc; decide))) (Eats.plus_chr isDigit (by simp) (by simpa using hc) (fun d hd => (hr d hd).1))
    simpa [Hd] using he (y.reverse ++ rev)

/-- A written number: a sign, digits, and perhaps a point and more digits. -/
structure _root_.L2J.Spec.NumText where
  sign : Str
  whole : Str
  fraction : Option Str

def _root_.L2J.Spec.NumText.written (n : NumText) : Str := n.sign ++ (n.whole ++ match n.fraction with | none => [] | some d => '.' :: d)

def _root_.L2J.Spec.NumText.Ok (n : NumText) : Prop :=
  (n.sign = [] ∨ n.sign = ['-'] ∨ n.sign = ['+']) ∧ (∀ c ∈ n.whole, isDigit c = true) ∧ (∀ d ∈ n.fraction, d ≠ [] ∧ ∀ c ∈ d, isDigit c = true) ∧ (n.fraction = none → n.whole ≠ [])

theorem num_head {n : NumText} (h : n.Ok) (X : Str) : ∃ c t, n.written ++ X = c :: t ∧ (c = '-' ∨ c = '+' ∨ c = '.' ∨ isDigit c = true) := by
  obtain ⟨h1, h2, h3, h4⟩ := h
  unfold NumText.written
  rcases h1 with h | h | h
  · rw [h]
    cases hw : n.whole with
    | nil =>
      cases hf : n.fraction with
      | none => exact absurd hw (h4 hf)
      | some d => exact ⟨'.', _, rfl, by simp⟩
    | cons c t => exact ⟨c, _, rfl, .inr (.inr (.inr (h2 c (by rw [hw]; simp))))⟩
  · rw [h]; exact ⟨'-', _, rfl, by simp⟩
  · rw [h]; exact ⟨'+', _, rfl, by simp⟩

theorem num_eats {n : NumText} (h : n.Ok) {rest : Str} {g} (hr : ∀ c ∈ rest.head?, isDigit c = false ∧ (n.fraction = none → c ≠ '.')) : Eats numRe n.written rest g g := by
  obtain ⟨h1, h2, h3, h4⟩ := h
  have hbody : Eats (.seq (.star (.chr isDigit)) (.seq (.opt (.lit ['.'])) (.plus (.chr isDigit)))) (n.whole ++ match n.fraction with | none => [] | some d => '.' :: d) rest g g := by
    cases hf : n.fraction with
    | none =>
      simp only [List.append_nil]
      exact digits_eats (h4 hf) h2 (fun c hc => ⟨(hr c hc).1, (hr c hc).2 hf⟩)
    | some d =>
      exact Eats.seq (Eats.star_chr isDigit h2 (by simp; decide)) (Eats.seq (x := ['.']) (Eats.optSome (Eats.lit _ _ _)) (Eats.plus_chr isDigit (h3 d hf).1 (h3 d hf).2 (fun c hc => (hr c hc).1)))
  unfold numRe NumText.written
  rcases h1 with h | h | h
  · rw [h]
    refine Eats.seq (Eats.optNone (Dead.chr _ fun c hc => ?_)) hbody
    have hn := num_head (n := ⟨[], n.whole, n.fraction⟩) ⟨.inl rfl, h2, h3, h4⟩ rest
    cases hw : n.whole with
    | nil =>
      cases hf : n.fraction with
      | none => exact absurd hw (h4 hf)
      | some d => rw [hw, hf] at hc; simp at hc; subst hc; decide
    | cons a t =>
      rw [hw] at hc; simp at hc; subst hc
      have := h2 a (by rw [hw]; simp)
      simp only [Bool.or_eq_false_iff, beq_eq_false_iff_ne]
      constructor <;> (rintro rfl; revert this; decide)
  · rw [h]; exact Eats.seq (x := ['-']) (Eats.optSome (Eats.chr _ (by decide))) hbody
  · rw [h]; exact Eats.seq (x := ['+']) (Eats.optSome (Eats.chr _ (by decide))) hbody

end L2J.Fmt
