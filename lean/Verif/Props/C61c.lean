import Verif.Props.C61b
import Verif.Props.C55
import Verif.Lemmas.MinLen
/-! C61, continued: names written with `\csname`, `\@namedef`, `\expandafter`. -/
namespace L2J.Defn
open Cmds L2J.Spec L2J.EnvT

/-- No letter. -/
def noLetter : Option Char → Bool
  | some x => !isLetter x
  | none => true

theorem sharp_letter (w : Str) : Sharp noLetter (.seq (.lit w) (.nlook (.chr isLetter))) w := by
  intro rev rest
  rw [Re.matchAt_eq]
  conv => lhs; unfold Re.run
  rw [Re.run_lit]
  by_cases h : w.isPrefixOf rest = true
  · rw [if_pos h, h]
    simp only [List.flatMap_cons, List.flatMap_nil, List.append_nil, Bool.true_and, Re.run]
    rw [List.isPrefixOf_iff_prefix] at h
    obtain ⟨v, rfl⟩ := h
    simp only [List.drop_left]
    cases v with
    | nil => simp [noLetter]
    | cons x v =>
      by_cases hx : isLetter x = true
      · simp [hx, noLetter]
      · simp [hx, noLetter]
  · rw [if_neg h]
    simp [h]

theorem free_of_nobs {ok : Option Char → Bool} {w t : Str} (h : '\\' ∉ t) : CommandFree ok ('\\' :: w) t := by
  rintro u v rfl ⟨x, rfl, -⟩
  exact h (by simp)

theorem sub_nobs {r : Re} {f : Match → Str} (hd : ∀ c t, c ≠ '\\' → Dead r (c :: t)) : ∀ (t : Str) (rev : Str), '\\' ∉ t → r.subAux f 0 rev t = t
  | [], _, _ => by simp [Re.subAux]
  | c :: t, rev, h => by
    rw [Re.subAux_none _ _ _ _ _ ((hd c t (by rintro rfl; exact h (by simp))).matchAt rev), sub_nobs hd t _ (fun hx => h (by simp [hx]))]

theorem dead_bs {b : Re} {w : Str} (c : Char) (t : Str) (h : c ≠ '\\') : Dead (.seq (.lit ('\\' :: w)) b) (c :: t) := by
  refine Dead.seq (Dead.lit ?_)
  rintro ⟨u, hu⟩
  simp at hu
  exact h hu.1.symm

/-- The text between `\csname` and `\endcsname`. -/
theorem concat_hit {inner rest : Str} (hi : '\\' ∉ inner) (hh : ∀ c ∈ inner.head?, isLetter c = false) (hr : ∀ c ∈ rest.head?, isLetter c = false) :
    concatCsname ("\\csname".toList ++ (inner ++ ("\\endcsname".toList ++ rest))) = some (inner, ("\\csname".toList ++ (inner ++ "\\endcsname".toList)).length) := by
  have hx := extract_group (ok := noLetter) (b := startCsname) (e := endCsname) (o' := "csname".toList) (c' := "endcsname".toList) (sharp_letter _) (sharp_letter _) (by decide +kernel) (by decide +kernel) rfl rfl
    (by rintro v ⟨x, hx, -⟩; simp at hx) (body := inner) (.plain _ (free_of_nobs hi) (free_of_nobs hi)) (fun x hx => by simp [noLetter, hh x hx]) rest (fun x hx => by simp [noLetter, hr x hx])
  have hs : startCsname.matchAt [] ("\\csname".toList ++ (inner ++ ("\\endcsname".toList ++ rest))) ≠ none := by
    have := (sharp_letter "\\csname".toList).hit [] (inner ++ ("\\endcsname".toList ++ rest)) (by
      cases inner with
      | nil => rfl
      | cons c t => simp [noLetter, hh c (by simp)])
    unfold startCsname
    rw [this]; simp
  have e1 : '\\' :: "csname".toList = "\\csname".toList := by decide +kernel
  have e2 : '\\' :: "endcsname".toList = "\\endcsname".toList := by decide +kernel
  rw [e1, e2, List.append_assoc, List.append_assoc, List.append_assoc] at hx
  unfold concatCsname
  cases hm : startCsname.matchAt [] ("\\csname".toList ++ (inner ++ ("\\endcsname".toList ++ rest))) with
  | none => exact absurd hm hs
  | some m =>
    simp only
    rw [hx]
    simp only
    have d1 : startCsname.sub (fun _ => []) inner = inner := sub_nobs (fun c t h => dead_bs (w := "csname".toList) c t h) inner [] hi
    have d2 : endCsname.sub (fun _ => []) inner = inner := sub_nobs (fun c t h => dead_bs (w := "endcsname".toList) c t h) inner [] hi
    have d3 : expandRe.sub (fun _ => []) inner = inner := sub_nobs (fun c t h => dead_bs (w := []) c t h) inner [] hi
    rw [d1, d2, d3]

/-- A name as it may stand between `\csname` and `\endcsname`. -/
def _root_.L2J.Spec.CsWord (n : Str) : Prop := n ≠ [] ∧ ∀ c ∈ n, isSpace c = false ∧ c ≠ '{' ∧ c ≠ '}' ∧ c ≠ '#' ∧ c ≠ '\\'

theorem skipExpand_csname (X : Str) : Dead skipExpand ("\\csname".toList ++ X) := by
  refine Dead.spaces (ws := []) (s := "\\csname".toList ++ X) (by simp) (by simp; decide) (fun c t hc => Dead.seq (Dead.char (by intro he; simp at he; rw [he] at hc; exact absurd hc (by decide)))) ?_
  rw [show "\\csname".toList = ['\\'] ++ "csname".toList by decide +kernel, List.append_assoc]
  refine Dead.after_lit (Dead.seq (Dead.alt (Dead.lit ?_) (Dead.lit ?_)))
  · rintro ⟨t, ht⟩; simp at ht
  · rintro ⟨t, ht⟩; simp at ht

theorem csnames_one {pre inner rest : Str} (m : Nat) (hi : '\\' ∉ inner) (hh : ∀ c ∈ inner.head?, isLetter c = false) (hr : ∀ c ∈ rest.head?, isLetter c = false)
    (h0 : rest ≠ []) :
    csnames (pre ++ ("\\csname".toList ++ (inner ++ ("\\endcsname".toList ++ rest)))) 1 (m + 2) pre.length [] =
      some ((pre ++ ("\\csname".toList ++ (inner ++ "\\endcsname".toList))).length, [inner]) := by
  have hlen : 0 < rest.length := List.length_pos_iff.2 h0
  rw [csnames]
  rw [if_neg (by simp only [List.length_append]; omega), if_pos (by simp), List.drop_left, (skipExpand_csname _).matchAt, concat_hit hi hh hr]
  simp only
  rw [csnames]
  rw [if_neg (by simp only [List.length_append]; omega), if_neg (by simp)]
  simp only [List.length_append, List.nil_append]

theorem noBlanks_app {b n : Str} (hb : ∀ c ∈ b, c = ' ') (hn : ∀ c ∈ n, isSpace c = false) : noBlanks (b ++ n) = n := by
  unfold noBlanks
  rw [List.filter_append, List.filter_eq_nil_iff.2 (by intro c hc; simp [hb c hc]), List.nil_append, List.filter_eq_self.2]
  intro c hc
  simp; rintro rfl
  have := hn _ hc
  exact absurd this (by decide)

/-- A definition whose name is written `\csname…\endcsname`. -/
theorem defPrefix_csname (d : DefText) (b t : Str) (hw : d.word ∈ defTextWords) (hws : Blank d.ws) (hn : CsWord d.name) (hb : b ≠ []) (hbb : ∀ c ∈ b, c = ' ') (htb : ∀ c ∈ t, c = ' ')
    (hph : ∀ c ∈ d.params.head?, isSpace c = true ∨ c = '#') (hp : '{' ∉ d.params) (hbo : Wrappable '{' '}' d.body) (rest : Str) (g : List (Nat × Str)) :
    defPrefix false (d.word.toList ++ (d.ws ++ ("\\csname".toList ++ ((b ++ (d.name ++ t)) ++ ("\\endcsname".toList ++ (d.params ++ '{' :: (d.body ++ '}' :: rest)))))))
      ⟨[], d.word.toList ++ (d.ws ++ ("\\csname".toList ++ ((b ++ (d.name ++ t)) ++ ("\\endcsname".toList ++ (d.params ++ '{' :: (d.body ++ '}' :: rest)))))), d.word.toList.length + (d.ws.length + 1), g⟩ =
    .ok (some (.cmd (.def_ d.name (strip d.params) d.body (expandsBody d.word) (some (b ++ (d.name ++ t))))),
      (d.word.toList ++ (d.ws ++ ("\\csname".toList ++ ((b ++ (d.name ++ t)) ++ ("\\endcsname".toList ++ (d.params ++ '{' :: (d.body ++ ['}']))))))).length) := by
  obtain ⟨fm, h1, h2⟩ := def_read d (some (b ++ (d.name ++ t))) hw hws hn.1 (fun c hc => ⟨(hn.2 c hc).1, (hn.2 c hc).2.1, (hn.2 c hc).2.2.2.1⟩)
    (fun hx => (hn.2 _ hx).2.2.2.2 rfl) hph hp hbo rest
  have hi : '\\' ∉ b ++ (d.name ++ t) := by
    intro hx
    simp only [List.mem_append] at hx
    rcases hx with hx | hx | hx
    · exact absurd (hbb _ hx) (by decide)
    · exact (hn.2 _ hx).2.2.2.2 rfl
    · exact absurd (htb _ hx) (by decide)
  have hh : ∀ c ∈ (b ++ (d.name ++ t)).head?, isLetter c = false := by
    cases b with
    | nil => exact absurd rfl hb
    | cons x b => intro c hc; simp at hc; subst hc; rw [hbb x (by simp)]; decide
  have hr : ∀ c ∈ (d.params ++ '{' :: (d.body ++ '}' :: rest)).head?, isLetter c = false ∧ c ≠ '\\' := by
    cases hq : d.params with
    | nil => simp; decide
    | cons a q =>
      intro c hc; simp at hc; subst hc
      rcases hph a (by rw [hq]; simp) with h | h
      · exact ⟨space_letter a h, by rintro rfl; exact absurd h (by decide)⟩
      · rw [h]; decide
  have hcs := csnames_one (pre := d.word.toList ++ d.ws) ((d.word.toList ++ (d.ws ++ ("\\csname".toList ++ ((b ++ (d.name ++ t)) ++ ("\\endcsname".toList ++ (d.params ++ '{' :: (d.body ++ '}' :: rest))))))).length - 1)
    hi hh (fun c hc => (hr c hc).1) (by simp)
  have hbl : noBlanks (b ++ (d.name ++ t)) = d.name := by
    have := noBlanks_app (b := b) (n := d.name) hbb (fun c hc => (hn.2 c hc).1)
    unfold noBlanks at *
    rw [← List.append_assoc, List.filter_append, this, List.filter_eq_nil_iff.2 (by intro c hc; simp [htb c hc]), List.append_nil]
  generalize hR : d.params ++ '{' :: (d.body ++ '}' :: rest) = R at *
  generalize hI : b ++ (d.name ++ t) = I at *
  have hpre : (Match.text ⟨[], d.word.toList ++ (d.ws ++ ("\\csname".toList ++ (I ++ ("\\endcsname".toList ++ R)))), d.word.toList.length + (d.ws.length + 1), g⟩).dropLast = d.word.toList ++ d.ws := by
    unfold Match.text
    simp only
    rw [show d.word.toList ++ (d.ws ++ ("\\csname".toList ++ (I ++ ("\\endcsname".toList ++ R)))) = (d.word.toList ++ d.ws ++ ['\\']) ++ ("csname".toList ++ (I ++ ("\\endcsname".toList ++ R))) by
      rw [show "\\csname".toList = ['\\'] ++ "csname".toList by decide +kernel]; simp only [List.append_assoc], List.take_left' (by simp), List.dropLast_concat]
  have hstop : Match.stop ⟨[], d.word.toList ++ (d.ws ++ ("\\csname".toList ++ (I ++ ("\\endcsname".toList ++ R)))), d.word.toList.length + (d.ws.length + 1), g⟩ - 1 = (d.word.toList ++ d.ws).length := by
    simp [Match.stop]
  unfold defPrefix
  rw [hpre, hstop]
  have hfuel : (d.word.toList ++ (d.ws ++ ("\\csname".toList ++ (I ++ ("\\endcsname".toList ++ R))))).length + 1 =
      (d.word.toList ++ (d.ws ++ ("\\csname".toList ++ (I ++ ("\\endcsname".toList ++ R))))).length - 1 + 2 := by
    have : 0 < "\\csname".toList.length := by decide +kernel
    simp only [List.length_append]; omega
  rw [hfuel]
  rw [List.append_assoc] at hcs
  simp only [Bool.false_eq_true, if_false]
  rw [hcs]
  simp only [List.isEmpty_cons, Bool.false_eq_true, if_false, List.flatMap_cons, List.flatMap_nil, List.append_nil, hbl, List.head?_cons]
  have hat : (d.word.toList ++ (d.ws ++ ("\\csname".toList ++ (I ++ ("\\endcsname".toList ++ R)))))[(d.word.toList ++ (d.ws ++ ("\\csname".toList ++ (I ++ "\\endcsname".toList)))).length]? ≠ some '\\' := by
    rw [show d.word.toList ++ (d.ws ++ ("\\csname".toList ++ (I ++ ("\\endcsname".toList ++ R)))) = (d.word.toList ++ (d.ws ++ ("\\csname".toList ++ (I ++ "\\endcsname".toList)))) ++ R by
      simp only [List.append_assoc], List.getElem?_append_right (Nat.le_refl _), Nat.sub_self, ← List.head?_eq_getElem?]
    intro hx
    exact (hr '\\' hx).2 rfl
  have hdrop : (d.word.toList ++ (d.ws ++ ("\\csname".toList ++ (I ++ ("\\endcsname".toList ++ R))))).drop (d.word.toList ++ (d.ws ++ ("\\csname".toList ++ (I ++ "\\endcsname".toList)))).length = R := by
    rw [show d.word.toList ++ (d.ws ++ ("\\csname".toList ++ (I ++ ("\\endcsname".toList ++ R)))) = (d.word.toList ++ (d.ws ++ ("\\csname".toList ++ (I ++ "\\endcsname".toList)))) ++ R by
      simp only [List.append_assoc], List.drop_left]
  rw [show (d.word.toList ++ d.ws ++ ("\\csname".toList ++ (I ++ "\\endcsname".toList))) = (d.word.toList ++ (d.ws ++ ("\\csname".toList ++ (I ++ "\\endcsname".toList)))) from List.append_assoc _ _ _]
  rw [if_neg hat, hdrop, show d.word.toList ++ d.ws ++ '\\' :: d.name ++ R = d.word.toList ++ (d.ws ++ '\\' :: (d.name ++ R)) by simp, h1]
  simp only
  rw [show (d.word.toList ++ d.ws).length + 1 = d.word.toList.length + d.ws.length + 1 by simp, h2]
  simp only
  refine congrArg Except.ok (Prod.ext rfl ?_)
  simp only [DefText.written, List.length_append, List.length_cons, List.length_nil]
  omega

/-- C61: a definition whose name is written `\csname name\endcsname`. -/
theorem C61_csname (d : DefText) (b : Str) (hw : d.word ∈ defTextWords) (hws : Blank d.ws) (hn : CsWord d.name) (hb : b ≠ []) (hbb : ∀ c ∈ b, c = ' ')
    (hph : ∀ c ∈ d.params.head?, isSpace c = true ∨ c = '#') (hp : '{' ∉ d.params) (hbo : Wrappable '{' '}' d.body) (rest : Str) :
    handle (d.word.toList ++ (d.ws ++ ("\\csname".toList ++ ((b ++ d.name) ++ ("\\endcsname".toList ++ (d.params ++ '{' :: (d.body ++ '}' :: rest))))))) =
    .ok (some (.cmd (.def_ d.name (strip d.params) d.body (expandsBody d.word) (some (b ++ d.name)))),
      (d.word.toList ++ (d.ws ++ ("\\csname".toList ++ ((b ++ d.name) ++ ("\\endcsname".toList ++ (d.params ++ '{' :: (d.body ++ ['}']))))))).length) := by
  have h := defPrefix_csname d b [] hw hws hn hb hbb (by simp) hph hp hbo rest [(0, d.word.toList)]
  rw [List.append_nil] at h
  have hf := def_first (w := d.word.toList) (ws := d.ws) (X := "csname".toList ++ ((b ++ d.name) ++ ("\\endcsname".toList ++ (d.params ++ '{' :: (d.body ++ '}' :: rest)))))
    (by rw [def_words_eq]; exact List.mem_map_of_mem hw) hws
  rw [← List.cons_append, show '\\' :: "csname".toList = "\\csname".toList by decide +kernel, show (d.ws ++ ['\\']).length = d.ws.length + 1 by simp] at hf
  exact handle_of hf (by decide) h

theorem namedef_eats {ws n rest : Str} (hws : Blank ws) (hn : '}' ∉ n) :
    firstKind ("\\@namedef".toList ++ ((ws ++ '{' :: (n ++ ['}'])) ++ rest)) order =
      some (.namedef, ⟨[], "\\@namedef".toList ++ ((ws ++ '{' :: (n ++ ['}'])) ++ rest), "\\@namedef".toList.length + (ws ++ '{' :: (n ++ ['}'])).length, [(1, n), (0, "\\@namedef".toList)]⟩) :=
  kind_hit (k := .namedef) (by decide +kernel) rfl (by rw [List.append_assoc]; exact head_blank hws space_letter (by simp; decide))
    (Eats.seq (Eats.spaces hws (by simp; decide)) (inBraces_eats 1 hn)) (by decide)

/-- C61: `\@namedef{name}` defines the command `name`. -/
theorem C61_namedef (ws n params body rest : Str) (hws : Blank ws) (hn : CsWord n) (hp : '{' ∉ params) (hbo : Wrappable '{' '}' body) :
    handle ("\\@namedef".toList ++ ((ws ++ '{' :: (n ++ ['}'])) ++ (params ++ '{' :: (body ++ '}' :: rest)))) =
    .ok (some (.cmd (.def_ n (strip params) body false (some (' ' :: (n ++ [' ']))))),
      ("\\@namedef".toList ++ ((ws ++ '{' :: (n ++ ['}'])) ++ (params ++ '{' :: (body ++ ['}'])))).length) := by
  have hf := namedef_eats (rest := params ++ '{' :: (body ++ '}' :: rest)) hws (fun hx => (hn.2 _ hx).2.2.1 rfl)
  unfold handle handleN
  rw [hf]
  simp only
  rw [if_neg (by decide)]
  unfold Kind.runInt
  rw [if_pos rfl]
  unfold namedefTok
  have hg : Match.group ⟨[], "\\@namedef".toList ++ ((ws ++ '{' :: (n ++ ['}'])) ++ (params ++ '{' :: (body ++ '}' :: rest))), "\\@namedef".toList.length + (ws ++ '{' :: (n ++ ['}'])).length, [(1, n), (0, "\\@namedef".toList)]⟩ 1 = some n := by
    simp [Match.group]
  have hd : (("\\@namedef".toList ++ ((ws ++ '{' :: (n ++ ['}'])) ++ (params ++ '{' :: (body ++ '}' :: rest)))).drop
      (Match.stop ⟨[], "\\@namedef".toList ++ ((ws ++ '{' :: (n ++ ['}'])) ++ (params ++ '{' :: (body ++ '}' :: rest))), "\\@namedef".toList.length + (ws ++ '{' :: (n ++ ['}'])).length, [(1, n), (0, "\\@namedef".toList)]⟩)) =
      params ++ '{' :: (body ++ '}' :: rest) := by
    unfold Match.stop
    simp only [List.length_nil, Nat.zero_add]
    rw [← List.append_assoc, ← List.length_append, List.drop_left]
  simp only [hg, hd, Option.getD_some]
  have htext : "\\def\\csname ".toList ++ n ++ " \\endcsname ".toList ++ (params ++ '{' :: (body ++ '}' :: rest)) =
      "\\def".toList ++ ("\\csname".toList ++ (([' '] ++ (n ++ [' '])) ++ ("\\endcsname".toList ++ ((' ' :: params) ++ '{' :: (body ++ '}' :: rest))))) := by
    rw [show "\\def\\csname ".toList = "\\def".toList ++ ("\\csname".toList ++ [' ']) by decide +kernel, show " \\endcsname ".toList = [' '] ++ ("\\endcsname".toList ++ [' ']) by decide +kernel]
    simp only [List.append_assoc, List.cons_append, List.nil_append]
  rw [htext]
  have hmatch : (Re.seq (anyOf defWords) (.seq spaces (.lit ['\\']))).matchAt [] ("\\def".toList ++ ("\\csname".toList ++ (([' '] ++ (n ++ [' '])) ++ ("\\endcsname".toList ++ ((' ' :: params) ++ '{' :: (body ++ '}' :: rest)))))) =
      some ⟨[], "\\def".toList ++ ("\\csname".toList ++ (([' '] ++ (n ++ [' '])) ++ ("\\endcsname".toList ++ ((' ' :: params) ++ '{' :: (body ++ '}' :: rest))))), "\\def".toList.length + (([] : Str).length + 1), []⟩ := by
    generalize ([' '] ++ (n ++ [' '])) ++ ("\\endcsname".toList ++ ((' ' :: params) ++ '{' :: (body ++ '}' :: rest))) = X
    have := (Eats.seq (word_hit (k := .def_) (w := "\\def".toList) (X := ['\\'] ++ ("csname".toList ++ X)) (g := []) (by decide +kernel) (by simp; decide))
      (Eats.seq (x := []) (Eats.spaces (by simp) (by simp; decide)) (Eats.lit ['\\'] ("csname".toList ++ X) []))).matchAt []
    rw [show "\\csname".toList = ['\\'] ++ "csname".toList by decide +kernel]
    rw [show Kind.def_.words = defWords from rfl] at this
    simpa using this
  rw [hmatch]
  simp only
  have h := defPrefix_csname ⟨"\\def", [], n, ' ' :: params, body⟩ [' '] [' '] (show "\\def" ∈ defTextWords by decide) (fun c hc => by cases hc) hn (by simp) (by simp) (by simp) (by simp; decide) (by simpa using hp) hbo rest []
  simp only [List.nil_append] at h
  simp only [h]
  have hstrip : strip (' ' :: params) = strip params := by
    unfold strip lstrip
    rw [List.dropWhile_cons_of_pos (by decide)]
  rw [hstrip, show expandsBody "\\def" = false by decide +kernel]
  refine congrArg Except.ok (Prod.ext rfl ?_)
  rw [show "\\def\\csname ".toList = "\\def".toList ++ ("\\csname".toList ++ [' ']) by decide +kernel, show " \\endcsname ".toList = [' '] ++ ("\\endcsname".toList ++ [' ']) by decide +kernel]
  generalize "\\def".toList = a
  generalize "\\csname".toList = b
  generalize "\\endcsname".toList = c
  generalize "\\@namedef".toList = e
  simp only [Match.stop, List.length_append, List.length_cons, List.length_nil]
  omega

/-! `\expandafter`. -/

theorem firstKind_match {s : Str} {k : Kind} {m : Match} : ∀ {l : List Kind}, firstKind s l = some (k, m) → k.re.matchAt [] s = some m
  | [], h => by cases h
  | a :: l, h => by
    unfold firstKind at h
    cases ha : a.re.matchAt [] s with
    | none => rw [ha] at h; exact firstKind_match h
    | some x => rw [ha] at h; simp at h; obtain ⟨rfl, rfl⟩ := h; exact ha

theorem anyOf_short {st st' : MSt} : ∀ {ws : List Str}, (∀ w ∈ ws, w ≠ []) → st' ∈ (anyOf ws).run st → st'.rest.length < st.rest.length
  | [], _, h => by cases h
  | w :: ws, hw, h => by
    rw [show (anyOf (w :: ws)).run st = (Re.lit w).run st ++ (anyOf ws).run st from rfl, List.mem_append] at h
    rcases h with h | h
    · have := Re.run_minLen _ st st' h
      rw [minLen_lit] at this
      have := List.length_pos_iff.2 (hw w (by simp))
      omega
    · exact anyOf_short (fun u hu => hw u (by simp [hu])) h

theorem words_nonempty : ∀ k ∈ order, ∀ w ∈ k.words, w ≠ [] := by decide +kernel

theorem kind_nonEmpty (k : Kind) : NonEmptyRe k.re := by
  intro rev rest m hm
  unfold Re.matchAt at hm
  split at hm
  · cases hm
  · rename_i st l hst
    injection hm with hm; subst hm
    have h1 : st ∈ k.re.run ⟨rev, rest, []⟩ := by rw [hst]; simp
    have h2 : ∃ st1 ∈ (Re.group 0 (anyOf k.words)).run ⟨rev, rest, []⟩, st ∈ k.tail.run st1 := List.mem_flatMap.1 h1
    obtain ⟨st1, h3, h4⟩ := h2
    obtain ⟨st0, h5, rfl⟩ : ∃ st0 ∈ (anyOf k.words).run ⟨rev, rest, []⟩, _ = st1 := List.mem_map.1 h3
    have a := anyOf_short (words_nonempty k (kind_order k)) h5
    have b := Re.run_minLen _ _ _ h4
    simp only at a b ⊢
    omega

theorem match_rev {r : Re} {rev rest : Str} {m : Match} (h : r.matchAt rev rest = some m) : m.rev = rev ∧ m.rest = rest := by
  unfold Re.matchAt at h
  split at h
  · cases h
  · injection h with h; subst h; exact ⟨rfl, rfl⟩

/-- A match takes something, and not more than there is. -/
theorem first_bounds {s : Str} {k : Kind} {m : Match} (h : firstKind s order = some (k, m)) : 0 < m.stop ∧ m.stop ≤ s.length := by
  have hm := firstKind_match h
  have := kind_nonEmpty k [] s m hm
  unfold Match.stop
  rw [(match_rev hm).1]
  simpa using this

theorem handleN_fuel : ∀ (n n' : Nat) (s : Str), s.length < n → s.length < n' → handleN n s = handleN n' s
  | 0, _, _, h, _ => by omega
  | _ + 1, 0, _, _, h => by omega
  | n + 1, n' + 1, s, h, h' => by
    unfold handleN
    cases hf : firstKind s order with
    | none => rfl
    | some x =>
      obtain ⟨k, m⟩ := x
      simp only
      have hb := first_bounds hf
      have hl : (s.drop m.stop).length = s.length - m.stop := List.length_drop
      rw [handleN_fuel n n' (s.drop m.stop) (by omega) (by omega)]

/-- Skipping `\expandafter`, `\noexpand` or `\endcsname`. -/
theorem skip_word {k : Kind} {w X : Str} (hk : k = .expandafter ∨ k = .endcsname) (hw : w ∈ k.words)
    (hX : ∀ c ∈ X.head?, isWord c = false) (hl : ∀ c ∈ X.head?, isLetter c = false) :
    handle (w ++ X) = (handle X).map fun r => (r.1, (w.length : Int) + r.2) := by
  have hf : firstKind (w ++ X) order = some (k, ⟨[], w ++ X, w.length + ([] : Str).length, [(0, w)]⟩) := by
    refine kind_hit (k := k) (t := []) (rest := X) hw rfl hl ?_ (by rcases hk with rfl | rfl <;> decide)
    have hn : Eats (.nlook (.chr isLetter)) [] X [(0, w)] [(0, w)] := by
      intro rev
      unfold Hd
      cases X with
      | nil => rfl
      | cons c X => simp [Re.run, hl c (by simp)]
    rcases hk with rfl | rfl
    · exact Eats.seq (x := []) (Eats.optNone (Dead.seq (Dead.chr _ hX))) hn
    · exact hn
  have hb := first_bounds hf
  have hs : Match.stop ⟨[], w ++ X, w.length + ([] : Str).length, [(0, w)]⟩ = w.length := by simp [Match.stop]
  rw [hs] at hb
  unfold handle
  conv => lhs; unfold handleN
  rw [hf]
  simp only
  rw [if_pos hk, hs, List.drop_left, handleN_fuel (w ++ X).length (X.length + 1) X (by simp only [List.length_append]; omega) (by omega)]
  cases handleN (X.length + 1) X with
  | error e => rfl
  | ok r => rfl

/-- C61: `\expandafter`, `\noexpand` and a left-over `\endcsname` before a definition are skipped. -/
theorem C61_expandafter (w : String) (hw : w = "\\expandafter" ∨ w = "\\noexpand" ∨ w = "\\endcsname") (X : Str) :
    handle (w.toList ++ '\\' :: X) = (handle ('\\' :: X)).map fun r => (r.1, (w.toList.length : Int) + r.2) := by
  rcases hw with rfl | rfl | rfl
  · exact skip_word (k := .expandafter) (Or.inl rfl) (by decide +kernel) (by simp; decide) (by simp; decide)
  · exact skip_word (k := .expandafter) (Or.inl rfl) (by decide +kernel) (by simp; decide) (by simp; decide)
  · exact skip_word (k := .endcsname) (Or.inr rfl) (by decide +kernel) (by simp; decide) (by simp; decide)

/-- The usual form. -/
example (rest : Str) : handle ("\\expandafter\\def\\csname foo:1\\endcsname#1{<#1>}".toList ++ rest) =
    .ok (some (.cmd (.def_ "foo:1".toList "#1".toList "<#1>".toList false (some " foo:1".toList))), 47) := by
  have h := C61_csname ⟨"\\def", [], "foo:1".toList, "#1".toList, "<#1>".toList⟩ [' '] (show "\\def" ∈ defTextWords by decide) (fun c hc => by cases hc)
    (by unfold CsWord; decide +kernel) (by simp) (by simp) (by decide +kernel) (by decide +kernel) (wrappable_plain _ _ _ (by decide +kernel) (by decide +kernel)) rest
  have e := C61_expandafter "\\expandafter" (Or.inl rfl) ("def\\csname foo:1\\endcsname#1{<#1>}".toList ++ rest)
  rw [show "\\expandafter\\def\\csname foo:1\\endcsname#1{<#1>}".toList ++ rest = "\\expandafter".toList ++ '\\' :: ("def\\csname foo:1\\endcsname#1{<#1>}".toList ++ rest) from rfl, e]
  have h' : handle ('\\' :: ("def\\csname foo:1\\endcsname#1{<#1>}".toList ++ rest)) = _ := h
  rw [h']
  rfl

/-- `\expandafter` and `\noexpand`. -/
def _root_.L2J.Spec.expandWords : List Str := ["\\expandafter".toList, "\\noexpand".toList]

theorem skipExpand_hit {w : Str} (hw : w ∈ expandWords) (X : Str) : skipExpand.matchAt [] (w ++ '\\' :: X) = some ⟨[], w ++ '\\' :: X, w.length, []⟩ := by
  have hn : ∀ g, Eats (.seq (.opt (.plus (.chr isWord))) (.nlook (.chr isLetter))) ([] ++ []) ('\\' :: X) g g := by
    intro g
    refine Eats.seq (Eats.optNone (Dead.seq (Dead.chr isWord (by simp; decide)))) ?_
    intro rev
    show (if ((Re.chr isLetter).run ⟨rev, '\\' :: X, g⟩).isEmpty then [_] else []).head? = _
    rw [Dead.chr isLetter (s := '\\' :: X) (by simp; decide) rev g]
    rfl
  have h : Eats skipExpand ([] ++ w) ('\\' :: X) [] [] := by
    simp only [expandWords, List.mem_cons, List.not_mem_nil, or_false] at hw
    rcases hw with rfl | rfl
    · refine Eats.seq (Eats.spaces (by simp) (by simp; decide)) ?_
      rw [show "\\expandafter".toList = ['\\'] ++ ("expandafter".toList ++ ([] ++ [])) by decide +kernel]
      exact Eats.seq (Eats.lit _ _ _) (Eats.seq (Eats.left (Eats.lit _ _ _)) (hn _))
    · refine Eats.seq (Eats.spaces (by simp) (by simp; decide)) ?_
      rw [show "\\noexpand".toList = ['\\'] ++ ("noexpand".toList ++ ([] ++ [])) by decide +kernel]
      exact Eats.seq (Eats.lit _ _ _) (Eats.seq (Eats.right (Dead.lit (by rintro ⟨t, ht⟩; simp at ht)) (Eats.lit _ _ _)) (hn _))
  simpa using h.matchAt []

theorem csnames_skip (k : Nat) (Y : Str) : ∀ (es : List Str) (pre : Str) (m : Nat), (∀ w ∈ es, w ∈ expandWords) → 0 < k →
    csnames (pre ++ (es.flatten ++ '\\' :: Y)) k (es.length + m) pre.length [] = csnames (pre ++ (es.flatten ++ '\\' :: Y)) k m (pre ++ es.flatten).length []
  | [], pre, m, _, _ => by simp
  | w :: es, pre, m, h, hk => by
    obtain ⟨X, hX⟩ : ∃ X, es.flatten ++ '\\' :: Y = '\\' :: X := by
      cases es with
      | nil => exact ⟨Y, rfl⟩
      | cons v es =>
        have hv := h v (by simp)
        simp only [expandWords, List.mem_cons, List.not_mem_nil, or_false] at hv
        rcases hv with rfl | rfl
        · exact ⟨"expandafter".toList ++ (es.flatten ++ '\\' :: Y), by simp⟩
        · exact ⟨"noexpand".toList ++ (es.flatten ++ '\\' :: Y), by simp⟩
    have ih := csnames_skip k Y es (pre ++ w) m (fun v hv => h v (by simp [hv])) hk
    rw [show (w :: es).length + m = es.length + m + 1 by simp; omega, csnames]
    rw [if_neg (by simp; omega), if_pos (by simpa using hk), List.drop_left, List.flatten_cons, List.append_assoc w, hX, skipExpand_hit (h w (by simp))]
    simp only [Match.stop, List.length_nil, Nat.zero_add]
    rw [← hX, ← List.append_assoc pre, ← List.length_append, ih, List.append_assoc pre w es.flatten]

/-- C61: `\expandafter` and `\noexpand` between `\def` and the name are skipped too. -/
theorem C61_def_expandafter (d : DefText) (h : d.Ok) (es : List Str) (he : ∀ w ∈ es, w ∈ expandWords) (rest : Str) :
    handle (d.word.toList ++ (d.ws ++ (es.flatten ++ '\\' :: (d.name ++ (d.params ++ '{' :: (d.body ++ '}' :: rest)))))) =
      .ok (some d.meaning, d.written.length + es.flatten.length) := by
  obtain ⟨hw, hws, hn, hph, hp, hb⟩ := h
  obtain ⟨fm, h1, h2⟩ := def_read d none hw hws hn.1.1 (fun c hc => ⟨(name_char_facts (hn.1.2 c hc)).1, (name_char_facts (hn.1.2 c hc)).2.1, (name_char_facts (hn.1.2 c hc)).2.2.2.2.1⟩)
    (fun hx => (name_char_facts (hn.1.2 _ hx)).2.2.1 rfl) hph hp hb rest
  have hafter : ∀ c ∈ (d.params ++ '{' :: (d.body ++ '}' :: rest)).head?, isNameChar c = false := by
    cases hq : d.params with
    | nil => simp; decide
    | cons a q =>
      intro c hc; simp at hc; subst hc
      rcases hph a (by rw [hq]; simp) with h | h
      · exact space_name a h
      · rw [h]; decide
  generalize hR : d.params ++ '{' :: (d.body ++ '}' :: rest) = R at *
  obtain ⟨X, hX⟩ : ∃ X, es.flatten ++ '\\' :: (d.name ++ R) = '\\' :: X := by
    cases es with
    | nil => exact ⟨_, rfl⟩
    | cons v es =>
      have hv := he v (by simp)
      simp only [expandWords, List.mem_cons, List.not_mem_nil, or_false] at hv
      rcases hv with rfl | rfl
      · exact ⟨"expandafter".toList ++ (es.flatten ++ '\\' :: (d.name ++ R)), by simp⟩
      · exact ⟨"noexpand".toList ++ (es.flatten ++ '\\' :: (d.name ++ R)), by simp⟩
  have hf := def_first (w := d.word.toList) (ws := d.ws) (X := X) (by rw [def_words_eq]; exact List.mem_map_of_mem hw) hws
  rw [hX]
  refine handle_of (e := d.written.length + es.flatten.length) hf (by decide) ?_
  show defPrefix false _ _ = _
  have hpos : Match.stop ⟨[], d.word.toList ++ (d.ws ++ '\\' :: X), d.word.toList.length + (d.ws ++ ['\\']).length, [(0, d.word.toList)]⟩ - 1 = (d.word.toList ++ d.ws).length := by
    simp [Match.stop]
  have htext : (Match.text ⟨[], d.word.toList ++ (d.ws ++ '\\' :: X), d.word.toList.length + (d.ws ++ ['\\']).length, [(0, d.word.toList)]⟩).dropLast = d.word.toList ++ d.ws := by
    unfold Match.text
    rw [show d.word.toList ++ (d.ws ++ '\\' :: X) = (d.word.toList ++ d.ws ++ ['\\']) ++ X by simp, List.take_left' (by simp)]
    simp
  unfold defPrefix
  rw [hpos, htext, ← hX, ← List.append_assoc d.word.toList]
  simp only [Bool.false_eq_true, if_false]
  have hlen : (d.word.toList ++ d.ws ++ (es.flatten ++ '\\' :: (d.name ++ R))).length + 1 = es.length + ((d.word.toList ++ d.ws ++ (es.flatten ++ '\\' :: (d.name ++ R))).length - es.length + 1) := by
    have : es.length ≤ es.flatten.length := by
      clear hX hf hpos htext
      induction es with
      | nil => simp
      | cons v es ih =>
        have hv : 0 < v.length := by
          have := he v (by simp)
          simp only [expandWords, List.mem_cons, List.not_mem_nil, or_false] at this
          rcases this with rfl | rfl <;> decide
        have := ih (fun w hw => he w (by simp [hw]))
        rw [List.flatten_cons, List.length_append, List.length_cons]; omega
    simp only [List.length_append]; omega
  rw [hlen, csnames_skip 1 _ es _ _ he (by decide)]
  rw [show d.word.toList ++ d.ws ++ (es.flatten ++ '\\' :: (d.name ++ R)) = (d.word.toList ++ d.ws ++ es.flatten) ++ '\\' :: (d.name ++ R) by simp, csnames_none 1 _ hn hafter]
  simp only [List.isEmpty_nil, if_true, List.head?_nil]
  rw [if_pos (by simp), show ((d.word.toList ++ d.ws ++ es.flatten) ++ '\\' :: (d.name ++ R)).drop ((d.word.toList ++ d.ws ++ es.flatten).length + 1) = d.name ++ R by
    rw [show (d.word.toList ++ d.ws ++ es.flatten) ++ '\\' :: (d.name ++ R) = (d.word.toList ++ d.ws ++ es.flatten ++ ['\\']) ++ (d.name ++ R) by simp, List.drop_left' (by simp <;> omega)]]
  rw [show d.word.toList ++ d.ws ++ ['\\'] ++ (d.name ++ R) = d.word.toList ++ (d.ws ++ '\\' :: (d.name ++ R)) by simp, h1]
  simp only
  rw [show (d.word.toList ++ d.ws).length + 1 = d.word.toList.length + d.ws.length + 1 by simp, h2]
  simp only
  refine congrArg Except.ok (Prod.ext rfl ?_)
  simp only [List.length_append, List.length_cons, List.length_nil]
  omega

example (rest : Str) : handle ("\\def\\expandafter\\noexpand\\foo#1{a}".toList ++ rest) = .ok (some (.cmd (.def_ "foo".toList "#1".toList "a".toList false none)), 34) :=
  C61_def_expandafter ⟨"\\def", [], "foo".toList, "#1".toList, "a".toList⟩ ⟨by decide, by unfold Blank; simp, by unfold OrdinaryName NameWord; decide +kernel, by decide +kernel, by decide +kernel,
    wrappable_plain _ _ _ (by decide +kernel) (by decide +kernel)⟩ ["\\expandafter".toList, "\\noexpand".toList] (by decide +kernel) rest

end L2J.Defn
