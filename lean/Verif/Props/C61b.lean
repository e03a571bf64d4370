import Verif.Props.C61
import Verif.Props.C40
/-! C61, continued: theorems, counters, lengths, colours, fonts. -/
namespace L2J.Defn
open Cmds L2J.Spec

theorem inBraces_eats (n : Nat) {x rest : Str} {g} (h : '}' ∉ x) : Eats (inBraces n) ('{' :: (x ++ ['}'])) rest g ((n, x) :: g) :=
  Eats.seq (x := ['{']) (Eats.lit _ _ _) (Eats.seq (Eats.group n (Eats.star_chr _ (fun c hc => by simp; rintro rfl; exact h hc) (by simp))) (Eats.lit _ _ _))

theorem braceContent_eats (n : Nat) {x rest : Str} {g} (h0 : x ≠ []) (h : '}' ∉ x) : Eats (braceContent n) ('{' :: (x ++ ['}'])) rest g ((n, x) :: g) :=
  Eats.seq (x := ['{']) (Eats.lit _ _ _) (Eats.seq (Eats.group n (Eats.plus_chr _ h0 (fun c hc => by simp; rintro rfl; exact h hc) (by simp))) (Eats.lit _ _ _))

/-- An optional argument as written. -/
def _root_.L2J.Spec.bracketed : Option Str → Str
  | none => []
  | some x => '[' :: (x ++ [']'])

/-- Its group. -/
def optGroup (n : Nat) : Option Str → List (Nat × Str)
  | none => []
  | some x => [(n, x)]

theorem optBracket_eats (n : Nat) {o : Option Str} {rest : Str} {g} (h : ∀ x ∈ o, ']' ∉ x) (hr : o = none → rest.head? ≠ some '[') :
    Eats (optBracket n) (bracketed o) rest g (optGroup n o ++ g) := by
  cases o with
  | none => exact Eats.optNone (Dead.seq (Dead.char (hr rfl)))
  | some x =>
    exact Eats.optSome (Eats.seq (x := ['[']) (Eats.lit _ _ _) (Eats.seq (Eats.group n (Eats.star_chr _ (fun c hc => by simp; rintro rfl; exact h x rfl hc) (by simp))) (Eats.lit _ _ _)))

/-- A written `\newtheorem`: `\newtheorem*{name}[counter]{title}[within]`. -/
structure _root_.L2J.Spec.TheoremText where
  star : Bool
  name : Str
  counter : Option Str
  title : Str
  within : Option Str

def _root_.L2J.Spec.TheoremText.written (t : TheoremText) : Str :=
  "\\newtheorem".toList ++ ((if t.star then ['*'] else []) ++ ('{' :: (t.name ++ ['}']) ++ (bracketed t.counter ++ ('{' :: (t.title ++ ['}']) ++ bracketed t.within))))

def _root_.L2J.Spec.TheoremText.Ok (t : TheoremText) : Prop :=
  '}' ∉ t.name ∧ '}' ∉ t.title ∧ (∀ x ∈ t.counter, x ≠ [] ∧ ']' ∉ x) ∧ ∀ x ∈ t.within, x ≠ [] ∧ ']' ∉ x

/-- C61: a written `\newtheorem` gives its name, its title and its counters, if what follows it could not be its last optional argument. -/
theorem C61_newtheorem (t : TheoremText) (h : t.Ok) (rest : Str) (hr : t.within = none → rest.head? ≠ some '[') :
    handle (t.written ++ rest) = .ok (some (.theorem_ t.name t.title t.counter t.within), t.written.length) := by
  obtain ⟨hn, ht, hc, hw⟩ := h
  unfold TheoremText.written
  rw [List.append_assoc]
  refine kind_run (k := .newtheorem)
    (g := (optGroup 4 t.within ++ ((3, t.title) :: (optGroup 2 t.counter ++ [(1, t.name), (0, "\\newtheorem".toList)]))))
    ?_ (by decide +kernel) ?_ ?_ (by decide) (by decide)
  · unfold Kind.run
    simp only
    have g1 : ∀ X n, (Match.group ⟨[], X, n, (optGroup 4 t.within ++ ((3, t.title) :: (optGroup 2 t.counter ++ [(1, t.name), (0, "\\newtheorem".toList)])))⟩ 1) = some t.name := by
      intro X n; unfold Match.group; cases t.within <;> cases t.counter <;> simp [optGroup]
    have g3 : ∀ X n, (Match.group ⟨[], X, n, (optGroup 4 t.within ++ ((3, t.title) :: (optGroup 2 t.counter ++ [(1, t.name), (0, "\\newtheorem".toList)])))⟩ 3) = some t.title := by
      intro X n; unfold Match.group; cases t.within <;> cases t.counter <;> simp [optGroup]
    have g2 : ∀ X n, (Match.group ⟨[], X, n, (optGroup 4 t.within ++ ((3, t.title) :: (optGroup 2 t.counter ++ [(1, t.name), (0, "\\newtheorem".toList)])))⟩ 2) = t.counter := by
      intro X n; unfold Match.group; cases t.within <;> cases t.counter <;> simp [optGroup]
    have g4 : ∀ X n, (Match.group ⟨[], X, n, (optGroup 4 t.within ++ ((3, t.title) :: (optGroup 2 t.counter ++ [(1, t.name), (0, "\\newtheorem".toList)])))⟩ 4) = t.within := by
      intro X n; unfold Match.group; cases t.within <;> cases t.counter <;> simp [optGroup]
    rw [g1, g2, g3, g4]
    have ho : ∀ o : Option Str, (∀ x ∈ o, x ≠ []) → (o.bind fun x => if x.isEmpty then none else some x) = o := by
      intro o ho
      cases o with
      | none => rfl
      | some x =>
        have := ho x rfl
        cases x with
        | nil => exact absurd rfl this
        | cons a b => rfl
    rw [ho _ fun x hx => (hc x hx).1, ho _ fun x hx => (hw x hx).1]
    simp only [Option.getD_some, Match.stop, List.length_nil, Nat.zero_add, List.length_append]
  · cases t.star <;> simp <;> decide
  · refine Eats.seq (g1 := [(0, "\\newtheorem".toList)]) ?_ (Eats.seq (inBraces_eats 1 hn) (Eats.seq (optBracket_eats 2 (fun x hx => (hc x hx).2) (by simp)) (Eats.seq (inBraces_eats 3 ht) (optBracket_eats 4 (fun x hx => (hw x hx).2) hr))))
    cases t.star with
    | true => exact Eats.optSome (Eats.lit _ _ _)
    | false => exact Eats.optNone (Dead.char (by simp))

/-- C61: `\newif\ifname`. -/
theorem C61_newif (w : String) (hw : w = "\\newif" ∨ w = "\\renewif") (ws n rest : Str) (hws : Blank ws) (hn : n ≠ [])
    (hc : ∀ c ∈ n, isSpace c = false ∧ c ≠ '{' ∧ c ≠ '\\') (hr : ∀ c ∈ rest.head?, isSpace c = true ∨ c = '{' ∨ c = '\\') :
    handle (w.toList ++ (ws ++ ("\\if".toList ++ n) ++ rest)) = .ok (some (.cmd (.newif n)), (w.toList ++ (ws ++ ("\\if".toList ++ n))).length) := by
  refine kind_run (k := .newif) (g := [(1, n), (0, w.toList)]) ?_ (by rcases hw with rfl | rfl <;> decide +kernel) ?_ ?_ (by decide) (by decide)
  · simp [Kind.run, Match.group, Match.stop]
  · rw [List.append_assoc]; exact head_blank hws space_letter (by simp; decide)
  · refine Eats.seq (Eats.spaces hws (by simp; decide)) (Eats.seq (Eats.lit _ _ _) (Eats.group 1 (Eats.plus_chr _ hn ?_ ?_)))
    · intro c hx; simp [hc c hx]
    · intro c hx; rcases hr c hx with h | h | h <;> simp [h]

/-- C61: `\newcounter{name}` and what else makes a counter. -/
theorem C61_newcounter (w : String) (hw : w = "\\newcounter" ∨ w = "\\renewcounter" ∨ w = "\\stepcounter") (ws n rest : Str) (hws : Blank ws)
    (hn : n ≠ []) (hc : '}' ∉ n) :
    handle (w.toList ++ (ws ++ '{' :: (n ++ ['}']) ++ rest)) = .ok (some (.cmd (.newcounter (strip n))), (w.toList ++ (ws ++ '{' :: (n ++ ['}']))).length) := by
  refine kind_run (k := .newcounter) (g := [(1, n), (0, w.toList)]) ?_ (by rcases hw with rfl | rfl | rfl <;> decide +kernel) ?_ ?_ (by decide) (by decide)
  · simp [Kind.run, Match.group, Match.stop]
  · rw [List.append_assoc]; exact head_blank hws space_letter (by simp; decide)
  · exact Eats.seq (Eats.spaces hws (by simp; decide)) (braceContent_eats 1 hn hc)

/-- C61: `\setcounter{name}{value}`. -/
theorem C61_setcounter (ws n ws2 v rest : Str) (hws : Blank ws) (hn : n ≠ []) (hc : '}' ∉ n) (hws2 : Blank ws2) (hv : v ≠ []) (hvc : '}' ∉ v) :
    handle ("\\setcounter".toList ++ ((ws ++ ('{' :: (n ++ ['}']) ++ (ws2 ++ '{' :: (v ++ ['}'])))) ++ rest)) =
      .ok (some (.cmd (.newcounter (strip n))), ("\\setcounter".toList ++ (ws ++ ('{' :: (n ++ ['}']) ++ (ws2 ++ '{' :: (v ++ ['}']))))).length) := by
  refine kind_run (k := .setcounter) (g := [(2, v), (1, n), (0, "\\setcounter".toList)]) ?_ (by decide +kernel) ?_ ?_ (by decide) (by decide)
  · generalize "\\setcounter".toList = w; simp [Kind.run, Match.group, Match.stop]
  · rw [List.append_assoc]; exact head_blank hws space_letter (by simp; decide)
  · exact Eats.seq (Eats.spaces hws (by simp; decide)) (Eats.seq (braceContent_eats 1 hn hc) (Eats.seq (Eats.spaces hws2 (by simp; decide)) (braceContent_eats 2 hv hvc)))

/-- C61: `\newboolean{name}` is used up and gives nothing. -/
theorem C61_newboolean (w : String) (hw : w = "\\newboolean" ∨ w = "\\renewboolean") (ws n rest : Str) (hws : Blank ws) (hn : n ≠ []) (hc : '}' ∉ n) :
    handle (w.toList ++ (ws ++ '{' :: (n ++ ['}']) ++ rest)) = .ok (none, (w.toList ++ (ws ++ '{' :: (n ++ ['}']))).length) := by
  refine kind_run (k := .newboolean) (g := [(1, n), (0, w.toList)]) ?_ (by rcases hw with rfl | rfl <;> decide +kernel) ?_ ?_ (by decide) (by decide)
  · simp [Kind.run, Match.stop]
  · rw [List.append_assoc]; exact head_blank hws space_letter (by simp; decide)
  · exact Eats.seq (Eats.spaces hws (by simp; decide)) (braceContent_eats 1 hn hc)

/-- C61: `\crefname{name}{singular}{plural}`. -/
theorem C61_crefname (w : String) (hw : w = "\\crefname" ∨ w = "\\Crefname") (n a b rest : Str) (hn : '}' ∉ n) (ha : '}' ∉ a) (hb : '}' ∉ b) :
    handle (w.toList ++ (('{' :: (n ++ ['}']) ++ ('{' :: (a ++ ['}']) ++ '{' :: (b ++ ['}']))) ++ rest)) =
      .ok (some (.cref n a b), (w.toList ++ ('{' :: (n ++ ['}']) ++ ('{' :: (a ++ ['}']) ++ '{' :: (b ++ ['}'])))).length) := by
  refine kind_run (k := .crefname) (g := [(3, b), (2, a), (1, n), (0, w.toList)]) ?_ (by rcases hw with rfl | rfl <;> decide +kernel) ?_ ?_ (by decide) (by decide)
  · simp [Kind.run, Match.group, Match.stop]
  · simp; decide
  · exact Eats.seq (inBraces_eats 1 hn) (Eats.seq (inBraces_eats 2 ha) (Eats.optSome (inBraces_eats 3 hb)))

/-- C61: `\floatname{name}{title}`. -/
theorem C61_floatname (n a rest : Str) (hn : '}' ∉ n) (ha : '}' ∉ a) :
    handle ("\\floatname".toList ++ (('{' :: (n ++ ['}']) ++ '{' :: (a ++ ['}'])) ++ rest)) =
      .ok (some (.floatname n a), ("\\floatname".toList ++ ('{' :: (n ++ ['}']) ++ '{' :: (a ++ ['}']))).length) := by
  refine kind_run (k := .floatname) (g := [(2, a), (1, n), (0, "\\floatname".toList)]) ?_ (by decide +kernel) ?_ ?_ (by decide) (by decide)
  · generalize "\\floatname".toList = w; simp [Kind.run, Match.group, Match.stop]
  · simp; decide
  · exact Eats.seq (inBraces_eats 1 hn) (inBraces_eats 2 ha)

/-- Three arguments behind a word whose pattern ends with the first brace. -/
theorem blocks_after {w ws rest : Str} {l : List (Str × Str)} (hl : WellWrapped '{' '}' l) (n : Nat) (hn : n = l.length) :
    seqBlocks ((w ++ (ws ++ (wrapAll '{' '}' l ++ rest))).drop (w.length + ws.length)) '{' '}' (some n) = (l.map (·.2), (wrapAll '{' '}' l).length) := by
  rw [← List.append_assoc, ← List.length_append, List.drop_left, hn, seqBlocks_wrap '{' '}' (by decide) (by decide) (by decide) l rest hl]

/-- Words that are found but not followed by what the pattern asks for. -/
theorem anyOf_seq_dead {b : Re} {s : Str} : ∀ {ws : List Str}, (∀ v ∈ ws, v <+: s → Dead b (s.drop v.length)) → Dead (.seq (.group 0 (anyOf ws)) b) s
  | [], _ => fun _ _ => rfl
  | v :: ws, h => by
    intro rev g
    have ih := anyOf_seq_dead (b := b) (s := s) (ws := ws) (fun u hu => h u (by simp [hu])) rev g
    show (((anyOf (v :: ws)).run ⟨rev, s, g⟩).map _).flatMap b.run = []
    have ih' : (((anyOf ws).run ⟨rev, s, g⟩).map (fun st' : MSt => { st' with groups := (0, s.take (s.length - st'.rest.length)) :: st'.groups })).flatMap b.run = [] := ih
    rw [show (anyOf (v :: ws)).run ⟨rev, s, g⟩ = (Re.lit v).run ⟨rev, s, g⟩ ++ (anyOf ws).run ⟨rev, s, g⟩ from rfl, List.map_append, List.flatMap_append, ih', List.append_nil, Re.run_lit]
    by_cases hv : v.isPrefixOf s = true
    · rw [if_pos hv]
      simp only [List.map_cons, List.map_nil, List.flatMap_cons, List.flatMap_nil, List.append_nil]
      exact h v (by simp) (List.isPrefixOf_iff_prefix.1 hv) _ _
    · rw [if_neg hv]; rfl

theorem def_color : ∀ v ∈ Kind.def_.words, v <+: "\\definecolor".toList → v = "\\def".toList := by decide +kernel

theorem theorem_style : ∀ v ∈ Kind.newtheorem.words, v <+: "\\newtheoremstyle".toList → v = "\\newtheorem".toList := by decide +kernel

/-- As `kind_hit`, for a word that begins with the word of another kind. -/
theorem kind_hit' {k k0 : Kind} {w X t rest : Str} {g} (hw : w ∈ k.words) (hX : X = t ++ rest) (hl : ∀ c ∈ X.head?, isLetter c = false)
    (ht : Eats k.tail t rest [(0, w)] g) (hk : (k0 = .def_ ∧ k = .definecolor) ∨ (k0 = .newtheorem ∧ k = .theoremstyle)) (h0 : Dead k0.re (w ++ X)) :
    firstKind (w ++ X) order = some (k, ⟨[], w ++ X, w.length + t.length, g⟩) := by
  obtain ⟨l, hl2⟩ := order_split k
  have hm : k.re.matchAt [] (w ++ X) = some ⟨[], w ++ X, w.length + t.length, g⟩ := by
    subst hX
    have := (Eats.seq (Eats.group 0 (word_hit (g := []) hw hl)) ht).matchAt []
    rw [List.append_assoc, List.length_append] at this
    exact this
  rw [hl2]
  refine firstKind_hit _ _ (fun k' hk' => ?_) hm
  by_cases hd : k' = k0
  · subst hd; exact h0.matchAt []
  · refine (kind_dead (mem_all hw) hl fun v hv hp => ?_).matchAt []
    rcases words_before k (kind_order k) k' hk' w hw v hv hp with h | h <;> rcases hk with hk | hk
    · exact hd (h.1.trans hk.1.symm)
    · have := h.2.symm.trans hk.2; cases this
    · have := h.2.symm.trans hk.2; cases this
    · exact hd (h.1.trans hk.1.symm)

/-- `\def` is not found in `\definecolor`. -/
theorem definecolor_dead {X : Str} (hl : ∀ c ∈ X.head?, isLetter c = false) : Dead Kind.def_.re ("\\definecolor".toList ++ X) := by
  refine anyOf_seq_dead (fun v hv hp => ?_)
  have hv' : v = "\\def".toList := by
    by_cases hne : v <+: "\\definecolor".toList
    · exact def_color v hv hne
    · exact absurd hp (word_miss (mem_all hv) (by decide +kernel) hl hne)
  subst hv'
  rw [show "\\definecolor".toList = "\\def".toList ++ 'i' :: "necolor".toList from by decide +kernel, List.append_assoc, List.drop_left]
  exact Dead.spaces (ws := []) (by simp) (by simp; decide) (fun c t hc => Dead.char (by intro he; simp at he; rw [he] at hc; exact absurd hc (by decide))) (Dead.char (by simp))

/-- C61: `\definecolor{name}{model}{value}`. -/
theorem C61_definecolor (ws n ws2 f ws3 v rest : Str) (hws : Blank ws) (h : WellWrapped '{' '}' [([], n), (ws2, f), (ws3, v)]) :
    handle ("\\definecolor".toList ++ (ws ++ (wrapAll '{' '}' [([], n), (ws2, f), (ws3, v)] ++ rest))) =
      .ok (some (.color n f v), ("\\definecolor".toList ++ (ws ++ wrapAll '{' '}' [([], n), (ws2, f), (ws3, v)])).length) := by
  have hl : ∀ c ∈ (ws ++ (wrapAll '{' '}' [([], n), (ws2, f), (ws3, v)] ++ rest)).head?, isLetter c = false :=
    head_blank hws space_letter (by simp [wrapAll]; decide)
  have hfirst := kind_hit' (k := .definecolor) (k0 := .def_) (w := "\\definecolor".toList) (X := ws ++ (wrapAll '{' '}' [([], n), (ws2, f), (ws3, v)] ++ rest)) (t := ws ++ ['{'])
    (rest := (n ++ '}' :: wrapAll '{' '}' [(ws2, f), (ws3, v)]) ++ rest) (g := [(0, "\\definecolor".toList)]) (by decide +kernel) (by simp [wrapAll]) hl
    (Eats.seq (Eats.spaces hws (by simp; decide)) (Eats.lit _ _ _)) (Or.inl ⟨rfl, rfl⟩) (definecolor_dead hl)
  refine handle_of hfirst (by decide) ?_
  unfold Kind.run
  simp only
  have hs : Match.stop ⟨[], "\\definecolor".toList ++ (ws ++ (wrapAll '{' '}' [([], n), (ws2, f), (ws3, v)] ++ rest)), "\\definecolor".toList.length + (ws ++ ['{']).length, [(0, "\\definecolor".toList)]⟩ - 1 = "\\definecolor".toList.length + ws.length := by
    generalize "\\definecolor".toList = w; simp [Match.stop]
  rw [hs, blocks_after h 3 rfl]
  simp only [List.map_cons, List.map_nil, List.length_append, Nat.add_assoc]

/-- C61: `\newtheoremstyle` and its nine arguments are used up; they give nothing. -/
theorem C61_newtheoremstyle (l : List (Str × Str)) (hn : l.length = 9) (h0 : ∀ e ∈ l.head?, e.1 = []) (h : WellWrapped '{' '}' l) (rest : Str) :
    handle ("\\newtheoremstyle".toList ++ (wrapAll '{' '}' l ++ rest)) = .ok (none, ("\\newtheoremstyle".toList ++ wrapAll '{' '}' l).length) := by
  obtain ⟨a, l', hl'⟩ : ∃ a l', l = ([], a) :: l' := by
    cases l with
    | nil => simp at hn
    | cons e l => obtain ⟨x, a⟩ := e; have := h0 (x, a) (by simp); simp at this; exact ⟨a, l, by rw [this]⟩
  have hX : wrapAll '{' '}' l ++ rest = ['{'] ++ (a ++ '}' :: wrapAll '{' '}' l' ++ rest) := by rw [hl']; simp [wrapAll]
  have hl : ∀ c ∈ (wrapAll '{' '}' l ++ rest).head?, isLetter c = false := by rw [hX]; simp; decide
  have hdead : Dead Kind.newtheorem.re ("\\newtheoremstyle".toList ++ (wrapAll '{' '}' l ++ rest)) := by
    refine anyOf_seq_dead (fun v hv hp => ?_)
    have hv' : v = "\\newtheorem".toList := by
      by_cases hne : v <+: "\\newtheoremstyle".toList
      · exact theorem_style v hv hne
      · exact absurd hp (word_miss (mem_all hv) (by decide +kernel) hl hne)
    subst hv'
    rw [show "\\newtheoremstyle".toList = "\\newtheorem".toList ++ 's' :: "tyle".toList from by decide +kernel, List.append_assoc, List.drop_left]
    intro rev g
    rfl
  have hfirst := kind_hit' (k := .theoremstyle) (k0 := .newtheorem) (w := "\\newtheoremstyle".toList) (X := wrapAll '{' '}' l ++ rest) (t := ['{'])
    (rest := (a ++ '}' :: wrapAll '{' '}' l') ++ rest) (g := [(0, "\\newtheoremstyle".toList)]) (by decide +kernel) hX hl
    (Eats.seq (x := []) (Eats.optNone (Dead.char (by simp))) (Eats.lit _ _ _)) (Or.inr ⟨rfl, rfl⟩) hdead
  refine handle_of hfirst (by decide) ?_
  unfold Kind.run
  simp only
  have hs : Match.stop ⟨[], "\\newtheoremstyle".toList ++ (wrapAll '{' '}' l ++ rest), "\\newtheoremstyle".toList.length + ['{'].length, [(0, "\\newtheoremstyle".toList)]⟩ - 1 = "\\newtheoremstyle".toList.length + ([] : Str).length := by
    generalize "\\newtheoremstyle".toList = w; simp [Match.stop]
  rw [hs]
  have := blocks_after (w := "\\newtheoremstyle".toList) (ws := []) (rest := rest) h 9 hn.symm
  rw [List.nil_append] at this
  rw [this]
  refine congrArg Except.ok (Prod.ext rfl ?_)
  generalize "\\newtheoremstyle".toList = w
  simp; omega

/-- A name as an argument: `{\name}` or `\name`. -/
def _root_.L2J.Spec.asArg (braced : Bool) (n : Str) : Str := if braced then '{' :: '\\' :: (n ++ ['}']) else '\\' :: n

/-- C61: `\DeclarePairedDelimiter{\name}{left}{right}`. -/
theorem C61_paired (b : Bool) (ws n ws2 l ws3 r rest : Str) (hws : Blank ws) (hn : NameWord n) (hws2 : Blank ws2) (h : WellWrapped '{' '}' [([], l), (ws3, r)]) :
    handle ("\\DeclarePairedDelimiter".toList ++ (ws ++ (asArg b n ++ (ws2 ++ (wrapAll '{' '}' [([], l), (ws3, r)] ++ rest))))) =
      .ok (some (.cmd (.paired n l r)), ("\\DeclarePairedDelimiter".toList ++ (ws ++ (asArg b n ++ (ws2 ++ wrapAll '{' '}' [([], l), (ws3, r)])))).length) := by
  have hX : ws ++ (asArg b n ++ (ws2 ++ (wrapAll '{' '}' [([], l), (ws3, r)] ++ rest))) =
      (ws ++ (asArg b n ++ (ws2 ++ ['{']))) ++ ((l ++ '}' :: wrapAll '{' '}' [(ws3, r)]) ++ rest) := by simp [wrapAll]
  have hne : (asArg b n).head? ≠ none := by unfold asArg; cases b <;> simp
  have hl : ∀ c ∈ (ws ++ (asArg b n ++ (ws2 ++ (wrapAll '{' '}' [([], l), (ws3, r)] ++ rest)))).head?, isLetter c = false :=
    head_blank hws space_letter (by unfold asArg; cases b <;> simp <;> decide)
  have hname1 : ∀ c ∈ n, (!isSpace c && c != '{' && c != '}') = true := by
    intro c hc; have := name_char_facts (hn.2 c hc); simp [this.1, this.2.1, this.2.2.2.2.2.1]
  have hname2 : ∀ c ∈ n, (!isSpace c && c != '{') = true := by
    intro c hc; have := name_char_facts (hn.2 c hc); simp [this.1, this.2.1]
  have he : Eats (Kind.tail .paired) (ws ++ (asArg b n ++ (ws2 ++ ['{']))) ((l ++ '}' :: wrapAll '{' '}' [(ws3, r)]) ++ rest) [(0, "\\DeclarePairedDelimiter".toList)]
      [(if b then 1 else 2, n), (0, "\\DeclarePairedDelimiter".toList)] := by
    refine Eats.seq (Eats.spaces hws ?_) (Eats.seq (g1 := [(if b then 1 else 2, n), (0, "\\DeclarePairedDelimiter".toList)]) ?_ (Eats.seq (Eats.spaces hws2 (by simp; decide)) (Eats.lit _ _ _)))
    · unfold asArg; cases b <;> simp <;> decide
    · unfold asArg
      cases b with
      | true => exact Eats.left (Eats.seq (x := ['{']) (y := '\\' :: (n ++ ['}'])) (Eats.lit _ _ _) (Eats.seq (x := '\\' :: n) (Eats.seq (x := ['\\']) (Eats.lit _ _ _) (Eats.group 1 (Eats.plus_chr _ hn.1 hname1 (by simp)))) (Eats.lit _ _ _)))
      | false =>
        refine Eats.right (Dead.seq (Dead.char (by simp))) (Eats.seq (x := ['\\']) (Eats.lit _ _ _) (Eats.group 2 (Eats.plus_chr _ hn.1 hname2 ?_)))
        rw [List.append_assoc]
        exact head_blank (P := fun c => (!isSpace c && c != '{') = false) hws2 (fun c hc => by simp [hc]) (by simp)
  have hfirst := kind_hit (k := .paired) (w := "\\DeclarePairedDelimiter".toList) (by decide +kernel) hX hl he (by decide)
  refine handle_of hfirst (by decide) ?_
  unfold Kind.run
  simp only
  generalize "\\DeclarePairedDelimiter".toList = w
  have hs : Match.stop ⟨[], w ++ (ws ++ (asArg b n ++ (ws2 ++ (wrapAll '{' '}' [([], l), (ws3, r)] ++ rest)))), w.length + (ws ++ (asArg b n ++ (ws2 ++ ['{']))).length, [(if b then 1 else 2, n), (0, w)]⟩ - 1 =
      w.length + (ws ++ (asArg b n ++ ws2)).length := by
    simp [Match.stop]; omega
  have hbl := blocks_after (w := w) (ws := ws ++ (asArg b n ++ ws2)) (rest := rest) h 2 rfl
  rw [show w ++ (ws ++ (asArg b n ++ ws2) ++ (wrapAll '{' '}' [([], l), (ws3, r)] ++ rest)) = w ++ (ws ++ (asArg b n ++ (ws2 ++ (wrapAll '{' '}' [([], l), (ws3, r)] ++ rest)))) by simp] at hbl
  rw [hs, hbl]
  simp only [List.map_cons, List.map_nil]
  refine congrArg Except.ok (Prod.ext ?_ ?_)
  · cases b <;> simp [Match.group]
  · simp; omega

theorem cmdOrBrace_eats {b : Bool} {n rest : Str} {g} (hn : NameWord n) (hr : b = false → ∀ c ∈ rest.head?, isNameChar c = false) :
    ∃ g', Eats cmdOrBrace (asArg b n) rest g (g' :: g) ∧ g'.1 ≠ 0 ∧ g'.1 ≠ 1 := by
  unfold asArg
  cases b with
  | true =>
    refine ⟨(8, '\\' :: n), Eats.left ?_, by simp, by simp⟩
    exact braceContent_eats 8 (x := '\\' :: n) (by simp) (by
      intro hx; simp at hx; exact (name_char_facts (hn.2 _ hx)).2.2.2.2.2.1 rfl)
  | false => exact ⟨(9, n), Eats.right (Dead.seq (Dead.char (by simp))) (cmdRe_hit 9 hn (hr rfl)), by simp, by simp⟩

theorem findSub_brace {n : Str} (h : '{' ∉ n) : findSub ['{'] n = none := by
  induction n with
  | nil => rfl
  | cons c n ih =>
    have hc : c ≠ '{' := by rintro rfl; exact h (by simp)
    unfold findSub
    rw [ih (fun hx => h (by simp [hx]))]
    simp [List.isPrefixOf, Ne.symm hc]

theorem varName_plain {n : Str} (h : NameWord n) : varName ('\\' :: n) = n := by
  unfold varName
  rw [show startsWith ('\\' :: n) ['{'] = false from rfl]
  simp only [Bool.false_eq_true, if_false]
  rw [if_pos (by simp [startsWith, List.isPrefixOf]), show ('\\' :: n).drop 1 = n from rfl, findSub_brace (fun hx => (name_char_facts (h.2 _ hx)).2.1 rfl)]

theorem varName_braced {n : Str} (h : NameWord n) (t : Str) : varName ('{' :: '\\' :: (n ++ '}' :: t)) = n := by
  have hx : extractNestedContent ('{' :: '\\' :: (n ++ '}' :: t)) '{' '}' = some ('\\' :: n, n.length + 3) := by
    have hb : Wrappable '{' '}' ('\\' :: n) := by
      refine Boxes.wrappable_nobrace _ ?_ ?_
      · intro c hc
        rcases List.mem_cons.1 hc with rfl | hc
        · decide
        · exact ⟨(name_char_facts (h.2 c hc)).2.1, (name_char_facts (h.2 c hc)).2.2.2.2.2.1⟩
      · rw [List.getLast?_cons_of_ne_nil h.1]
        intro hx
        exact (name_char_facts (h.2 _ (List.mem_of_getLast? hx))).2.2.1 rfl
    have := C01_round_trip [] ('\\' :: n) t '{' '}' (by simp) (by decide) (by decide) (by decide) hb.1 hb.2
    simpa using this
  unfold varName
  rw [show startsWith ('{' :: '\\' :: (n ++ '}' :: t)) ['{'] = true by simp [startsWith, List.isPrefixOf], if_pos rfl, hx]
  simp only [List.isEmpty_cons, Bool.false_eq_true, if_false]
  rw [strip_id (s := '\\' :: n) (by intro c hc; rcases List.mem_cons.1 hc with rfl | hc; decide; exact (name_char_facts (h.2 c hc)).1)]
  rw [if_pos (by simp [startsWith, List.isPrefixOf]), show ('\\' :: n).drop 1 = n from rfl, findSub_brace (fun hx => (name_char_facts (h.2 _ hx)).2.1 rfl)]

theorem asArg_head (b : Bool) (n X : Str) : ∀ c ∈ (asArg b n ++ X).head?, isLetter c = false ∧ isSpace c = false := by
  unfold asArg; cases b <;> simp <;> decide

theorem varName_asArg {n : Str} (h : NameWord n) (b : Bool) : varName (asArg b n) = n := by
  unfold asArg
  cases b with
  | true => exact varName_braced h []
  | false => exact varName_plain h

theorem named_some {n : Str} (f : Str → Def) (h : n ≠ []) : named f n = some (.cmd (f n)) := by
  unfold named; cases n with
  | nil => exact absurd rfl h
  | cons c n => rfl

/-- C61: `\newtoks\name`. -/
theorem C61_newtoks (b : Bool) (ws n rest : Str) (hws : Blank ws) (hn : NameWord n) (hr : b = false → ∀ c ∈ rest.head?, isNameChar c = false) :
    handle ("\\newtoks".toList ++ ((ws ++ asArg b n) ++ rest)) = .ok (some (.cmd (.newtoks n)), ("\\newtoks".toList ++ (ws ++ asArg b n)).length) := by
  obtain ⟨g', he, h0, h1⟩ := cmdOrBrace_eats (g := [(0, "\\newtoks".toList)]) hn hr
  refine kind_run (k := .newtoks) (g := (1, asArg b n) :: g' :: [(0, "\\newtoks".toList)]) ?_ (by decide +kernel) ?_ ?_ (by decide) (by decide)
  · unfold Kind.run
    have hg : ∀ X k, Match.group ⟨[], X, k, (1, asArg b n) :: g' :: [(0, "\\newtoks".toList)]⟩ 1 = some (asArg b n) := by intro X k; simp [Match.group]
    simp only [hg, Option.getD_some]
    have hs : strip (asArg b n) = asArg b n := by
      apply strip_id
      intro c hc
      unfold asArg at hc
      cases b with
      | true =>
        simp at hc
        rcases hc with rfl | rfl | hc | rfl
        · decide
        · decide
        · exact (name_char_facts (hn.2 c hc)).1
        · decide
      | false =>
        simp at hc
        rcases hc with rfl | hc
        · decide
        · exact (name_char_facts (hn.2 c hc)).1
    rw [hs, varName_asArg hn, named_some _ hn.1]
    simp only [Match.stop, List.length_nil, Nat.zero_add, List.length_append]
  · rw [List.append_assoc]; exact head_blank hws space_letter (fun c hc => (asArg_head b n rest c hc).1)
  · exact Eats.seq (Eats.spaces hws (fun c hc => (asArg_head b n rest c hc).2)) (Eats.group 1 he)

/-- C61: `\newlength{\name}`, with nothing before the argument. -/
theorem C61_newlength (w : String) (hw : w = "\\newlength" ∨ w = "\\renewlength") (b : Bool) (n rest : Str) (hn : NameWord n)
    (hr : b = false → ∀ c ∈ rest.head?, isNameChar c = false) :
    handle (w.toList ++ (asArg b n ++ rest)) = .ok (some (.cmd (.newlength n)), (w.toList ++ asArg b n).length) := by
  obtain ⟨g', he, h0, h1⟩ := cmdOrBrace_eats (g := [(0, w.toList)]) hn hr
  refine kind_run (k := .newlength) (g := g' :: [(0, w.toList)]) ?_ (by rcases hw with rfl | rfl <;> decide +kernel) (fun c hc => (asArg_head b n rest c hc).1) ?_ (by decide) (by decide)
  · unfold Kind.run
    have hg : ∀ X k, Match.group ⟨[], X, k, g' :: [(0, w.toList)]⟩ 0 = some w.toList := by intro X k; simp [Match.group, h0]
    have ht : Match.text ⟨[], w.toList ++ (asArg b n ++ rest), w.toList.length + (asArg b n).length, g' :: [(0, w.toList)]⟩ = w.toList ++ asArg b n := by
      unfold Match.text; simp only; rw [← List.append_assoc, ← List.length_append, List.take_left]
    simp only [hg, ht, Option.getD_some, List.drop_left]
    rw [varName_asArg hn, named_some _ hn.1]
    simp only [Match.stop, List.length_nil, Nat.zero_add, List.length_append]
  · exact Eats.seq (x := []) (Eats.spaces (by simp) (fun c hc => (asArg_head b n rest c hc).2)) he

/-- C61: `\setlength{\name}{value}` and the other assignments, with nothing before the name; where the name is not in braces, nothing between
it and the value. -/
theorem C61_setlength (w : String) (hw : w = "\\setlength" ∨ w = "\\addtolength" ∨ w = "\\settoheight" ∨ w = "\\settodepth" ∨ w = "\\settowidth") (b : Bool)
    (n ws v rest : Str) (hn : NameWord n) (hws : Blank ws) (hb : b = false → ws = []) (hv : Wrappable '{' '}' v) :
    handle (w.toList ++ (asArg b n ++ (ws ++ '{' :: (v ++ '}' :: rest)))) =
      .ok (some (.cmd (.newlength n)), (w.toList ++ (asArg b n ++ (ws ++ '{' :: (v ++ ['}'])))).length) := by
  obtain ⟨g', he, h0, h1⟩ := cmdOrBrace_eats (b := b) (rest := (ws ++ ['{']) ++ (v ++ '}' :: rest)) (g := [(0, w.toList)]) hn (by
    intro hx; rw [hb hx]; simp; decide)
  have hmem : w.toList ∈ Kind.setlength.words := by rcases hw with rfl | rfl | rfl | rfl | rfl <;> decide +kernel
  generalize hwl : w.toList = w' at he hmem
  have hl := fun c hc => (asArg_head b n (ws ++ '{' :: (v ++ '}' :: rest)) c hc).1
  have hfirst := kind_hit (k := .setlength) (w := w') (X := asArg b n ++ (ws ++ '{' :: (v ++ '}' :: rest))) (t := asArg b n ++ (ws ++ ['{'])) (rest := v ++ '}' :: rest)
    (g := g' :: [(0, w')]) hmem (by simp) hl
    (Eats.seq (x := []) (Eats.spaces (by simp) (fun c hc => (asArg_head b n _ c (by rw [← List.append_assoc]; exact hc)).2)) (Eats.seq he (Eats.seq (Eats.spaces hws (by simp; decide)) (Eats.lit _ _ _)))) (by decide)
  refine handle_of hfirst (by decide) ?_
  unfold Kind.run
  have hg : ∀ X k, Match.group ⟨[], X, k, g' :: [(0, w')]⟩ 0 = some w' := by intro X k; simp [Match.group, h0]
  have ht : Match.text ⟨[], w' ++ (asArg b n ++ (ws ++ '{' :: (v ++ '}' :: rest))), w'.length + (asArg b n ++ (ws ++ ['{'])).length, g' :: [(0, w')]⟩ = w' ++ (asArg b n ++ (ws ++ ['{'])) := by
    unfold Match.text; simp only
    rw [show w' ++ (asArg b n ++ (ws ++ '{' :: (v ++ '}' :: rest))) = (w' ++ (asArg b n ++ (ws ++ ['{']))) ++ (v ++ '}' :: rest) by simp, ← List.length_append, List.take_left]
  have hs : Match.stop ⟨[], w' ++ (asArg b n ++ (ws ++ '{' :: (v ++ '}' :: rest))), w'.length + (asArg b n ++ (ws ++ ['{'])).length, g' :: [(0, w')]⟩ - 1 = (w' ++ (asArg b n ++ ws)).length := by
    simp [Match.stop]; omega
  have hbody : extractNestedContent ((w' ++ (asArg b n ++ (ws ++ '{' :: (v ++ '}' :: rest)))).drop (w' ++ (asArg b n ++ ws)).length) '{' '}' = some (v, v.length + 2) := by
    rw [show w' ++ (asArg b n ++ (ws ++ '{' :: (v ++ '}' :: rest))) = (w' ++ (asArg b n ++ ws)) ++ '{' :: (v ++ '}' :: rest) by simp, List.drop_left]
    have := C01_round_trip [] v rest '{' '}' (by simp) (by decide) (by decide) (by decide) hv.1 hv.2
    simpa using this
  have hvar : varName ((asArg b n ++ (ws ++ ['{'])).dropLast) = n := by
    rw [← List.append_assoc, List.dropLast_concat]
    cases b with
    | false => rw [hb rfl, List.append_nil]; exact varName_asArg hn false
    | true =>
      unfold asArg
      rw [if_pos rfl, show '{' :: '\\' :: (n ++ ['}']) ++ ws = '{' :: '\\' :: (n ++ '}' :: ws) by simp]
      exact varName_braced hn ws
  simp only [hg, ht, hs, hbody, Option.getD_some, List.drop_left, hvar]
  rw [named_some _ hn.1]
  refine congrArg Except.ok (Prod.ext rfl ?_)
  show v.length + 2 + (w' ++ (asArg b n ++ ws)).length = _
  simp; omega

/-- C61: `\newcount\name`, `\newdimen\name`, `\newskip\name`, `\newmuskip\name` and `\newfam\name`. -/
theorem C61_register (w : String) (hw : w ∈ ["\\newcount", "\\newdimen", "\\newskip", "\\newmuskip", "\\renewcount", "\\renewdimen", "\\renewskip", "\\renewmuskip", "\\newfam"])
    (ws n rest : Str) (hws : Blank ws) (hn : NameWord n) (hr : ∀ c ∈ rest.head?, isSpace c = true ∨ c = '{' ∨ c = '[') :
    handle (w.toList ++ (ws ++ '\\' :: n ++ rest)) = .ok (some (.cmd (.newX n)), (w.toList ++ (ws ++ '\\' :: n)).length) := by
  have hsn : strip n = n := strip_id fun c hc => (name_char_facts (hn.2 c hc)).1
  have fin : ∀ (k : Kind), w.toList ∈ k.words → k.tail = .seq spaces (bsRun (fun c => !isSpace c && c != '{' && c != '[') 1) → k ≠ .definecolor ∧ k ≠ .theoremstyle →
      k ≠ .expandafter ∧ k ≠ .endcsname ∧ k ≠ .namedef → (∀ s m, k.run s m = .ok (some (.cmd (.newX (strip ((m.group 1).getD [])))), m.stop)) →
      handle (w.toList ++ (ws ++ '\\' :: n ++ rest)) = .ok (some (.cmd (.newX n)), (w.toList ++ (ws ++ '\\' :: n)).length) := by
    intro k h1 h2 h3 h4 h5
    refine kind_run (k := k) (g := [(1, n), (0, w.toList)]) ?_ h1 ?_ ?_ h3 h4
    · rw [h5]; simp [Match.group, Match.stop, hsn]
    · rw [List.append_assoc]; exact head_blank hws space_letter (by simp; decide)
    · rw [h2]
      refine Eats.seq (Eats.spaces hws (by simp; decide)) (Eats.seq (x := ['\\']) (Eats.lit _ _ _) (Eats.group 1 (Eats.plus_chr _ hn.1 ?_ ?_)))
      · intro c hc; have := name_char_facts (hn.2 c hc); simp [this.1, this.2.1, this.2.2.2.2.2.2]
      · intro c hx; rcases hr c hx with h | h | h <;> simp [h]
  by_cases hf : w = "\\newfam"
  · exact fin .newfam (by rw [hf]; decide +kernel) rfl (by decide) (by decide) (fun _ _ => rfl)
  · refine fin .newother ?_ rfl (by decide) (by decide) (fun _ _ => rfl)
    have key : ∀ w ∈ ["\\newcount", "\\newdimen", "\\newskip", "\\newmuskip", "\\renewcount", "\\renewdimen", "\\renewskip", "\\renewmuskip", "\\newfam"], w ≠ "\\newfam" → w.toList ∈ Kind.newother.words := by
      decide +kernel
    exact key w hw hf

/-- C61: `\newcolumntype{X}[n]{...}` is used up and gives nothing. -/
theorem C61_columntype (w : String) (hw : w = "\\newcolumntype" ∨ w = "\\renewcolumntype") (ws n : Str) (num : Option Nat) (ws2 v rest : Str)
    (hws : Blank ws) (hn : '}' ∉ n) (hws2 : Blank ws2) (hv : Wrappable '{' '}' v) :
    handle (w.toList ++ (ws ++ ('{' :: (n ++ ['}']) ++ (bracketed (num.map natStr) ++ (ws2 ++ '{' :: (v ++ '}' :: rest)))))) =
      .ok (none, (w.toList ++ (ws ++ ('{' :: (n ++ ['}']) ++ (bracketed (num.map natStr) ++ (ws2 ++ '{' :: (v ++ ['}'])))))).length) := by
  have hmem : w.toList ∈ Kind.columntype.words := by rcases hw with rfl | rfl <;> decide +kernel
  generalize w.toList = w' at hmem
  have hl : ∀ c ∈ (ws ++ ('{' :: (n ++ ['}']) ++ (bracketed (num.map natStr) ++ (ws2 ++ '{' :: (v ++ '}' :: rest))))).head?, isLetter c = false := head_blank hws space_letter (by simp; decide)
  have hnum : Eats (.opt (.seq spaces (.seq (.lit ['[']) (.seq (.plus (.chr isDigit)) (.lit [']']))))) (bracketed (num.map natStr)) ((ws2 ++ ['{']) ++ (v ++ '}' :: rest)) [(1, n), (0, w')] [(1, n), (0, w')] := by
    cases num with
    | none =>
      refine Eats.optNone ?_
      rw [List.append_assoc]
      exact Dead.spaces_char hws2 (by simp; decide) (by decide) (by simp)
    | some k =>
      exact Eats.optSome (Eats.seq (x := []) (Eats.spaces (by simp) (by simp; decide)) (Eats.seq (x := ['[']) (Eats.lit _ _ _) (Eats.seq (Eats.plus_chr isDigit (natStr_ne_nil k) isDigit_nat (by simp; decide)) (Eats.lit _ _ _))))
  have hfirst := kind_hit (k := .columntype) (w := w') (X := ws ++ ('{' :: (n ++ ['}']) ++ (bracketed (num.map natStr) ++ (ws2 ++ '{' :: (v ++ '}' :: rest)))))
    (t := ws ++ ('{' :: (n ++ ['}']) ++ (bracketed (num.map natStr) ++ (ws2 ++ ['{'])))) (rest := v ++ '}' :: rest) (g := [(1, n), (0, w')]) hmem (by simp) hl
    (Eats.seq (Eats.spaces hws (by simp; decide)) (Eats.seq (inBraces_eats 1 hn) (Eats.seq hnum (Eats.seq (Eats.spaces hws2 (by simp; decide)) (Eats.lit _ _ _))))) (by decide)
  refine handle_of hfirst (by decide) ?_
  unfold Kind.run
  have hs : Match.stop ⟨[], w' ++ (ws ++ ('{' :: (n ++ ['}']) ++ (bracketed (num.map natStr) ++ (ws2 ++ '{' :: (v ++ '}' :: rest))))), w'.length + (ws ++ ('{' :: (n ++ ['}']) ++ (bracketed (num.map natStr) ++ (ws2 ++ ['{'])))).length, [(1, n), (0, w')]⟩ - 1 =
      (w' ++ (ws ++ ('{' :: (n ++ ['}']) ++ (bracketed (num.map natStr) ++ ws2)))).length := by
    simp [Match.stop]; omega
  have hbody : extractNestedContent ((w' ++ (ws ++ ('{' :: (n ++ ['}']) ++ (bracketed (num.map natStr) ++ (ws2 ++ '{' :: (v ++ '}' :: rest)))))).drop (w' ++ (ws ++ ('{' :: (n ++ ['}']) ++ (bracketed (num.map natStr) ++ ws2)))).length) '{' '}' = some (v, v.length + 2) := by
    rw [show w' ++ (ws ++ ('{' :: (n ++ ['}']) ++ (bracketed (num.map natStr) ++ (ws2 ++ '{' :: (v ++ '}' :: rest))))) = (w' ++ (ws ++ ('{' :: (n ++ ['}']) ++ (bracketed (num.map natStr) ++ ws2)))) ++ '{' :: (v ++ '}' :: rest) by simp, List.drop_left]
    have := C01_round_trip [] v rest '{' '}' (by simp) (by decide) (by decide) (by decide) hv.1 hv.2
    simpa using this
  simp only [hs, hbody]
  refine congrArg Except.ok (Prod.ext rfl ?_)
  show v.length + 2 + (w' ++ (ws ++ ('{' :: (n ++ ['}']) ++ (bracketed (num.map natStr) ++ ws2)))).length = _
  simp; omega

end L2J.Defn
