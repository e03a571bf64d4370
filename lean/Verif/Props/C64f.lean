import Verif.Props.C64e
import Verif.Props.C61f
/-! C64: definitions. -/
namespace L2J.Pre
open Cmds Defn L2J.Spec

/-! What takes arguments. -/

/-- `#` and a digit. -/
def _root_.L2J.Spec.HashDigit (s : Str) : Prop := ∃ a d b, s = a ++ '#' :: d :: b ∧ isDigit d = true

/-- An argument is mentioned: `#` and a digit, where the `#` is not escaped. -/
def _root_.L2J.Spec.MentionsArg (s : Str) : Prop := ∃ a d b, s = a ++ '#' :: d :: b ∧ isDigit d = true ∧ a.getLast? ≠ some '\\'

/-- The command that is defined takes arguments. -/
def _root_.L2J.Spec.TakesArgs : Defn.Tok → Prop
  | .cmd (.newcommand _ c n _ _) => 0 < n ∨ MentionsArg c
  | .cmd (.alphabet _) => True
  | .cmd (.def_ name params c _ _) => HashDigit (name ++ params) ∨ MentionsArg c
  | .cmd (.let_ _ c _) => MentionsArg c
  | .cmd (.futurelet _ c) => MentionsArg c
  | _ => False

theorem cutParam_iff : ∀ s : Str, (cutParam s).isSome = true ↔ HashDigit s
  | [] => by
    simp only [cutParam, Option.isSome_none, Bool.false_eq_true, false_iff]
    rintro ⟨a, d, b, h, _⟩; cases a <;> cases h
  | c :: s => by
    have ih := cutParam_iff s
    have step : HashDigit (c :: s) ↔ (c = '#' ∧ (s.head?.map isDigit).getD false = true) ∨ HashDigit s := by
      constructor
      · rintro ⟨a, d, b, h, hd⟩
        cases a with
        | nil => simp at h; left; exact ⟨h.1, by simp [h.2, hd]⟩
        | cons x a => simp at h; exact .inr ⟨a, d, b, h.2, hd⟩
      · rintro (⟨rfl, h⟩ | ⟨a, d, b, h, hd⟩)
        · cases s with
          | nil => simp at h
          | cons d b => exact ⟨[], d, b, rfl, by simpa using h⟩
        · exact ⟨c :: a, d, b, by rw [h]; rfl, hd⟩
    rw [step]
    by_cases hc : c = '#'
    · subst hc
      rw [show cutParam ('#' :: s) = if (s.head?.map isDigit).getD false then some ([], s.dropWhile isDigit) else (cutParam s).map fun r => ('#' :: r.1, r.2) from rfl]
      by_cases hd : (s.head?.map isDigit).getD false = true
      · rw [if_pos hd]; simp [hd]
      · rw [if_neg hd, Option.isSome_map, ih]; simp [hd]
    · unfold cutParam
      split
      · rename_i h; cases h
      · rename_i h; injection h with h _; exact absurd h hc
      · rename_i h1 h2; cases h2; rw [Option.isSome_map, ih]; simp [hc]

theorem pieces_ne : ∀ (n : Nat) (s : Str), pieces n s ≠ []
  | 0, s => by simp [pieces]
  | n + 1, s => by unfold pieces; split <;> simp

theorem defBody_args (c : Cmds.Cfg) (g : Nat) (s : Str) : 0 < (defBody c g s).2 ↔ HashDigit s := by
  rw [← cutParam_iff]
  cases s with
  | nil => simp [defBody, pieces, cutParam]
  | cons x s =>
    unfold defBody
    cases h : cutParam (x :: s) with
    | none =>
      have : pieces (x :: s).length (x :: s) = [x :: s] := by
        simp only [List.length_cons, pieces, h]
      rw [this]; simp
    | some r =>
      obtain ⟨a, b⟩ := r
      have : pieces (x :: s).length (x :: s) = a :: pieces s.length b := by
        simp only [List.length_cons, pieces, h]
      rw [this]
      cases hp : pieces s.length b with
      | nil => exact absurd hp (pieces_ne _ _)
      | cons p ps => simp

theorem hash_at (rev s : Str) : (hashRe.matchAt rev s).isSome = true ↔ rev.head? ≠ some '\\' ∧ ∃ k d b, s = List.replicate (k + 1) '#' ++ d :: b ∧ isDigit d = true := by
  have hb : ∀ o : Option Char, (Option.any (fun x => x == '\\') o = true) ↔ o = some '\\' := by
    intro o; cases o <;> simp
  have h0 : (hashRe.matchAt rev s).isSome = live hashRe ⟨rev, s, []⟩ := by
    rw [Re.matchAt_eq]; unfold live; cases hashRe.run ⟨rev, s, []⟩ <;> rfl
  rw [h0]
  unfold hashRe
  rw [live_behind, Bool.and_eq_true, Bool.not_eq_true', ← Bool.not_eq_true, hb]
  refine and_congr_right fun _ => ?_
  constructor
  · intro h
    unfold live at h
    simp only [Bool.not_eq_true', List.isEmpty_eq_false_iff] at h
    obtain ⟨st1, h1, h2⟩ := run_seq_ne h
    obtain ⟨x, hx, hxs⟩ := Fmt.mem_plus_chr h1
    obtain ⟨st2, h3⟩ := List.exists_mem_of_ne_nil _ h2
    have hd : ∃ d b, st1.rest = d :: b ∧ isDigit d = true := by
      rw [run_plus_chr] at h3
      split at h3
      · simp at h3
      · rename_i y r hy
        split at h3
        · rename_i hp; exact ⟨y, r, hy, hp⟩
        · simp at h3
    obtain ⟨d, b, hdb, hd⟩ := hd
    have hx0 : x ≠ [] := by
      rintro rfl
      have h1' := h1
      rw [run_plus_chr] at h1'
      simp only at hx
      split at h1'
      · simp at h1'
      · rename_i y r hy
        simp only at hy
        split at h1'
        · rename_i hp
          obtain ⟨z, hz, _⟩ := Fmt.mem_charRuns _ _ _ _ _ h1'
          have := congrArg List.length hx
          rw [hy, hz] at this
          simp at this
          omega
        · simp at h1'
    refine ⟨x.length - 1, d, b, ?_, hd⟩
    simp only at hx
    rw [hx, hdb, show x.length - 1 + 1 = x.length by have := List.length_pos_iff.2 hx0; omega]
    congr 1
    refine List.eq_replicate_of_mem fun c hc => ?_
    simpa using hxs c hc
  · rintro ⟨k, d, b, rfl, hd⟩
    have e := Eats.seq (a := .plus (.chr (· == '#'))) (b := .plus (.chr isDigit)) (x := List.replicate (k + 1) '#') (y := (d :: b).takeWhile isDigit) (rest := (d :: b).dropWhile isDigit) (g := []) (g1 := []) (g2 := [])
      (Eats.plus_chr _ (by simp) (by intro c hc; simp [List.mem_replicate] at hc; simp [hc]) (by
        rw [List.takeWhile_append_dropWhile]; intro c hc; simp at hc; subst hc
        simp; rintro rfl; revert hd; decide))
      (Eats.plus_chr _ (by rw [List.takeWhile_cons, if_pos hd]; simp) (fun c hc => by have := List.all_takeWhile (p := isDigit) (l := d :: b); rw [List.all_eq_true] at this; exact this c hc) (by
        intro c hc
        have := List.head?_dropWhile_not isDigit (d :: b)
        rw [hc] at this; simpa using this))
    have := e.matchAt rev
    rw [List.append_assoc, List.takeWhile_append_dropWhile] at this
    rw [Re.matchAt_eq] at this
    unfold live
    cases hr : Re.run (.seq (.plus (.chr (· == '#'))) (.plus (.chr isDigit))) ⟨rev, List.replicate (k + 1) '#' ++ d :: b, []⟩ with
    | nil => rw [hr] at this; cases this
    | cons _ _ => rfl

theorem hasHash_iff (s : Str) : hasHash s = true ↔ MentionsArg s := by
  have h0 : hasHash s = true ↔ ∃ k, k ≤ s.length ∧ (hashRe.matchAt (s.take k).reverse (s.drop k)).isSome = true := by
    unfold hasHash Re.search
    rcases Re.searchFrom_spec hashRe s [] with ⟨h1, h2⟩ | ⟨k, m, hk, h1, h2, _⟩
    · rw [h1]
      simp only [Option.isSome_none, Bool.false_eq_true, false_iff]
      rintro ⟨k, hk, h⟩
      have := h2 k hk
      rw [List.append_nil] at this
      rw [this] at h; cases h
    · rw [h1]
      rw [List.append_nil] at h2
      simp only [Option.isSome_some, true_iff]
      exact ⟨k, hk, by rw [h2]; rfl⟩
  rw [h0]
  constructor
  · rintro ⟨k, hk, h⟩
    obtain ⟨h1, j, d, b, h2, hd⟩ := (hash_at _ _).1 h
    rw [List.head?_reverse] at h1
    refine ⟨s.take k ++ List.replicate j '#', d, b, ?_, hd, ?_⟩
    · conv => lhs; rw [← List.take_append_drop k s, h2]
      rw [List.replicate_succ']; simp
    · rw [List.getLast?_append]
      cases j with
      | zero => simpa using h1
      | succ j => rw [List.replicate_succ']; simp
  · rintro ⟨a, d, b, rfl, hd, ha⟩
    refine ⟨a.length, by simp, (hash_at _ _).2 ?_⟩
    rw [List.take_left, List.drop_left, List.head?_reverse]
    exact ⟨ha, 0, d, b, rfl, hd⟩

theorem takesArgs_iff (c : Cmds.Cfg) (t : Defn.Tok) : takesArgs c t = true ↔ TakesArgs t := by
  have hnil : ¬ MentionsArg [] := by rintro ⟨a, d, b, h, _⟩; cases a <;> cases h
  unfold takesArgs
  rw [Bool.or_eq_true, decide_eq_true_eq, hasHash_iff]
  cases t with
  | cmd d => cases d <;> simp [numArgs, tokContent, TakesArgs, defBody_args, hnil]
  | _ => simp [numArgs, tokContent, TakesArgs, hnil]

/-! How definitions begin. -/

/-- The word is no formula, not quoted and not `\addto`. -/
def startsDef (w : Str) : Bool :=
  w.head? == some '\\' && (w.tail.head?.any fun c => !escapable c && c != '[' && c != '(') &&
    !("\\begin".toList.isPrefixOf w || w.isPrefixOf "\\begin".toList) &&
    (!("\\addto".toList.isPrefixOf w || w.isPrefixOf "\\addto".toList) || w == "\\addtolength".toList)

theorem startsDef_words : ∀ w ∈ defineWords, startsDef w.toList = true := by decide +kernel

theorem addto_length (X : Str) : addtoRe.matchAt [] ("\\addtolength".toList ++ X) = none := by
  have : Dead addtoRe ("\\addto".toList ++ ('l' :: ("ength".toList ++ X))) := by
    exact Dead.after_lit (may_dead (w := ['l']) (by decide +kernel) _)
  exact this.matchAt []

theorem define_start {w : String} (hw : w ∈ defineWords) (X : Str) :
    firstHit none (w.toList ++ X) = some 0 ∧ addtoRe.matchAt [] (w.toList ++ X) = none ∧ NoFormula (w.toList ++ X) ∧ (w.toList ++ X).head? ≠ some '`' ∧ 0 < w.toList.length := by
  have hf := startsDef_words w hw
  revert hf
  generalize w.toList = v
  intro hf
  simp only [startsDef, Bool.and_eq_true, beq_iff_eq, Bool.not_eq_true', Bool.or_eq_false_iff, Bool.or_eq_true] at hf
  obtain ⟨⟨⟨h1, h2⟩, h3, h4⟩, h5⟩ := hf
  have npre : ∀ {u : Str}, u.isPrefixOf v = false → v.isPrefixOf u = false → ¬ u <+: v ++ X := by
    intro u ha hb hp
    rcases Fmt.prefix_split hp with h | ⟨d, r, h, _⟩
    · rw [List.isPrefixOf_iff_prefix.2 h] at ha; cases ha
    · rw [List.isPrefixOf_iff_prefix.2 ⟨_, h.symm⟩] at hb; cases hb
  have ha : addtoRe.matchAt [] (v ++ X) = none := by
    rcases h5 with ⟨a, b⟩ | rfl
    · exact (Dead.seq (Dead.lit (npre a b))).matchAt []
    · exact addto_length X
  have hb := npre h3 h4
  obtain ⟨c, t, rfl, hc⟩ : ∃ c t, v = '\\' :: c :: t ∧ (!escapable c && c != '[' && c != '(') = true := by
    cases v with
    | nil => cases h1
    | cons a v =>
      cases v with
      | nil => simp at h2
      | cons c t => simp at h1; exact ⟨c, t, by rw [h1], by simpa using h2⟩
  simp only [Bool.and_eq_true, Bool.not_eq_true', bne_iff_ne, ne_eq] at hc
  refine ⟨hit_slash (s := c :: t ++ X) (by simp [hc.1.1]), ha, .inl ?_, by simp, by simp⟩
  rintro (⟨u, hu⟩ | ⟨u, hu⟩ | ⟨u, hu⟩ | ⟨n, _, v, star, hv, u, hu⟩)
  · simp at hu
  · simp at hu; exact hc.1.2 hu.1.symm
  · simp at hu; exact hc.2 hu.1.symm
  · refine hb ?_
    rw [← hu]; unfold tag; rw [List.append_assoc]; exact ⟨_, rfl⟩

/-! What is defined. -/

/-- `t`, followed by `rest`, is a definition, and this is what it defines. -/
inductive _root_.L2J.Spec.Defines : Str → Str → Defn.Tok → Prop
  | newcommand (c : NewCommandText) (rest) : c.Ok → Defines c.written rest c.meaning
  | def_ (d : DefText) (rest) : d.Ok → Defines d.written rest d.meaning
  | let_ (l : LetText) (rest) : l.Ok → (∀ c ∈ rest.head?, isSpace c = true ∨ c = '{') → Defines l.written rest (.cmd (.let_ l.name ('\\' :: l.target) none))
  | newtheorem (t : TheoremText) (rest) : t.Ok → (t.within = none → rest.head? ≠ some '[') → Defines t.written rest (.theorem_ t.name t.title t.counter t.within)
  | newif (w : String) (ws n rest) : w = "\\newif" ∨ w = "\\renewif" → Blank ws → n ≠ [] → (∀ c ∈ n, isSpace c = false ∧ c ≠ '{' ∧ c ≠ '\\') →
      (∀ c ∈ rest.head?, isSpace c = true ∨ c = '{' ∨ c = '\\') → Defines (w.toList ++ (ws ++ ("\\if".toList ++ n))) rest (.cmd (.newif n))
  | newcounter (w : String) (ws n rest) : w = "\\newcounter" ∨ w = "\\renewcounter" ∨ w = "\\stepcounter" → Blank ws → n ≠ [] → '}' ∉ n →
      Defines (w.toList ++ (ws ++ '{' :: (n ++ ['}']))) rest (.cmd (.newcounter (strip n)))
  | setcounter (ws n ws2 v rest) : Blank ws → n ≠ [] → '}' ∉ n → Blank ws2 → v ≠ [] → '}' ∉ v →
      Defines ("\\setcounter".toList ++ (ws ++ ('{' :: (n ++ ['}']) ++ (ws2 ++ '{' :: (v ++ ['}']))))) rest (.cmd (.newcounter (strip n)))
  | crefname (w : String) (n a b rest) : w = "\\crefname" ∨ w = "\\Crefname" → '}' ∉ n → '}' ∉ a → '}' ∉ b →
      Defines (w.toList ++ ('{' :: (n ++ ['}']) ++ ('{' :: (a ++ ['}']) ++ '{' :: (b ++ ['}'])))) rest (.cref n a b)
  | floatname (n a rest) : '}' ∉ n → '}' ∉ a → Defines ("\\floatname".toList ++ ('{' :: (n ++ ['}']) ++ '{' :: (a ++ ['}']))) rest (.floatname n a)
  | definecolor (ws n ws2 f ws3 v rest) : Blank ws → WellWrapped '{' '}' [([], n), (ws2, f), (ws3, v)] →
      Defines ("\\definecolor".toList ++ (ws ++ wrapAll '{' '}' [([], n), (ws2, f), (ws3, v)])) rest (.color n f v)
  | paired (b : Bool) (ws n ws2 l ws3 r rest) : Blank ws → NameWord n → Blank ws2 → WellWrapped '{' '}' [([], l), (ws3, r)] →
      Defines ("\\DeclarePairedDelimiter".toList ++ (ws ++ (asArg b n ++ (ws2 ++ wrapAll '{' '}' [([], l), (ws3, r)])))) rest (.cmd (.paired n l r))
  | newtoks (b : Bool) (ws n rest) : Blank ws → NameWord n → (b = false → ∀ c ∈ rest.head?, isNameChar c = false) →
      Defines ("\\newtoks".toList ++ (ws ++ asArg b n)) rest (.cmd (.newtoks n))
  | newlength (w : String) (b : Bool) (n rest) : w = "\\newlength" ∨ w = "\\renewlength" → NameWord n → (b = false → ∀ c ∈ rest.head?, isNameChar c = false) →
      Defines (w.toList ++ asArg b n) rest (.cmd (.newlength n))
  | setlength (w : String) (b : Bool) (n ws v rest) : w = "\\setlength" ∨ w = "\\addtolength" ∨ w = "\\settoheight" ∨ w = "\\settodepth" ∨ w = "\\settowidth" → NameWord n →
      Blank ws → (b = false → ws = []) → Wrappable '{' '}' v → Defines (w.toList ++ (asArg b n ++ (ws ++ '{' :: (v ++ ['}'])))) rest (.cmd (.newlength n))
  | register (w : String) (ws n rest) : w ∈ ["\\newcount", "\\newdimen", "\\newskip", "\\newmuskip", "\\renewcount", "\\renewdimen", "\\renewskip", "\\renewmuskip", "\\newfam"] →
      Blank ws → NameWord n → (∀ c ∈ rest.head?, isSpace c = true ∨ c = '{' ∨ c = '[') → Defines (w.toList ++ (ws ++ '\\' :: n)) rest (.cmd (.newX n))
  | font (f : FontText) (ws r) : f.Ok → Blank ws → (∀ c ∈ r.head?, isSpace c = false) → (f.size = none → (ws = [] → r = []) ∧ ¬ "at".toList <+: r) →
      Defines f.written (ws ++ r) (.font f.name f.source (f.size.map fun z => (z.number, z.unit.toList)))
  | alphabet (w : String) (n : Nat) (ws c rest) (l : List (Str × Str)) : (w = "\\DeclareMathAlphabet" ∧ n = 5) ∨ (w = "\\DeclareSymbolFontAlphabet" ∧ n = 2) → l.length + 1 = n →
      Blank ws → WellWrapped '{' '}' (([], c) :: l) → Defines (w.toList ++ (ws ++ wrapAll '{' '}' (([], c) :: l))) rest (.cmd (.alphabet c))
  | namedef (ws n params body rest) : Blank ws → CsWord n → '{' ∉ params → Wrappable '{' '}' body →
      Defines ("\\@namedef".toList ++ ((ws ++ '{' :: (n ++ ['}'])) ++ (params ++ '{' :: (body ++ ['}'])))) rest
        (.cmd (.def_ n (strip params) body false (some (' ' :: (n ++ [' '])))))

theorem newcommand_define : ∀ w ∈ newCommandWords, w ∈ defineWords := by decide
theorem def_define : ∀ w ∈ defTextWords, w ∈ defineWords := by decide
theorem register_define : ∀ w ∈ ["\\newcount", "\\newdimen", "\\newskip", "\\newmuskip", "\\renewcount", "\\renewdimen", "\\renewskip", "\\renewmuskip", "\\newfam"], w ∈ defineWords := by decide

theorem defines_word {t rest : Str} {tok : Defn.Tok} (h : Defines t rest tok) : ∃ w ∈ defineWords, ∃ x, t = w.toList ++ x := by
  cases h with
  | newcommand c _ hc => exact ⟨c.word, newcommand_define _ hc.1, _, rfl⟩
  | def_ d _ hd => exact ⟨d.word, def_define _ hd.1, _, rfl⟩
  | let_ l _ hl _ => exact ⟨"\\let", by decide, _, rfl⟩
  | newtheorem t _ _ _ => exact ⟨"\\newtheorem", by decide, _, rfl⟩
  | newif w _ _ _ hw => exact ⟨w, by rcases hw with rfl | rfl <;> decide, _, rfl⟩
  | newcounter w _ _ _ hw => exact ⟨w, by rcases hw with rfl | rfl | rfl <;> decide, _, rfl⟩
  | setcounter => exact ⟨"\\setcounter", by decide, _, rfl⟩
  | crefname w _ _ _ _ hw => exact ⟨w, by rcases hw with rfl | rfl <;> decide, _, rfl⟩
  | floatname => exact ⟨"\\floatname", by decide, _, rfl⟩
  | definecolor => exact ⟨"\\definecolor", by decide, _, rfl⟩
  | paired => exact ⟨"\\DeclarePairedDelimiter", by decide, _, rfl⟩
  | newtoks => exact ⟨"\\newtoks", by decide, _, rfl⟩
  | newlength w _ _ _ hw => exact ⟨w, by rcases hw with rfl | rfl <;> decide, _, rfl⟩
  | setlength w _ _ _ _ _ hw => exact ⟨w, by rcases hw with rfl | rfl | rfl | rfl | rfl <;> decide, _, rfl⟩
  | register w _ _ _ hw => exact ⟨w, register_define _ hw, _, rfl⟩
  | font => exact ⟨"\\font", by decide, _, rfl⟩
  | alphabet w n _ _ _ _ hw => exact ⟨w, by rcases hw with ⟨rfl, _⟩ | ⟨rfl, _⟩ <;> decide, _, rfl⟩
  | namedef => exact ⟨"\\@namedef", by decide, _, rfl⟩

theorem defines_handle {t rest : Str} {tok : Defn.Tok} (h : Defines t rest tok) : Defn.handle (t ++ rest) = .ok (some tok, t.length) := by
  cases h with
  | newcommand c _ hc => exact C61_newcommand c hc _
  | def_ d _ hd => exact C61_def d hd _
  | let_ l _ hl hr => exact C61_let l hl _ hr
  | newtheorem t _ h1 h2 => exact C61_newtheorem t h1 _ h2
  | newif w ws n _ hw hws hn hc hr => rw [List.append_assoc]; exact C61_newif w hw ws n _ hws hn hc hr
  | newcounter w ws n _ hw hws hn hc => rw [List.append_assoc]; exact C61_newcounter w hw ws n _ hws hn hc
  | setcounter ws n ws2 v _ h1 h2 h3 h4 h5 h6 => rw [List.append_assoc]; exact C61_setcounter ws n ws2 v _ h1 h2 h3 h4 h5 h6
  | crefname w n a b _ hw h1 h2 h3 => rw [List.append_assoc]; exact C61_crefname w hw n a b _ h1 h2 h3
  | floatname n a _ h1 h2 => rw [List.append_assoc]; exact C61_floatname n a _ h1 h2
  | definecolor ws n ws2 f ws3 v _ h1 h2 => rw [List.append_assoc, List.append_assoc]; exact C61_definecolor ws n ws2 f ws3 v _ h1 h2
  | paired b ws n ws2 l ws3 r _ h1 h2 h3 h4 => simp only [List.append_assoc]; exact C61_paired b ws n ws2 l ws3 r _ h1 h2 h3 h4
  | newtoks b ws n _ h1 h2 h3 => rw [List.append_assoc]; exact C61_newtoks b ws n _ h1 h2 h3
  | newlength w b n _ hw h1 h2 => rw [List.append_assoc]; exact C61_newlength w hw b n _ h1 h2
  | setlength w b n ws v _ hw h1 h2 h3 h4 =>
    have := C61_setlength w hw b n ws v rest h1 h2 h3 h4
    rw [show w.toList ++ (asArg b n ++ (ws ++ '{' :: (v ++ ['}']))) ++ rest = w.toList ++ (asArg b n ++ (ws ++ '{' :: (v ++ '}' :: rest))) by simp]
    exact this
  | register w ws n _ hw h1 h2 h3 =>
    have := C61_register w hw ws n rest h1 h2 h3
    rw [List.append_assoc]; exact this
  | font f ws r hf hws hr hn => exact C61_font f hf ws r hws hr hn
  | alphabet w n ws c _ l hw hn hws h =>
    rw [List.append_assoc, List.append_assoc]; exact C61_alphabet w n hw ws c _ l hn hws h
  | namedef ws n params body _ h1 h2 h3 h4 =>
    have := C61_namedef ws n params body rest h1 h2 h3 h4
    rw [show ("\\@namedef".toList ++ ((ws ++ '{' :: (n ++ ['}'])) ++ (params ++ '{' :: (body ++ ['}'])))) ++ rest =
      "\\@namedef".toList ++ ((ws ++ '{' :: (n ++ ['}'])) ++ (params ++ '{' :: (body ++ '}' :: rest))) by simp]
    exact this

theorem canHandle_of {s : Str} {tok : Defn.Tok} {e : Int} (h : Defn.handle s = .ok (some tok, e)) : Defn.canHandle s = true := by
  unfold Defn.canHandle
  unfold Defn.handle Defn.handleN at h
  cases hf : Defn.firstKind s order with
  | some x => rfl
  | none => rw [hf] at h; cases h

/-- What a definition enters into the history. -/
def _root_.L2J.Spec.entered (t : Defn.Tok) (sty : Bool) : List (Def × Bool) :=
  match t.registers with
  | none => []
  | some d => if d.name.isEmpty || whitelisted.contains d.name then [] else [(d, sty)]

/-- A definition whose body is not expanded when it is made, or for which this changes nothing. -/
def _root_.L2J.Spec.Settled : Def → Bool → Prop
  | .let_ _ c _, sty => sty = true ∨ OnlyBuiltin c
  | .def_ _ _ c true _, sty => sty = true ∨ OnlyBuiltin c
  | _, _ => True

theorem register_ok {cfg : Cmds.Cfg} (hl : Letters cfg) {h : List (Def × Bool)} {p : Proc} (hr : registerAll cfg Proc.empty h = some (.ok p)) (hp : ∀ x ∈ h, PlainDef x.1) {d : Def} {sty : Bool}
    (hs : Settled d sty) : ∃ p', register cfg p d sty = some (.ok p') := by
  have hx : ∀ c : Str, sty = true ∨ OnlyBuiltin c → p.expand cfg (if sty then [] else c) true false = some (.ok (if sty then [] else c)) := by
    intro c hc
    refine C34_expand_partial cfg hl h hp p hr _ ?_ false
    cases sty with
    | true => exact .nil
    | false => simpa using hc
  have hg : ∀ u c e, ∃ o, guarded u c e = some (.ok o) := by
    intro u c e; unfold guarded; split
    · exact ⟨_, rfl⟩
    · exact ⟨_, rfl⟩
  have he : ∃ o, entryOf cfg p d sty = some (.ok o) := by
    unfold entryOf
    simp only
    split
    · exact ⟨_, rfl⟩
    · cases d with
      | newcommand n c k ds m => exact hg _ _ _
      | alphabet c => exact hg _ _ _
      | futurelet n c => exact hg _ _ _
      | let_ n c cs => simp only [hx c hs]; exact ⟨_, rfl⟩
      | def_ n params c e cs =>
        cases e with
        | true => simp only [if_true, hx c hs]; exact ⟨_, rfl⟩
        | false => simp only [Bool.false_eq_true, if_false]; exact ⟨_, rfl⟩
      | _ => exact ⟨_, rfl⟩
  obtain ⟨o, ho⟩ := he
  unfold register
  rw [ho]
  cases o with
  | none => exact ⟨_, rfl⟩
  | some e => exact ⟨_, rfl⟩

theorem registerAll_snoc {cfg : Cmds.Cfg} {d : Def} {sty : Bool} {p' : Proc} : ∀ (h : List (Def × Bool)) (p0 p : Proc), registerAll cfg p0 h = some (.ok p) → register cfg p d sty = some (.ok p') →
    registerAll cfg p0 (h ++ [(d, sty)]) = some (.ok p')
  | [], p0, p, h1, h2 => by
    cases h1
    simp [registerAll, h2]
  | (d0, s0) :: h, p0, p, h1, h2 => by
    obtain ⟨p1, ha, hb⟩ := registerAll_cons h1
    rw [List.cons_append]
    unfold registerAll
    rw [ha]
    exact registerAll_snoc h p1 p hb h2

/-- A definition is entered. -/
theorem Known.add {V} {cfg : Cfg V} (hl : Letters cfg.cmds) {h} {st : St V} (k : Known cfg h st) {t : Defn.Tok} {sty : Bool} (hp : ∀ x ∈ entered t sty, PlainDef x.1 ∧ Settled x.1 sty) :
    ∃ st1, addDef cfg st t sty = some (.ok st1) ∧ Known cfg (h ++ entered t sty) st1 ∧ st1.keys = st.keys ∧ st1.eqn = st.eqn ∧ st1.blocks = st.blocks ∧ st1.toks = st.toks := by
  unfold entered at *
  unfold addDef
  cases hr : t.registers with
  | none => exact ⟨st, rfl, by simpa [hr] using k, rfl, rfl, rfl, rfl⟩
  | some d =>
    simp only [hr] at hp ⊢
    by_cases hb : (d.name.isEmpty || whitelisted.contains d.name) = true
    · rw [if_pos hb, if_pos hb]; exact ⟨st, rfl, by simpa using k, rfl, rfl, rfl, rfl⟩
    · rw [if_neg hb] at hp ⊢
      rw [if_neg hb]
      obtain ⟨h1, h2⟩ := hp (d, sty) (by simp)
      obtain ⟨p', hp'⟩ := register_ok hl k.reg k.plain h2
      simp only [hp']
      refine ⟨_, rfl, ⟨registerAll_snoc h _ _ k.reg hp', ?_, ?_⟩, rfl, rfl, rfl, rfl⟩
      · intro x hx
        rcases List.mem_append.1 hx with hx | hx
        · exact k.plain x hx
        · simp at hx; rw [hx]; exact h1
      · rw [List.reverse_append, List.filterMap_append, ← k.ifs]
        cases d <;> simp

/-- A definition without arguments leaves nothing, and is known from then on. -/
theorem Runs.define {V} {cfg : Cfg V} (ho : SomeOrder cfg.order) {st st1 st' : St V} {t rest out : Str} {tok : Defn.Tok} (hd : Defines t rest tok) (ha : ¬ TakesArgs tok)
    (h1 : addDef cfg st tok false = some (.ok st1)) (hr : Runs cfg { st1 with toks := st1.toks ++ [tok] } rest st' out) : Runs cfg st (t ++ rest) st' out := by
  have hh := defines_handle hd
  obtain ⟨w, hw, x, rfl⟩ := defines_word hd
  rw [List.append_assoc] at hh ⊢
  obtain ⟨a1, a2, a3, a4, a5⟩ := define_start hw (x ++ rest)
  refine Runs.act (o := []) a1 ⟨0, fun n _ => ?_⟩ hr
  unfold Pre.act
  rw [a2]
  unfold actMath
  simp only [math_none ho a3, Nat.lt_irrefl, if_false]
  rw [quotes_none a4]
  unfold actDefine
  have ht : takesArgs cfg.cmds tok = false := by
    cases hx : takesArgs cfg.cmds tok with
    | false => rfl
    | true => exact absurd ((takesArgs_iff _ _).1 hx) ha
  have hpos : (0 : Int) < ((w.toList ++ x).length : Nat) := by rw [List.length_append]; omega
  simp only [canHandle_of hh, if_true, hh, ht, Bool.false_eq_true, if_false]
  have : ({ proc := st.proc, keys := st.keys, ifs := st.ifs, eqn := st.eqn, blocks := st.blocks, toks := st.toks } : St V) = st := rfl
  simp only [this, h1, if_pos hpos, Int.toNat_natCast, ← List.append_assoc, List.drop_left]

/-- A definition with arguments is left as it is. -/
theorem Runs.defineArgs {V} {cfg : Cfg V} (ho : SomeOrder cfg.order) {st st' : St V} {t rest out : Str} {tok : Defn.Tok} (hd : Defines t rest tok) (ha : TakesArgs tok)
    (hr : Runs cfg st rest st' out) : Runs cfg st (t ++ rest) st' (t ++ out) := by
  have hh := defines_handle hd
  obtain ⟨w, hw, x, rfl⟩ := defines_word hd
  have hh' := hh
  rw [List.append_assoc] at hh'
  obtain ⟨a1, a2, a3, a4, a5⟩ := define_start hw (x ++ rest)
  rw [← List.append_assoc] at a1 a2 a3 a4
  refine Runs.act (o := w.toList ++ x) a1 ⟨0, fun n _ => ?_⟩ hr
  unfold Pre.act
  rw [a2]
  unfold actMath
  simp only [math_none ho a3, Nat.lt_irrefl, if_false]
  rw [quotes_none a4]
  unfold actDefine
  simp only [canHandle_of hh, if_true, hh, (takesArgs_iff _ _).2 ha, Int.toNat_natCast, List.drop_left, List.take_left]

end L2J.Pre
