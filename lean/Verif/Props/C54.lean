import Verif.Spec.Media
import Verif.Props.C48
/-! C54: pictures, notes, captions, titles and included files. -/
namespace L2J.Content
open L2J.Cmds Spec

/-! The options of pictures. -/

/-- Looking for a keyword and a value behind it. -/
theorem key_search {α} (kw : Str) (hkw : kw ≠ []) (tail : Re) (f : Match → Option α) (val : Str → Option α)
    (hv : ∀ rev rest, ((Re.seq (.lit kw) tail).matchAt rev rest).isSome = ((if kw.isPrefixOf rest then val (rest.drop kw.length) else none).isSome) ∧
      ∀ m, (Re.seq (.lit kw) tail).matchAt rev rest = some m →
        f m = if kw.isPrefixOf rest then val (rest.drop kw.length) else none) :
    ∀ (o rev : Str), ((Re.seq (.lit kw) tail).searchFrom rev o).bind f = keyIn kw val o
  | [], rev => by
    have := (hv rev []).1
    unfold Re.searchFrom keyIn
    rw [if_neg (by cases kw <;> simp_all [List.isPrefixOf])] at this
    cases h : (Re.seq (.lit kw) tail).matchAt rev [] with
    | none => rfl
    | some m => rw [h] at this; cases this
  | c :: cs, rev => by
    have h1 := hv rev (c :: cs)
    unfold Re.searchFrom keyIn
    cases h : (Re.seq (.lit kw) tail).matchAt rev (c :: cs) with
    | none =>
      rw [h] at h1
      have h2 := h1.1
      cases hx : (if kw.isPrefixOf (c :: cs) then val ((c :: cs).drop kw.length) else none) with
      | some v => rw [hx] at h2; cases h2
      | none => exact key_search kw hkw tail f val hv cs (c :: rev)
    | some m =>
      rw [h] at h1
      have h2 := h1.2 m rfl
      cases hx : (if kw.isPrefixOf (c :: cs) then val ((c :: cs).drop kw.length) else none) with
      | none => rw [hx] at h1; cases h1.1
      | some v =>
        rw [hx] at h2
        exact h2

theorem group_plus_head (n : Nat) (p : Char → Bool) (rev rest : Str) (g) :
    ((Re.group n (.plus (.chr p))).run ⟨rev, rest, g⟩).head? =
      if rest.takeWhile p = [] then none else
        some ⟨(rest.takeWhile p).reverse ++ rev, rest.dropWhile p, (n, rest.takeWhile p) :: g⟩ := by
  show (List.map _ ((Re.plus (.chr p)).run ⟨rev, rest, g⟩)).head? = _
  rw [List.head?_map, run_plus_chr_head?]
  split
  · rfl
  · simp only [Option.map_some, Option.some.injEq, MSt.mk.injEq, true_and, List.cons.injEq, Prod.mk.injEq, and_true]
    have e : rest.length - (rest.dropWhile p).length = (rest.takeWhile p).length := by
      have := congrArg List.length (List.takeWhile_append_dropWhile (p := p) (l := rest))
      rw [List.length_append] at this; omega
    rw [e]
    conv => lhs; rw [← List.takeWhile_append_dropWhile (p := p) (l := rest), List.takeWhile_append_dropWhile]
    have := List.take_left (l₁ := rest.takeWhile p) (l₂ := rest.dropWhile p)
    rwa [List.takeWhile_append_dropWhile] at this

theorem litSeq_match (kw : Str) (tail : Re) (rev rest : Str) :
    (Re.seq (.lit kw) tail).matchAt rev rest = if kw.isPrefixOf rest then
      (tail.run ⟨kw.reverse ++ rev, rest.drop kw.length, []⟩).head?.map fun st => ⟨rev, rest, rest.length - st.rest.length, st.groups⟩
    else none := by
  rw [Re.matchAt_eq, seq_run, Re.run_lit]
  split
  · simp
  · simp

theorem page_search (o : Str) : (pageRe.search o).map (fun p => digitsVal ((p.group 1).getD [])) = keyIn "page=".toList numberAt o := by
  have h := key_search "page=".toList (by decide) (.group 1 (.plus (.chr isDigit))) (fun p => some (digitsVal ((p.group 1).getD []))) numberAt ?_ o []
  · rw [← h]
    unfold Re.search pageRe
    cases Re.searchFrom _ [] o <;> rfl
  · intro rev rest
    generalize "page=".toList = kw
    rw [litSeq_match]
    split
    · rw [group_plus_head]
      unfold numberAt
      generalize hd : List.takeWhile isDigit (rest.drop kw.length) = ds
      cases ds with
      | nil => simp
      | cons d ds =>
        simp only [List.cons_ne_nil, if_false, Option.map_some, Option.isSome_some, true_and, Option.some.injEq]
        rintro m rfl
        rfl
    · simp

theorem pageChar_eq : rangeChar = pageChar := rfl

/-- The text of a page range, in braces or not, at the head of the alternatives. -/
theorem pages_run (rev r : Str) : ((Re.alt (.seq (.lit ['{']) (.seq (.group 1 (.plus (.chr rangeChar))) (.lit ['}'])))
      (.group 2 (.plus (.chr rangeChar)))).run ⟨rev, r, []⟩).head?.map (fun st => (Match.group ⟨[], [], 0, st.groups⟩ 1).or (Match.group ⟨[], [], 0, st.groups⟩ 2)) =
    (pagesAt r).map some := by
  show ((Re.seq (.lit ['{']) (.seq (.group 1 (.plus (.chr rangeChar))) (.lit ['}']))).run ⟨rev, r, []⟩ ++
    (Re.group 2 (.plus (.chr rangeChar))).run ⟨rev, r, []⟩).head?.map _ = _
  rw [pageChar_eq, seq_run, Re.run_lit]
  have bare : ∀ r : Str, (((Re.group 2 (.plus (.chr pageChar))).run ⟨rev, r, []⟩).head?.map
      fun st => (Match.group ⟨[], [], 0, st.groups⟩ 1).or (Match.group ⟨[], [], 0, st.groups⟩ 2)) = (rangeAt r).map some := by
    intro r
    rw [group_plus_head]
    unfold rangeAt
    cases List.takeWhile pageChar r <;> rfl
  by_cases hb : ∃ s, r = '{' :: s
  · obtain ⟨s, rfl⟩ := hb
    rw [if_pos (by simp [List.isPrefixOf])]
    simp only [List.flatMap_cons, List.flatMap_nil, List.append_nil, List.length_singleton, List.drop_succ_cons, List.drop_zero]
    have h2 : (Re.group 2 (.plus (.chr pageChar))).run ⟨rev, '{' :: s, []⟩ = [] := by
      have := group_plus_head 2 pageChar rev ('{' :: s) []
      rw [if_pos (by simp [pageChar])] at this
      simpa using this
    rw [h2, List.append_nil, seq_run]
    have e : (Re.group 1 (.plus (.chr pageChar))).run ⟨['{'].reverse ++ rev, s, []⟩ =
        ((Re.plus (.chr pageChar)).run ⟨['{'].reverse ++ rev, s, []⟩).map fun st' =>
          { st' with groups := (1, s.take (s.length - st'.rest.length)) :: st'.groups } := rfl
    rw [e, List.flatMap_map, run_plus_chr_flatMap]
    · show _ = Option.map some (if (s.dropWhile pageChar).head? = some '}' then rangeAt s else none)
      unfold rangeAt
      cases ht : List.takeWhile pageChar s with
      | nil => simp
      | cons d ds =>
        rw [if_neg (by simp), Re.run_lit]
        have e : s.take (s.length - (s.dropWhile pageChar).length) = d :: ds := by
          have h1 := List.takeWhile_append_dropWhile (p := pageChar) (l := s)
          rw [ht] at h1
          have h2 := congrArg List.length h1
          rw [List.length_append] at h2
          have h3 : s.length - (s.dropWhile pageChar).length = (d :: ds).length := by omega
          rw [h3]
          have := List.take_left (l₁ := d :: ds) (l₂ := s.dropWhile pageChar)
          rwa [h1] at this
        simp only [e]
        cases hx : s.dropWhile pageChar with
        | nil => simp [List.isPrefixOf]
        | cons y ys =>
          by_cases hy : y = '}'
          · subst hy; simp [List.isPrefixOf, Match.group]
          · have hy' : ('}' == y) = false := by simp; exact fun e => hy e.symm
            simp [List.isPrefixOf, hy, hy']
    · intro rev x rest hx
      have h' : ¬ '}' = x := by rintro rfl; simp [pageChar] at hx
      rw [Re.run_lit]
      simp [List.isPrefixOf, h']
  · have hp : pagesAt r = rangeAt r := by
      unfold pagesAt
      split
      · rename_i s; exact absurd ⟨s, rfl⟩ hb
      · rfl
    rw [if_neg, List.flatMap_nil, List.nil_append, hp, bare]
    cases r with
    | nil => simp [List.isPrefixOf]
    | cons c cs =>
      intro h
      simp [List.isPrefixOf] at h
      exact hb ⟨cs, by rw [h]⟩

theorem pages_search (o : Str) : (pagesRe.search o).bind (fun p => (p.group 1).or (p.group 2)) = keyIn "pages=".toList pagesAt o := by
  have h := key_search "pages=".toList (by decide) (Re.alt (.seq (.lit ['{']) (.seq (.group 1 (.plus (.chr rangeChar))) (.lit ['}'])))
      (.group 2 (.plus (.chr rangeChar)))) (fun p => (p.group 1).or (p.group 2)) pagesAt ?_ o []
  · rw [← h]; rfl
  · intro rev rest
    generalize "pages=".toList = kw
    rw [litSeq_match]
    split
    · have hp := pages_run (kw.reverse ++ rev) (rest.drop kw.length)
      cases hr : Option.map _ _ with
      | none =>
        rw [Option.map_eq_none_iff] at hr
        rw [hr] at hp
        cases hq : pagesAt (rest.drop kw.length) with
        | none => simp
        | some v => rw [hq] at hp; cases hp
      | some m =>
        rw [Option.map_eq_some_iff] at hr
        obtain ⟨st, hst, rfl⟩ := hr
        rw [hst] at hp
        cases hq : pagesAt (rest.drop kw.length) with
        | none => rw [hq] at hp; cases hp
        | some v =>
          rw [hq] at hp
          simp only [Option.map_some, Option.some.injEq] at hp
          refine ⟨rfl, ?_⟩
          rintro m hm
          simp only [Option.some.injEq] at hm
          subst hm
          exact hp
    · simp

/-! The tails of the patterns. -/

/-- The groups of a pattern with an optional argument. -/
def optGroups (n : Nat) (g : List (Nat × Str)) : Opt → List (Nat × Str)
  | .absent _ => g
  | .given a _ => (n, a) :: g

theorem opt_stops (o : Opt) (ho : o.Ok) (r : Str) : ∀ c, (o.text ++ '{' :: r).head? = some c → foldLetter c = false := by
  cases o with
  | absent ws => exact brace_stops ws r ho
  | given a ws => intro c hc; simp [Opt.text] at hc; subst hc; decide

/-- `(?:\[([^\]]*)\])?\s*{`. -/
theorem opt_tail (n : Nat) (o : Opt) (ho : o.Ok) (rev r : Str) (g) :
    ∃ rev', ((Re.seq (optArg n) openBrace).run ⟨rev, o.text ++ '{' :: r, g⟩).head? = some ⟨rev', r, optGroups n g o⟩ := by
  cases o with
  | absent ws =>
    exact ⟨_, head_seq (optArg_skip n _ _ _ (blank_head ho (by decide) (by simp))) (openBrace_head _ ws _ _ ho)⟩
  | given a ws =>
    obtain ⟨l1, h1⟩ := optArg_hit n rev a (ws ++ '{' :: r) g ho.1
    have e : (Opt.given a ws).text ++ '{' :: r = '[' :: (a ++ ']' :: (ws ++ '{' :: r)) := by simp [Opt.text]
    rw [e]
    exact ⟨_, head_seq h1 (openBrace_head _ ws _ _ ho.2)⟩

/-- `\s*(?:\[([^\]]*)\])?\s*{`. -/
theorem blank_opt_tail (n : Nat) (o : Opt) (ho : o.Ok) (rev ws r : Str) (g) (hws : ∀ x ∈ ws, isSpace x = true) :
    ∃ rev', ((Re.seq (.star reSpace) (.seq (optArg n) openBrace)).run ⟨rev, ws ++ o.text ++ '{' :: r, g⟩).head? =
      some ⟨rev', r, optGroups n g o⟩ := by
  cases o with
  | absent ws' =>
    have e : ws ++ (Opt.absent ws').text ++ '{' :: r = (ws ++ ws') ++ '{' :: r := rfl
    rw [e]
    obtain ⟨l, hl⟩ := spaces_first rev (ws ++ ws') ('{' :: r) g (by
      intro x hx
      rcases List.mem_append.1 hx with h | h
      · exact hws x h
      · exact ho x h) (by intro c hc; simp at hc; subst hc; decide)
    exact ⟨_, head_seq hl (head_seq (optArg_skip n _ _ _ (by simp)) (openBrace_head _ [] _ _ (by simp)))⟩
  | given a ws' =>
    have e : ws ++ (Opt.given a ws').text ++ '{' :: r = ws ++ '[' :: (a ++ ']' :: (ws' ++ '{' :: r)) := by simp [Opt.text]
    rw [e]
    obtain ⟨l, hl⟩ := spaces_first rev ws ('[' :: (a ++ ']' :: (ws' ++ '{' :: r))) g hws (by intro c hc; simp at hc; subst hc; decide)
    obtain ⟨l1, h1⟩ := optArg_hit n (ws.reverse ++ rev) a (ws' ++ '{' :: r) g ho.1
    exact ⟨_, head_seq hl (head_seq h1 (openBrace_head _ _ _ _ ho.2))⟩

theorem blank_opt_stops (ws : Str) (o : Opt) (ho : o.Ok) (hws : ∀ x ∈ ws, isSpace x = true) (r : Str) :
    ∀ c, (ws ++ o.text ++ '{' :: r).head? = some c → foldLetter c = false := by
  rw [List.append_assoc]
  exact head_blank hws (fun c hc => space_not_fold hc) (opt_stops o ho r)

/-- A star before something that does not begin with one. -/
theorem star_tail (star : Bool) (tail : Re) (rev s : Str) (g) (hs : s.head? ≠ some '*') {st : MSt}
    (h : ∀ rev, ∃ rev', (tail.run ⟨rev, s, g⟩).head? = some { st with rev := rev' }) :
    ∃ rev', ((Re.seq starred tail).run ⟨rev, starText star ++ s, g⟩).head? = some { st with rev := rev' } := by
  cases star with
  | true =>
    obtain ⟨rev', h'⟩ := h ('*' :: rev)
    refine ⟨rev', head_seq (s1 := ⟨'*' :: rev, s, g⟩) (l := [⟨rev, '*' :: s, g⟩]) ?_ h'⟩
    rw [starred_run]; simp [starText, List.isPrefixOf]
  | false =>
    obtain ⟨rev', h'⟩ := h rev
    refine ⟨rev', head_seq (s1 := ⟨rev, s, g⟩) (l := []) ?_ h'⟩
    rw [starred_run, if_neg]
    · simp [starText]
    · cases s with
      | nil => simp [starText, List.isPrefixOf]
      | cons c s =>
        simp only [List.head?_cons, ne_eq, Option.some.injEq] at hs
        simp [starText, List.isPrefixOf]
        exact fun e => hs e.symm

theorem star_stops (star : Bool) {s : Str} (h : ∀ c, s.head? = some c → foldLetter c = false) :
    ∀ c, (starText star ++ s).head? = some c → foldLetter c = false := by
  cases star with
  | true => intro c hc; simp [starText] at hc; subst hc; decide
  | false => exact h

/-! The commands with one argument. -/

/-- The commands with nothing but an argument, and the type of their token; `\graphicspath` has none. -/
def _root_.L2J.Spec.argumentCommands : List (Str × Option String) :=
  [("abstract".toList, some "abstract"), ("input".toList, some "input_file"), ("include".toList, some "input_file"),
   ("graphicspath".toList, none), ("keywords".toList, some "keywords"), ("bibliography".toList, some "bibliography_file"),
   ("addbibresource".toList, some "bibliography_file")]

/-- The token of a command with a type, or nothing. -/
def _root_.L2J.Spec.textToken (type : Option String) (text : Str) : Out :=
  match type with
  | none => .none
  | some t => .tok (plain t (.str (strip text)) none)

/-- Where the pattern of a command without options is. -/
def argIndex (u : Str) : Nat :=
  if u = "abstract".toList then 0 else if u = "input".toList ∨ u = "include".toList then 8
  else if u = "graphicspath".toList then 21 else if u = "keywords".toList then 27 else 28

theorem argument_table : ∀ c ∈ argumentCommands, Lower c.1 ∧ ((patterns.take (argIndex c.1)).all fun q => refusesB q c.1) = true := by
  decide +kernel

theorem createToken_plain (aliases : Dict Str) (k : Kind) (hk : k ∈ [Kind.abstract, .input_file, .keywords, .bibliography_file, .caption])
    (m : Match) (text : Str) : createToken aliases k m text =
    some (aliases, .tok { type := k.key, content := .str (strip text) }) := by
  simp only [List.mem_cons, List.not_mem_nil, or_false] at hk
  rcases hk with rfl | rfl | rfl | rfl | rfl <;> rfl

theorem createToken_path (aliases : Dict Str) (m : Match) (text : Str) : createToken aliases .graphicspath m text =
    some (aliases, .none) := rfl

/-- **C54, one argument**: `\abstract`, `\input`, `\include`, `\keywords`, `\bibliography`, `\addbibresource`: one token with the text of the
argument; `\graphicspath` shows nothing. -/
theorem C54_argument (aliases : Dict Str) (u : Str) (t : Option String) (hu : (u, t) ∈ argumentCommands) (ws body rest : Str)
    (hws : ∀ x ∈ ws, isSpace x = true) (hb : Wrappable '{' '}' body) :
    handle id aliases ('\\' :: (u ++ (ws ++ '{' :: (body ++ '}' :: rest)))) =
      .ok aliases (textToken t body) ('\\' :: (u ++ (ws ++ '{' :: (body ++ ['}'])))).length := by
  have hlen : ('\\' :: (u ++ (ws ++ '{' :: (body ++ ['}'])))).length = u.length + ws.length + body.length + 3 := by simp; omega
  rw [hlen]
  obtain ⟨hl, htab⟩ := argument_table _ hu
  have key : ∀ (i : Nat) (k : Kind) (l : List Str), patterns[i]? = some (k, .words l, openBrace) → k ≠ .footnotemark → k ≠ .appendix →
      u ∈ l → argIndex u = i → (∀ m, createToken aliases k m body = some (aliases, textToken t body)) →
      handle id aliases ('\\' :: (u ++ (ws ++ '{' :: (body ++ '}' :: rest)))) =
        .ok aliases (textToken t body) (u.length + ws.length + body.length + 3) := by
    intro i k l hi h1 h2 hul hidx hc
    have h := handle_arg i hi h1 h2 hl (brace_stops ws _ hws) (by rw [← hidx]; exact htab) (ciEqs_self hul) (rest := rest)
      (openBrace_head _ ws _ _ hws) hb id aliases
    rw [h, id, hc]
  have hu' := hu
  simp only [argumentCommands, List.mem_cons, Prod.mk.injEq, List.not_mem_nil, or_false] at hu
  rcases hu with ⟨rfl, rfl⟩ | ⟨rfl, rfl⟩ | ⟨rfl, rfl⟩ | ⟨rfl, rfl⟩ | ⟨rfl, rfl⟩ | ⟨rfl, rfl⟩ | ⟨rfl, rfl⟩
  · exact key 0 .abstract _ rfl (by decide) (by decide) (by decide) (by decide) fun m => createToken_plain _ _ (by decide) _ _
  · exact key 8 .input_file _ rfl (by decide) (by decide) (by decide) (by decide) fun m => createToken_plain _ _ (by decide) _ _
  · exact key 8 .input_file _ rfl (by decide) (by decide) (by decide) (by decide) fun m => createToken_plain _ _ (by decide) _ _
  · exact key 21 .graphicspath _ rfl (by decide) (by decide) (by decide) (by decide) fun m => rfl
  · exact key 27 .keywords _ rfl (by decide) (by decide) (by decide) (by decide) fun m => createToken_plain _ _ (by decide) _ _
  · exact key 28 .bibliography_file _ rfl (by decide) (by decide) (by decide) (by decide) fun m => createToken_plain _ _ (by decide) _ _
  · exact key 28 .bibliography_file _ rfl (by decide) (by decide) (by decide) (by decide) fun m => createToken_plain _ _ (by decide) _ _

/-! The commands with an option. -/

/-- The token of a title. -/
def _root_.L2J.Spec.titleToken (_ : Option Str) (t : Str) : Out := .tok (plain "title" (.str (strip t)) none)

/-- The token of a picture. -/
def _root_.L2J.Spec.pictureToken (page : Option Nat) (t : Str) : Out :=
  .tok { type := "includegraphics".toList, content := .str (strip t), page := page }

/-- The token of an included document. -/
def _root_.L2J.Spec.pdfToken (pages : Option Str) (t : Str) : Out :=
  .tok { type := "includepdf".toList, content := .str (strip t), pages := pages }

/-- The commands with an optional argument, and their tokens. -/
def _root_.L2J.Spec.optionCommands : List (Str × (Option Str → Str → Out)) :=
  [("title".toList, titleToken), ("bookmark".toList, fun _ _ => .none),
   ("includegraphics".toList, fun o => pictureToken (o.bind (keyIn "page=".toList numberAt))),
   ("includepdf".toList, fun o => pdfToken (o.bind (keyIn "pages=".toList pagesAt)))]

theorem optGroups_value (o : Opt) (r : Str) (len : Nat) : (⟨[], r, len, optGroups 1 [] o⟩ : Match).group 1 = o.value := by
  cases o <;> rfl

theorem createToken_graphics (aliases : Dict Str) (m : Match) (text : Str) : createToken aliases .includegraphics m text =
    some (aliases, pictureToken ((m.group 1).bind (keyIn "page=".toList numberAt)) text) := by
  have : keyIn "page=".toList numberAt = fun o => (pageRe.search o).map fun p => digitsVal ((p.group 1).getD []) :=
    funext fun o => (page_search o).symm
  rw [this]
  rfl

theorem createToken_pdf (aliases : Dict Str) (m : Match) (text : Str) : createToken aliases .includepdf m text =
    some (aliases, pdfToken ((m.group 1).bind (keyIn "pages=".toList pagesAt)) text) := by
  have : keyIn "pages=".toList pagesAt = fun o => (pagesRe.search o).bind fun p => (p.group 1).or (p.group 2) :=
    funext fun o => (pages_search o).symm
  rw [this]
  rfl

theorem option_handle (aliases : Dict Str) (i : Nat) (k : Kind) (u : Str)
    (hi : patterns[i]? = some (k, .words [u], .seq (.star reSpace) (.seq (optArg 1) openBrace))) (h1 : k ≠ .footnotemark) (h2 : k ≠ .appendix)
    (hl : Lower u) (ht : ((patterns.take i).all fun q => refusesB q u) = true) (ws : Str) (o : Opt) (body rest : Str)
    (hws : ∀ x ∈ ws, isSpace x = true) (ho : o.Ok) (hb : Wrappable '{' '}' body) (f : Option Str → Str → Out)
    (hc : ∀ m text, createToken aliases k m text = some (aliases, f (m.group 1) text)) :
    handle id aliases ('\\' :: (u ++ (ws ++ o.text ++ '{' :: (body ++ '}' :: rest)))) =
      .ok aliases (f o.value body) ('\\' :: (u ++ (ws ++ o.text ++ '{' :: (body ++ ['}'])))).length := by
  have hlen : ('\\' :: (u ++ (ws ++ o.text ++ '{' :: (body ++ ['}'])))).length = u.length + (ws ++ o.text).length + body.length + 3 := by
    simp; omega
  rw [hlen]
  obtain ⟨rev, htail⟩ := blank_opt_tail 1 o ho (u.reverse ++ ['\\']) ws (body ++ '}' :: rest) [] hws
  have h := handle_arg i hi h1 h2 hl (blank_opt_stops ws o ho hws _) ht (ciEqs_self (by simp)) htail hb id aliases
  rw [h, hc, optGroups_value]
  rfl

/-- **C54, pictures, titles and bookmarks**: with or without options, the token has the path or text of the argument, and for pictures the
page or pages the options give; a bookmark shows nothing. -/
theorem C54_option (aliases : Dict Str) (u : Str) (f : Option Str → Str → Out) (hu : (u, f) ∈ optionCommands) (ws : Str) (o : Opt) (body rest : Str)
    (hws : ∀ x ∈ ws, isSpace x = true) (ho : o.Ok) (hb : Wrappable '{' '}' body) :
    handle id aliases ('\\' :: (u ++ (ws ++ o.text ++ '{' :: (body ++ '}' :: rest)))) =
      .ok aliases (f o.value body) ('\\' :: (u ++ (ws ++ o.text ++ '{' :: (body ++ ['}'])))).length := by
  simp only [optionCommands, List.mem_cons, Prod.mk.injEq, List.not_mem_nil, or_false] at hu
  rcases hu with ⟨rfl, rfl⟩ | ⟨rfl, rfl⟩ | ⟨rfl, rfl⟩ | ⟨rfl, rfl⟩
  · exact option_handle aliases 25 .title _ rfl (by decide) (by decide) (by decide) (by decide +kernel) ws o body rest hws ho hb titleToken fun m t => rfl
  · exact option_handle aliases 13 .bookmark _ rfl (by decide) (by decide) (by decide) (by decide +kernel) ws o body rest hws ho hb (fun _ _ => .none) fun m t => rfl
  · exact option_handle aliases 19 .includegraphics _ rfl (by decide) (by decide) (by decide) (by decide +kernel) ws o body rest hws ho hb (fun o => pictureToken (o.bind (keyIn "page=".toList numberAt)))
      fun m t => createToken_graphics aliases m t
  · exact option_handle aliases 20 .includepdf _ rfl (by decide) (by decide) (by decide) (by decide +kernel) ws o body rest hws ho hb (fun o => pdfToken (o.bind (keyIn "pages=".toList pagesAt)))
      fun m t => createToken_pdf aliases m t

/-! What the options say. -/

/-- The first character of a keyword that occurs in it only once: no occurrence overlaps another. -/
theorem keyIn_here {α} (a : Char) (kw : Str) (read : Str → Option α) (ha : a ∉ kw) (post : Str) : ∀ (pre : Str), ¬ Contains pre (a :: kw) →
    keyIn (a :: kw) read (pre ++ (a :: kw) ++ post) = match read post with | some v => some v | none => keyIn (a :: kw) read (kw ++ post)
  | [], _ => by
    simp only [List.nil_append, List.cons_append]
    rw [keyIn]
    have e : (a :: kw).isPrefixOf (a :: (kw ++ post)) = true := by
      rw [List.isPrefixOf_iff_prefix]; exact ⟨post, by simp⟩
    rw [if_pos e]
    have e2 : (a :: (kw ++ post)).drop (a :: kw).length = post := by
      have := List.drop_left (l₁ := a :: kw) (l₂ := post)
      simpa using this
    rw [e2]
    cases read post <;> rfl
  | c :: pre, h => by
    have ih := keyIn_here a kw read ha post pre (by
      rintro ⟨x, y, e⟩; exact h ⟨c :: x, y, by rw [e]; simp⟩)
    rw [← ih]
    simp only [List.cons_append]
    rw [keyIn, if_neg]
    intro hp
    rw [List.isPrefixOf_iff_prefix] at hp
    -- the occurrence would have to begin in the text before and end in the keyword
    obtain ⟨t, ht⟩ := hp
    have hle : (c :: pre).length < (a :: kw).length := by
      rcases Nat.lt_or_ge (c :: pre).length (a :: kw).length with h' | h'
      · exact h'
      · exfalso
        have : (a :: kw) <+: (c :: pre) := by
          have p1 : (a :: kw) <+: (c :: pre) ++ (a :: kw ++ post) := ⟨t, by rw [ht]; simp⟩
          exact List.prefix_of_prefix_length_le p1 (List.prefix_append _ _) h'
        obtain ⟨y, hy⟩ := this
        exact h ⟨[], y, by rw [← hy]; simp⟩
    have hg := congrArg (fun l : Str => l[(c :: pre).length]?) ht
    rw [List.getElem?_append_left hle] at hg
    have e3 : (c :: (pre ++ a :: (kw ++ post)))[(c :: pre).length]? = some a := by
      have := List.getElem?_append_right (l₁ := c :: pre) (l₂ := a :: (kw ++ post)) (i := (c :: pre).length) (Nat.le_refl _)
      simpa using this
    rw [show c :: (pre ++ (a :: kw) ++ post) = c :: (pre ++ a :: (kw ++ post)) by simp, e3] at hg
    simp only [List.length_cons, List.getElem?_cons_succ] at hg
    exact ha (List.mem_of_getElem? hg)

theorem keyIn_absent {α} (key : Str) (read : Str → Option α) : ∀ (s : Str), ¬ Contains s key → keyIn key read s = none
  | [], _ => rfl
  | c :: s, h => by
    rw [keyIn, if_neg]
    · exact keyIn_absent key read s (by rintro ⟨x, y, e⟩; exact h ⟨c :: x, y, by rw [e]; simp⟩)
    · intro hp
      rw [List.isPrefixOf_iff_prefix] at hp
      obtain ⟨y, hy⟩ := hp
      exact h ⟨[], y, by rw [← hy]; simp⟩

theorem numberAt_nat (n : Nat) (post : Str) (hp : ∀ c, post.head? = some c → isDigit c = false) : numberAt (natStr n ++ post) = some n := by
  have hd : ∀ c ∈ natStr n, isDigit c = true := fun c hc => by
    have := natStr_digits n c hc
    simp only [isDigit, Bool.and_eq_true, decide_eq_true_eq]
    exact ⟨this.1, by have h2 := this.2; show c.toNat ≤ 57; omega⟩
  have e : (natStr n ++ post).takeWhile isDigit = natStr n := by
    rw [List.takeWhile_append_of_pos hd]
    cases post with
    | nil => simp
    | cons c cs => simp [hp c rfl]
  unfold numberAt
  rw [e]
  cases h : natStr n with
  | nil => exact absurd h (natStr_ne_nil n)
  | cons d ds => simp only; rw [← h, natStr_val]

/-- **C54, the page of a picture**: `page=n` anywhere in the options, n any number. -/
theorem C54_page (aliases : Dict Str) (ws : Str) (pre post ws' body rest : Str) (n : Nat) (hws : ∀ x ∈ ws, isSpace x = true)
    (hpre : ¬ Contains pre "page=".toList) (hpost : ∀ c, post.head? = some c → isDigit c = false)
    (ho : (Opt.given (pre ++ "page=".toList ++ (natStr n ++ post)) ws').Ok) (hb : Wrappable '{' '}' body) :
    handle id aliases ('\\' :: ("includegraphics".toList ++ (ws ++ (Opt.given (pre ++ "page=".toList ++ (natStr n ++ post)) ws').text ++
        '{' :: (body ++ '}' :: rest)))) =
      .ok aliases (pictureToken (some n) body)
        ('\\' :: ("includegraphics".toList ++ (ws ++ (Opt.given (pre ++ "page=".toList ++ (natStr n ++ post)) ws').text ++
          '{' :: (body ++ ['}'])))).length := by
  rw [C54_option aliases _ (fun o => pictureToken (o.bind (keyIn "page=".toList numberAt))) (List.mem_of_getElem? (i := 2) rfl) ws _ body rest hws ho hb]
  have : (Opt.given (pre ++ "page=".toList ++ (natStr n ++ post)) ws').value.bind (keyIn "page=".toList numberAt) = some n := by
    show keyIn ('p' :: "age=".toList) numberAt (pre ++ ('p' :: "age=".toList) ++ (natStr n ++ post)) = some n
    rw [keyIn_here 'p' "age=".toList numberAt (by decide) _ pre hpre, numberAt_nat n post hpost]
  rw [this]

/-- **C54, no page**: options that do not mention `page=`, or no options. -/
theorem C54_no_page (aliases : Dict Str) (ws : Str) (o : Opt) (body rest : Str) (hws : ∀ x ∈ ws, isSpace x = true)
    (hn : ∀ a, o.value = some a → ¬ Contains a "page=".toList) (ho : o.Ok) (hb : Wrappable '{' '}' body) :
    handle id aliases ('\\' :: ("includegraphics".toList ++ (ws ++ o.text ++ '{' :: (body ++ '}' :: rest)))) =
      .ok aliases (pictureToken none body)
        ('\\' :: ("includegraphics".toList ++ (ws ++ o.text ++ '{' :: (body ++ ['}'])))).length := by
  rw [C54_option aliases _ (fun o => pictureToken (o.bind (keyIn "page=".toList numberAt))) (List.mem_of_getElem? (i := 2) rfl) ws _ body rest hws ho hb]
  have : o.value.bind (keyIn "page=".toList numberAt) = none := by
    cases h : o.value with
    | none => rfl
    | some a => exact keyIn_absent _ _ a (hn a h)
  rw [this]

/-- A page range as written: with braces or without. -/
def _root_.L2J.Spec.rangeText (braces : Bool) (r : Str) : Str := if braces then '{' :: (r ++ ['}']) else r

theorem takeWhile_stop {p : Char → Bool} {r post : Str} (hr : ∀ c ∈ r, p c = true) (hp : ∀ c, post.head? = some c → p c = false) :
    (r ++ post).takeWhile p = r ∧ (r ++ post).dropWhile p = post := by
  rw [List.takeWhile_append_of_pos hr, List.dropWhile_append_of_pos hr]
  cases post with
  | nil => simp
  | cons c cs => simp [hp c rfl]

theorem pagesAt_range (braces : Bool) (r post : Str) (hr : ∀ c ∈ r, pageChar c = true) (hne : r ≠ [])
    (hp : braces = false → ∀ c, post.head? = some c → pageChar c = false) : pagesAt (rangeText braces r ++ post) = some r := by
  have hrange : ∀ post : Str, (∀ c, post.head? = some c → pageChar c = false) → rangeAt (r ++ post) = some r := by
    intro post hp
    unfold rangeAt
    rw [(takeWhile_stop hr hp).1]
    cases r with
    | nil => exact absurd rfl hne
    | cons c cs => rfl
  cases braces with
  | true =>
    have e : rangeText true r ++ post = '{' :: (r ++ '}' :: post) := by simp [rangeText]
    rw [e]
    show (if ((r ++ '}' :: post).dropWhile pageChar).head? = some '}' then rangeAt (r ++ '}' :: post) else none) = _
    have hs : ∀ c, ('}' :: post).head? = some c → pageChar c = false := by intro c hc; simp at hc; subst hc; decide
    rw [(takeWhile_stop hr hs).2, List.head?_cons, if_pos rfl, hrange _ hs]
  | false =>
    have e : rangeText false r ++ post = r ++ post := rfl
    rw [e]
    unfold pagesAt
    split
    · rename_i s heq
      cases r with
      | nil => exact absurd rfl hne
      | cons c cs =>
        simp at heq
        have := hr c (by simp)
        rw [heq.1] at this
        cases this
    · exact hrange post (hp rfl)

/-- **C54, the pages of an included document**: `pages=r` or `pages={r}` anywhere in the options, r any page range. Without braces the range
must not be followed by a comma (see `C54_violated_pages`). -/
theorem C54_pages_partial (aliases : Dict Str) (ws : Str) (braces : Bool) (pre r post ws' body rest : Str) (hws : ∀ x ∈ ws, isSpace x = true)
    (hpre : ¬ Contains pre "pages=".toList) (hr : ∀ c ∈ r, pageChar c = true) (hne : r ≠ [])
    (hpost : braces = false → ∀ c, post.head? = some c → pageChar c = false)
    (ho : (Opt.given (pre ++ "pages=".toList ++ (rangeText braces r ++ post)) ws').Ok) (hb : Wrappable '{' '}' body) :
    handle id aliases ('\\' :: ("includepdf".toList ++ (ws ++ (Opt.given (pre ++ "pages=".toList ++ (rangeText braces r ++ post)) ws').text ++
        '{' :: (body ++ '}' :: rest)))) =
      .ok aliases (pdfToken (some r) body)
        ('\\' :: ("includepdf".toList ++ (ws ++ (Opt.given (pre ++ "pages=".toList ++ (rangeText braces r ++ post)) ws').text ++
          '{' :: (body ++ ['}'])))).length := by
  rw [C54_option aliases _ (fun o => pdfToken (o.bind (keyIn "pages=".toList pagesAt))) (List.mem_of_getElem? (i := 3) rfl) ws _ body rest hws ho hb]
  have : (Opt.given (pre ++ "pages=".toList ++ (rangeText braces r ++ post)) ws').value.bind (keyIn "pages=".toList pagesAt) = some r := by
    show keyIn ('p' :: "ages=".toList) pagesAt (pre ++ ('p' :: "ages=".toList) ++ (rangeText braces r ++ post)) = some r
    rw [keyIn_here 'p' "ages=".toList pagesAt (by decide) _ pre hpre, pagesAt_range braces r post hr hne hpost]
  rw [this]

/-- **C54 does not hold**: if another option follows a range without braces, the comma is taken as part of the range, whatever the range
and the option. -/
theorem C54_violated_pages (aliases : Dict Str) (r opt body rest : Str) (hr : ∀ c ∈ r, pageChar c = true) (hr' : ']' ∉ opt)
    (hopt : ∀ c, opt.head? = some c → pageChar c = false) (hb : Wrappable '{' '}' body) :
    handle id aliases ('\\' :: ("includepdf".toList ++ ((Opt.given ("pages=".toList ++ (r ++ ',' :: opt)) []).text ++
        '{' :: (body ++ '}' :: rest)))) =
      .ok aliases (pdfToken (some (r ++ [','])) body)
        ('\\' :: ("includepdf".toList ++ ((Opt.given ("pages=".toList ++ (r ++ ',' :: opt)) []).text ++ '{' :: (body ++ ['}'])))).length := by
  have e : "pages=".toList ++ (r ++ ',' :: opt) = [] ++ "pages=".toList ++ (rangeText false (r ++ [',']) ++ opt) := by
    generalize "pages=".toList = k
    simp [rangeText]
  rw [e]
  have h := C54_pages_partial aliases [] false [] (r ++ [',']) opt [] body rest (by simp)
    (by rintro ⟨a, b, h⟩; simp at h) (by
      intro c hc
      rcases List.mem_append.1 hc with h | h
      · exact hr c h
      · simp at h; subst h; decide) (by simp) (fun _ => hopt) ⟨by
        have hk : ']' ∉ "pages=".toList := by decide
        have hrn : ']' ∉ r := no_char hr (by decide)
        generalize "pages=".toList = k at *
        simp [rangeText, hk, hrn, hr'], by simp⟩ hb
  exact h

/-- **C54 does not hold**: blanks around the equals sign, which LaTeX ignores, hide the page, whatever the page. -/
theorem C54_violated_page_blank (n : Nat) (h : ']' ∉ natStr n) :
    handle id [] ('\\' :: ("includegraphics".toList ++ ((Opt.given ("page = ".toList ++ natStr n) []).text ++ "{f}".toList))) =
      .ok [] (pictureToken none ['f'])
        ('\\' :: ("includegraphics".toList ++ ((Opt.given ("page = ".toList ++ natStr n) []).text ++ "{f}".toList))).length := by
  have hk : ']' ∉ "page = ".toList := by decide
  have := C54_no_page [] [] (Opt.given ("page = ".toList ++ natStr n) []) ['f'] [] (by simp) ?_ ⟨by simp only [List.mem_append]; simp [h, hk], by simp⟩
    (by decide)
  · exact this
  · intro a ha
    simp only [Opt.value, Option.some.injEq] at ha
    subst ha
    rintro ⟨x, y, e⟩
    have he : '=' ∉ natStr n := fun h => by have := natStr_digits n _ h; revert this; decide
    -- the only equals sign is behind a blank
    have key : ∀ (x y s : Str), '=' ∉ s → "page = ".toList ++ s ≠ x ++ "page=".toList ++ y := by
      intro x y s hs e
      have e' : ['p','a','g','e',' ','=',' '] ++ s = x ++ (['p','a','g','e','='] ++ y) := by
        rw [← List.append_assoc]; exact e
      match x with
      | [] => simp at e'
      | [_] => simp at e'
      | [_, _] => simp at e'
      | [_, _, _] => simp at e'
      | [_, _, _, _] => simp at e'
      | [_, _, _, _, _] => simp at e'
      | [_, _, _, _, _, _] => simp at e'
      | _ :: _ :: _ :: _ :: _ :: _ :: _ :: x =>
        simp at e'
        exact hs (by rw [e'.2.2.2.2.2.2.2]; simp)
    exact key x y _ he e

/-! Notes and captions. -/

/-- **C54, footnotes**: the token has the text of the note; the number in brackets is not shown. -/
theorem C54_footnote (aliases : Dict Str) (star : Bool) (o : Opt) (body rest : Str) (ho : o.Ok) (hb : Wrappable '{' '}' body) :
    handle id aliases ('\\' :: ("footnote".toList ++ (starText star ++ o.text ++ '{' :: (body ++ '}' :: rest)))) =
      .ok aliases (.tok (plain "footnote" (.str (strip body)) none))
        ('\\' :: ("footnote".toList ++ (starText star ++ o.text ++ '{' :: (body ++ ['}'])))).length := by
  have hlen : ('\\' :: ("footnote".toList ++ (starText star ++ o.text ++ '{' :: (body ++ ['}'])))).length =
      "footnote".toList.length + (starText star ++ o.text).length + body.length + 3 := by
    generalize "footnote".toList = u
    simp; omega
  rw [hlen]
  have hns : (o.text ++ '{' :: (body ++ '}' :: rest)).head? ≠ some '*' := by
    cases o with
    | absent ws => exact blank_head ho (by decide) (by simp)
    | given a ws => simp [Opt.text]
  obtain ⟨rev, ht⟩ := star_tail star (.seq (optArg 1) openBrace) ("footnote".toList.reverse ++ ['\\']) (o.text ++ '{' :: (body ++ '}' :: rest)) [] hns
    (st := ⟨[], body ++ '}' :: rest, optGroups 1 [] o⟩) fun rev => opt_tail 1 o ho rev _ []
  rw [← List.append_assoc] at ht
  have h := handle_arg 5 (p := (.footnote, .words ["footnote".toList], .seq starred (.seq (optArg 1) openBrace)))
    rfl (by decide) (by decide) (w := "footnote".toList) (by decide)
    (by rw [List.append_assoc]; exact star_stops star (opt_stops o ho _)) (by decide +kernel) (ciEqs_self (by decide)) ht hb id aliases
  rw [h]
  rfl

/-- **C54, `\footnotetext`**. -/
theorem C54_footnotetext (aliases : Dict Str) (o : Opt) (body rest : Str) (ho : o.Ok) (hb : Wrappable '{' '}' body) :
    handle id aliases ('\\' :: ("footnotetext".toList ++ (o.text ++ '{' :: (body ++ '}' :: rest)))) =
      .ok aliases (.tok (plain "footnote" (.str (strip body)) none))
        ('\\' :: ("footnotetext".toList ++ (o.text ++ '{' :: (body ++ ['}'])))).length := by
  have hlen : ('\\' :: ("footnotetext".toList ++ (o.text ++ '{' :: (body ++ ['}'])))).length =
      "footnotetext".toList.length + o.text.length + body.length + 3 := by
    generalize "footnotetext".toList = u
    simp; omega
  rw [hlen]
  obtain ⟨rev, ht⟩ := opt_tail 1 o ho ("footnotetext".toList.reverse ++ ['\\']) (body ++ '}' :: rest) []
  have h := handle_arg 16 (p := (.footnotetext, .words ["footnotetext".toList], .seq (optArg 1) openBrace))
    rfl (by decide) (by decide) (w := "footnotetext".toList) (by decide)
    (opt_stops o ho _) (by decide +kernel) (ciEqs_self (by decide)) ht hb id aliases
  rw [h]
  rfl

theorem caption_table : ∀ u ∈ ["caption".toList, "subcaption".toList], Lower u ∧ ((patterns.take 6).all fun q => refusesB q u) = true := by
  decide +kernel

/-- **C54, captions**: the token has the text of the caption; the short form in brackets is not shown. -/
theorem C54_caption (aliases : Dict Str) (u : Str) (hu : u ∈ ["caption".toList, "subcaption".toList]) (star : Bool) (ws : Str) (o : Opt)
    (body rest : Str) (hws : ∀ x ∈ ws, isSpace x = true) (ho : o.Ok) (hb : Wrappable '{' '}' body) :
    handle id aliases ('\\' :: (u ++ (starText star ++ (ws ++ o.text) ++ '{' :: (body ++ '}' :: rest)))) =
      .ok aliases (.tok (plain "caption" (.str (strip body)) none))
        ('\\' :: (u ++ (starText star ++ (ws ++ o.text) ++ '{' :: (body ++ ['}'])))).length := by
  have hlen : ('\\' :: (u ++ (starText star ++ (ws ++ o.text) ++ '{' :: (body ++ ['}'])))).length =
      u.length + (starText star ++ (ws ++ o.text)).length + body.length + 3 := by simp; omega
  rw [hlen]
  obtain ⟨hl, htab⟩ := caption_table u hu
  have hns : ((ws ++ o.text) ++ '{' :: (body ++ '}' :: rest)).head? ≠ some '*' := by
    rw [List.append_assoc]
    refine blank_head hws (by decide) ?_
    cases o with
    | absent ws => exact blank_head ho (by decide) (by simp)
    | given a ws => simp [Opt.text]
  obtain ⟨rev, ht⟩ := star_tail star (.seq (.star reSpace) (.seq (optArg 2) openBrace)) (u.reverse ++ ['\\'])
    ((ws ++ o.text) ++ '{' :: (body ++ '}' :: rest)) [(1, u)] hns
    (st := ⟨[], body ++ '}' :: rest, optGroups 2 [(1, u)] o⟩) fun rev => blank_opt_tail 2 o ho rev ws _ _ hws
  rw [← List.append_assoc] at ht
  have h := handle_arg 6 (p := (.caption, .grouped 1 ["caption".toList, "subcaption".toList],
      .seq starred (.seq (.star reSpace) (.seq (optArg 2) openBrace))))
    rfl (by decide) (by decide) hl
    (by rw [List.append_assoc (starText star)]; exact star_stops star (blank_opt_stops ws o ho hws _)) htab (ciEqs_self hu) ht hb id aliases
  rw [h, createToken_plain _ _ (by decide)]
  rfl

theorem lazy_flatMap {β} (p : Char → Bool) (k : MSt → List β) (g : List (Nat × Str)) (c : Char) (hc : p c = false)
    (hk : ∀ rev x rest, p x = true → k ⟨rev, x :: rest, g⟩ = []) (r : Str) : ∀ (a rev : Str) (n : Nat), a.length ≤ n → (∀ x ∈ a, p x = true) →
    (iterLazy (Re.chr p).run n ⟨rev, a ++ c :: r, g⟩).flatMap k = k ⟨a.reverse ++ rev, c :: r, g⟩
  | [], rev, 0, _, _ => by simp [iterLazy]
  | [], rev, n + 1, _, _ => by simp [iterLazy, Re.run, hc]
  | x :: a, rev, 0, h, _ => by simp at h
  | x :: a, rev, n + 1, h, ha => by
    have hx := ha x (by simp)
    have ih := lazy_flatMap p k g c hc hk r a (x :: rev) n (by simpa using h) (fun y hy => ha y (by simp [hy]))
    have e : Re.run (.chr p) ⟨rev, x :: (a ++ c :: r), g⟩ = [⟨x :: rev, a ++ c :: r, g⟩] := by simp [Re.run, hx]
    simp only [List.cons_append, iterLazy, e, List.flatMap_cons, hk rev x _ hx, List.nil_append]
    simp [ih]

theorem captionof_tail (rev ws a ws' r : Str) (hws : ∀ x ∈ ws, isSpace x = true) (ha : '}' ∉ a) (hws' : ∀ x ∈ ws', isSpace x = true) :
    ∃ rev', ((Re.seq openBrace (.seq (.group 1 (.lazyStar (.chr (· != '}')))) (.seq (.lit ['}']) openBrace))).run
      ⟨rev, ws ++ '{' :: (a ++ '}' :: (ws' ++ '{' :: r)), []⟩).head? = some ⟨rev', r, [(1, a)]⟩ := by
  rw [seq_run, openBrace_hit _ _ _ _ hws]
  simp only [List.flatMap_cons, List.flatMap_nil, List.append_nil]
  rw [seq_run]
  have e : ∀ (rev s : Str), (Re.group 1 (.lazyStar (.chr (· != '}')))).run ⟨rev, s, []⟩ =
      (iterLazy (Re.chr (· != '}')).run s.length ⟨rev, s, []⟩).map fun st' =>
        { st' with groups := (1, s.take (s.length - st'.rest.length)) :: st'.groups } := fun _ _ => rfl
  rw [e, List.flatMap_map, lazy_flatMap (· != '}') _ [] '}' (by decide) _ (ws' ++ '{' :: r) a]
  · rw [seq_run, Re.run_lit, if_pos (by simp [List.isPrefixOf])]
    simp only [List.flatMap_cons, List.flatMap_nil, List.append_nil, List.length_singleton, List.drop_succ_cons, List.drop_zero]
    rw [openBrace_hit _ _ _ _ hws']
    have e2 : (a ++ '}' :: (ws' ++ '{' :: r)).length - ('}' :: (ws' ++ '{' :: r)).length = a.length := by simp
    rw [e2, List.take_left]
    exact ⟨_, rfl⟩
  · simp
  · intro x hx; simp only [bne_iff_ne]; rintro rfl; exact ha hx
  · intro rev x rest hx
    have h' : ('}' == x) = false := by
      simp only [bne_iff_ne] at hx
      simp; exact fun e => hx e.symm
    rw [seq_run, Re.run_lit]
    simp [List.isPrefixOf, h']

/-- **C54, `\captionof{kind}{text}`**: the token has the text of the caption, titled with the kind of float. -/
theorem C54_captionof (aliases : Dict Str) (star : Bool) (ws a ws' body rest : Str) (hws : ∀ x ∈ ws, isSpace x = true) (ha : '}' ∉ a)
    (hws' : ∀ x ∈ ws', isSpace x = true) (hb : Wrappable '{' '}' body) :
    handle id aliases ('\\' :: ("captionof".toList ++ (starText star ++ (ws ++ '{' :: (a ++ '}' :: ws')) ++ '{' :: (body ++ '}' :: rest)))) =
      .ok aliases (.tok (plain "caption" (.str (strip body)) (some (strip a))))
        ('\\' :: ("captionof".toList ++ (starText star ++ (ws ++ '{' :: (a ++ '}' :: ws')) ++ '{' :: (body ++ ['}'])))).length := by
  have hlen : ('\\' :: ("captionof".toList ++ (starText star ++ (ws ++ '{' :: (a ++ '}' :: ws')) ++ '{' :: (body ++ ['}'])))).length =
      "captionof".toList.length + (starText star ++ (ws ++ '{' :: (a ++ '}' :: ws'))).length + body.length + 3 := by
    generalize "captionof".toList = u
    simp; omega
  rw [hlen]
  have e : ws ++ '{' :: (a ++ '}' :: ws') ++ '{' :: (body ++ '}' :: rest) = ws ++ '{' :: (a ++ '}' :: (ws' ++ '{' :: (body ++ '}' :: rest))) := by simp
  obtain ⟨rev, ht⟩ := star_tail star (Re.seq openBrace (.seq (.group 1 (.lazyStar (.chr (· != '}')))) (.seq (.lit ['}']) openBrace)))
    ("captionof".toList.reverse ++ ['\\']) (ws ++ '{' :: (a ++ '}' :: ws') ++ '{' :: (body ++ '}' :: rest)) []
    (by rw [e]; exact blank_head hws (by decide) (by simp))
    (st := ⟨[], body ++ '}' :: rest, [(1, a)]⟩) fun rev => by rw [e]; exact captionof_tail rev ws a ws' _ hws ha hws'
  rw [← List.append_assoc] at ht
  have h := handle_arg 7 (p := (.captionof, .words ["captionof".toList], .seq starred (.seq openBrace
      (.seq (.group 1 (.lazyStar (.chr (· != '}')))) (.seq (.lit ['}']) openBrace)))))
    rfl (by decide) (by decide) (w := "captionof".toList) (by decide)
    (by rw [List.append_assoc (starText star), e]; exact star_stops star (brace_stops ws _ hws)) (by decide +kernel) (ciEqs_self (by decide)) ht hb id aliases
  rw [h]
  rfl

/-- The pattern of `\\footnotemark`. -/
theorem mark_pattern (r : Str) (hr : ∀ c, r.head? = some c → foldLetter c = false) :
    firstPattern ('\\' :: ("footnotemark".toList ++ r)) patterns =
      ((optArg 1).run ⟨"footnotemark".toList.reverse ++ ['\\'], r, []⟩).head?.map fun st =>
        (.footnotemark, ⟨[], '\\' :: ("footnotemark".toList ++ r), ('\\' :: ("footnotemark".toList ++ r)).length - st.rest.length, st.groups⟩) := by
  have hs : patterns = patterns.take 15 ++ (.footnotemark, .words ["footnotemark".toList], optArg 1) :: patterns.drop 16 := rfl
  have hl : Lower "footnotemark".toList := by decide
  have ht : ((patterns.take 15).all fun q => refusesB q "footnotemark".toList) = true := by decide +kernel
  have hm : (patternRe (.footnotemark, .words ["footnotemark".toList], optArg 1)).run ⟨[], '\\' :: ("footnotemark".toList ++ r), []⟩ =
      (optArg 1).run ⟨"footnotemark".toList.reverse ++ ['\\'], r, []⟩ := by
    unfold patternRe Names.re
    simp only [ciAlts]
    have hc := ciEq_refl "footnotemark".toList
    generalize "footnotemark".toList = w at *
    rw [seq_run, Re.run_lit, if_pos (by simp [List.isPrefixOf])]
    simp only [List.flatMap_cons, List.flatMap_nil, List.append_nil, List.length_singleton, List.drop_succ_cons, List.drop_zero]
    rw [seq_run, ciLit_run, List.take_left, List.drop_left, if_pos hc]
    simp
  obtain ⟨l, hl1, _⟩ := optArg_run 1 ("footnotemark".toList.reverse ++ ['\\']) r []
  rw [hs, firstPattern_refuse (patterns.take 15) _ fun q hq => refuses_none (List.mem_of_mem_take hq) (word_of hl hr)
    (refusesB_sound (patterns_low q (List.mem_of_mem_take hq)) hl (List.all_eq_true.1 ht q hq)), firstPattern, Re.matchAt_eq, hm, hl1]
  generalize "footnotemark".toList = w
  cases l <;> rfl

/-- **C54, footnote marks**: the mark in the brackets; `*` if there is none. -/
theorem C54_footnotemark (aliases : Dict Str) (a rest : Str) (ha : ']' ∉ a) :
    handle id aliases ("\\footnotemark".toList ++ '[' :: (a ++ ']' :: rest)) =
      .ok aliases (.tok (plain "footnote" (.str (if a = [] then ['*'] else strip a)) none))
        ("\\footnotemark".toList ++ '[' :: (a ++ [']'])).length := by
  have hm := mark_pattern ('[' :: (a ++ ']' :: rest)) (by intro c hc; simp at hc; subst hc; decide)
  obtain ⟨l, hl⟩ := optArg_hit 1 ("footnotemark".toList.reverse ++ ['\\']) a rest [] ha
  rw [hl] at hm
  unfold handle
  rw [show "\\footnotemark".toList = '\\' :: "footnotemark".toList from rfl, List.cons_append, hm]
  simp only [List.head?_cons, Option.map_some]
  show Res.ok aliases (.tok { type := "footnote".toList, content := .str (if (some a).getD [] = [] then ['*'] else noteOf (some a)) }) _ = _
  refine congrArg (Res.ok aliases _) ?_
  simp only [Match.stop, List.length_nil, Nat.zero_add]
  generalize "footnotemark".toList = u
  simp; omega

/-- **C54, footnote marks without a number**. -/
theorem C54_footnotemark_none (aliases : Dict Str) (rest : Str) (hr : ∀ c, rest.head? = some c → foldLetter c = false ∧ c ≠ '[') :
    handle id aliases ("\\footnotemark".toList ++ rest) =
      .ok aliases (.tok (plain "footnote" (.str ['*']) none)) "\\footnotemark".toList.length := by
  have hm := mark_pattern rest (fun c hc => (hr c hc).1)
  rw [optArg_skip 1 _ _ _ (by intro h; exact (hr _ h).2 rfl)] at hm
  unfold handle
  rw [show "\\footnotemark".toList = '\\' :: "footnotemark".toList from rfl, List.cons_append, hm]
  simp only [List.head?_cons, Option.map_some]
  show Res.ok aliases (.tok { type := "footnote".toList, content := .str ['*'] }) _ = _
  refine congrArg (Res.ok aliases _) ?_
  simp only [Match.stop, List.length_nil, Nat.zero_add]
  generalize "footnotemark".toList = u
  simp; omega

/-- **C54, the appendix**: a marker, with nothing read behind it. -/
theorem C54_appendix (aliases : Dict Str) (u : Str) (hu : u ∈ ["appendix".toList, "appendices".toList]) (rest : Str)
    (hr : ∀ c, rest.head? = some c → foldLetter c = false ∧ isWord c = false) :
    handle id aliases ('\\' :: (u ++ rest)) = .ok aliases (.tok (plain "appendix" .absent none)) ('\\' :: u).length := by
  have tab : ∀ u ∈ ["appendix".toList, "appendices".toList], Lower u ∧ ((patterns.take 26).all fun q => refusesB q u) = true := by decide +kernel
  obtain ⟨hl, ht⟩ := tab u hu
  have hw : Word u rest := word_of hl fun c hc => (hr c hc).1
  have hs : patterns = patterns.take 26 ++ (.appendix, .words ["appendix".toList, "appendices".toList], reWordEnd) :: patterns.drop 27 := rfl
  have he : (reWordEnd.run ⟨u.reverse ++ ['\\'], rest, []⟩).head? = some ⟨u.reverse ++ ['\\'], rest, []⟩ := by
    unfold reWordEnd
    cases rest with
    | nil => rfl
    | cons c cs =>
      have h := (hr c rfl).2
      simp [Re.run, h]
  have h := firstPattern_word hs (by simp) hw (fun q hq => refusesB_sound (patterns_low q (List.mem_of_mem_take hq)) hl (List.all_eq_true.1 ht q hq))
    (ciEqs_self hu) he
  unfold handle
  rw [h]
  show Res.ok aliases (.tok { type := "appendix".toList, content := .absent }) _ = _
  congr 1
  simp [Match.stop]; omega

/-- **C54, bookmarks**: `\pdfbookmark` and its relatives show nothing. -/
theorem C54_pdfbookmark (aliases : Dict Str) (u : Str) (hu : u ∈ ["belowpdfbookmark".toList, "currentpdfbookmark".toList, "pdfbookmark".toList])
    (ws : Str) (o : Opt) (a ws' body rest : Str) (hws : ∀ x ∈ ws, isSpace x = true) (ho : o.Ok) (ha : '}' ∉ a)
    (hws' : ∀ x ∈ ws', isSpace x = true) (hb : Wrappable '{' '}' body) :
    handle id aliases ('\\' :: (u ++ (ws ++ (o.text ++ '{' :: (a ++ '}' :: ws')) ++ '{' :: (body ++ '}' :: rest)))) =
      .ok aliases .none ('\\' :: (u ++ (ws ++ (o.text ++ '{' :: (a ++ '}' :: ws')) ++ '{' :: (body ++ ['}'])))).length := by
  have hlen : ('\\' :: (u ++ (ws ++ (o.text ++ '{' :: (a ++ '}' :: ws')) ++ '{' :: (body ++ ['}'])))).length =
      u.length + (ws ++ (o.text ++ '{' :: (a ++ '}' :: ws'))).length + body.length + 3 := by simp; omega
  rw [hlen]
  have tab : ∀ u ∈ ["belowpdfbookmark".toList, "currentpdfbookmark".toList, "pdfbookmark".toList],
      Lower u ∧ ((patterns.take 14).all fun q => refusesB q u) = true := by decide +kernel
  obtain ⟨hl, htab⟩ := tab u hu
  have e : ws ++ (o.text ++ '{' :: (a ++ '}' :: ws')) ++ '{' :: (body ++ '}' :: rest) =
      ws ++ (o.text ++ '{' :: (a ++ '}' :: (ws' ++ '{' :: (body ++ '}' :: rest)))) := by simp
  obtain ⟨rev, g, ht⟩ : ∃ rev g, ((Re.seq (.star reSpace) (.seq (optArg 1) (.seq (braceArg 2) openBrace))).run
      ⟨u.reverse ++ ['\\'], ws ++ (o.text ++ '{' :: (a ++ '}' :: ws')) ++ '{' :: (body ++ '}' :: rest), []⟩).head? =
      some ⟨rev, body ++ '}' :: rest, g⟩ := by
    rw [e]
    generalize u.reverse ++ ['\\'] = rev
    cases o with
    | absent w =>
      have e2 : ws ++ ((Opt.absent w).text ++ '{' :: (a ++ '}' :: (ws' ++ '{' :: (body ++ '}' :: rest)))) =
          (ws ++ w) ++ '{' :: (a ++ '}' :: (ws' ++ '{' :: (body ++ '}' :: rest))) := by simp [Opt.text]
      rw [e2]
      obtain ⟨l, h1⟩ := spaces_first rev (ws ++ w) ('{' :: (a ++ '}' :: (ws' ++ '{' :: (body ++ '}' :: rest)))) [] (by
        intro x hx
        rcases List.mem_append.1 hx with h | h
        · exact hws x h
        · exact ho x h) (by intro c hc; simp at hc; subst hc; decide)
      exact ⟨_, _, head_seq h1 (head_seq (optArg_skip 1 _ _ _ (by simp)) (head_seq (braceArg_hit 2 _ [] a _ _ (by simp) ha)
        (openBrace_head _ ws' _ _ hws')))⟩
    | given b w =>
      have e2 : ws ++ ((Opt.given b w).text ++ '{' :: (a ++ '}' :: (ws' ++ '{' :: (body ++ '}' :: rest)))) =
          ws ++ '[' :: (b ++ ']' :: (w ++ '{' :: (a ++ '}' :: (ws' ++ '{' :: (body ++ '}' :: rest))))) := by simp [Opt.text]
      rw [e2]
      obtain ⟨l, h1⟩ := spaces_first rev ws ('[' :: (b ++ ']' :: (w ++ '{' :: (a ++ '}' :: (ws' ++ '{' :: (body ++ '}' :: rest)))))) [] hws
        (by intro c hc; simp at hc; subst hc; decide)
      obtain ⟨l2, h2⟩ := optArg_hit 1 (ws.reverse ++ rev) b (w ++ '{' :: (a ++ '}' :: (ws' ++ '{' :: (body ++ '}' :: rest)))) [] ho.1
      exact ⟨_, _, head_seq h1 (head_seq h2 (head_seq (braceArg_hit 2 _ w a _ _ ho.2 ha) (openBrace_head _ ws' _ _ hws')))⟩
  have h := handle_arg 14 (p := (.pdfbookmark, .words ["belowpdfbookmark".toList, "currentpdfbookmark".toList, "pdfbookmark".toList],
      .seq (.star reSpace) (.seq (optArg 1) (.seq (braceArg 2) openBrace))))
    rfl (by decide) (by decide) hl
    (by rw [e]; exact head_blank hws (fun c hc => space_not_fold hc) (opt_stops o ho _)) htab (ciEqs_self hu) ht hb id aliases
  rw [h]
  rfl

/-! Cases. -/

example : handle id [] "\\includegraphics[width=2cm, page=12]{ a/b.pdf }x".toList = .ok [] (pictureToken (some 12) "a/b.pdf".toList) 47 := by
  decide +kernel
example : handle id [] "\\includepdf[scale=2,pages={1-3,7},nup]{f}".toList = .ok [] (pdfToken (some "1-3,7".toList) ['f']) 41 := by decide +kernel
example : handle id [] "\\includepdf[pages=1-3,scale=2]{f}".toList = .ok [] (pdfToken (some "1-3,".toList) ['f']) 33 := by decide +kernel
example : handle id [] "\\bookmark[page=2]{T}x".toList = .ok [] .none 20 := by decide +kernel

end L2J.Content
