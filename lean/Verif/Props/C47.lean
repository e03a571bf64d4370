import Verif.Spec.Cite
import Verif.Props.C46
import Verif.Lemmas.Bib
import Verif.Props.C23
/-! C47: citations, references and links. -/
namespace L2J.Content
open L2J.Cmds Spec

theorem strip_left {a : Str} (ha : ∀ x ∈ a, isSpace x = true) (p : Str) : strip (a ++ p) = strip p := by
  unfold strip lstrip
  rw [List.dropWhile_append_of_pos ha]

theorem rstrip_right {b : Str} (hb : ∀ x ∈ b, isSpace x = true) (p : Str) : rstrip (p ++ b) = rstrip p := by
  unfold rstrip
  rw [List.reverse_append, List.dropWhile_append_of_pos]
  intro x hx
  exact hb x (List.mem_reverse.1 hx)

theorem strip_right {b : Str} (hb : ∀ x ∈ b, isSpace x = true) (p : Str) : strip (p ++ b) = strip p := by
  unfold strip
  have : lstrip (p ++ b) = lstrip p ++ b ∨ (lstrip (p ++ b) = [] ∧ lstrip p = []) := by
    unfold lstrip
    rw [List.dropWhile_append]
    split
    · rename_i h
      right
      refine ⟨?_, by simpa using h⟩
      have := List.dropWhile_append_of_pos hb (l₂ := [])
      simpa using this
    · left; rfl
  rcases this with h | ⟨h1, h2⟩
  · rw [h, rstrip_right hb]
  · rw [h1, h2]

theorem strip_split (s : Str) : ∃ a b, s = a ++ (strip s ++ b) ∧ (∀ x ∈ a, isSpace x = true) ∧ (∀ x ∈ b, isSpace x = true) := by
  obtain ⟨b, hb, h2⟩ := rstrip_eq (lstrip s)
  refine ⟨s.takeWhile isSpace, b, ?_, ?_, hb⟩
  · unfold strip
    rw [← h2]
    unfold lstrip
    rw [List.takeWhile_append_dropWhile]
  · intro x hx
    exact (List.all_eq_true.1 (List.all_takeWhile) x hx)

theorem splitComma_left : ∀ (a : Str), ',' ∉ a → ∀ s, ∃ p ps, splitComma s = p :: ps ∧ splitComma (a ++ s) = (a ++ p) :: ps
  | [], _, s => by
    cases h : splitComma s with
    | nil =>
      exfalso
      cases s with
      | nil => simp [splitComma] at h
      | cons c cs =>
        simp only [splitComma] at h
        split at h
        · cases h
        · split at h <;> cases h
    | cons p ps => exact ⟨p, ps, rfl, by simpa using h⟩
  | c :: a, ha, s => by
    obtain ⟨p, ps, h1, h2⟩ := splitComma_left a (fun h => ha (by simp [h])) s
    refine ⟨p, ps, h1, ?_⟩
    have : c ≠ ',' := fun h => ha (by simp [h])
    rw [List.cons_append, splitComma, if_neg this, h2]
    rfl

theorem splitComma_right : ∀ (s : Str), ∃ init last, splitComma s = init ++ [last] ∧
    ∀ b, ',' ∉ b → splitComma (s ++ b) = init ++ [last ++ b]
  | [] => by
    refine ⟨[], [], rfl, ?_⟩
    intro b hb
    obtain ⟨p, ps, h1, h2⟩ := splitComma_left b hb []
    simp only [splitComma, List.cons.injEq] at h1
    obtain ⟨rfl, rfl⟩ := h1
    simpa using h2
  | c :: s => by
    obtain ⟨init, last, h1, h2⟩ := splitComma_right s
    by_cases hc : c = ','
    · refine ⟨[] :: init, last, ?_, ?_⟩
      · rw [splitComma, if_pos hc, h1]; rfl
      · intro b hb; rw [List.cons_append, splitComma, if_pos hc, h2 b hb]; rfl
    · cases init with
      | nil =>
        refine ⟨[], c :: last, ?_, ?_⟩
        · rw [splitComma, if_neg hc, h1]; rfl
        · intro b hb; rw [List.cons_append, splitComma, if_neg hc, h2 b hb]; rfl
      | cons p ps =>
        refine ⟨(c :: p) :: ps, last, ?_, ?_⟩
        · rw [splitComma, if_neg hc, h1]; rfl
        · intro b hb; rw [List.cons_append, splitComma, if_neg hc, h2 b hb]; rfl

theorem blank_noComma {a : Str} (h : ∀ x ∈ a, isSpace x = true) : ',' ∉ a := no_char h (by decide)

theorem splitComma_strip (s : Str) : (splitComma (strip s)).map strip = (splitComma s).map strip := by
  obtain ⟨a, b, h, ha, hb⟩ := strip_split s
  obtain ⟨init, last, h1, h2⟩ := splitComma_right (strip s)
  obtain ⟨p, ps, h3, h4⟩ := splitComma_left a (blank_noComma ha) (strip s ++ b)
  have h5 := h2 b (blank_noComma hb)
  rw [← h, ] at h4
  rw [h4, h1]
  rw [h5] at h3
  have : (init ++ [last]).map strip = (p :: ps).map strip := by rw [← h3]; simp [strip_right hb]
  rw [this, List.map_cons, List.map_cons, strip_left ha]

theorem splitComma_join : ∀ (l : List Str), l ≠ [] → (∀ k ∈ l, ',' ∉ k) → splitComma (joinWith [','] l) = l
  | [], h, _ => absurd rfl h
  | [k], _, h => by
    obtain ⟨p, ps, h1, h2⟩ := splitComma_left k (h k (by simp)) []
    simp only [splitComma, List.cons.injEq] at h1
    obtain ⟨rfl, rfl⟩ := h1
    simpa [joinWith] using h2
  | k :: k' :: l, _, h => by
    have ih := splitComma_join (k' :: l) (by simp) (fun x hx => h x (by simp [hx]))
    obtain ⟨p, ps, h1, h2⟩ := splitComma_left k (h k (by simp)) (',' :: joinWith [','] (k' :: l))
    rw [splitComma, if_pos rfl, ih] at h1
    simp only [List.cons.injEq] at h1
    obtain ⟨rfl, rfl⟩ := h1
    simpa [joinWith] using h2

theorem keys_of {l : List Str} (h : Keys l) : (splitComma (strip (joinWith [','] l))).map strip = l.map strip := by
  rw [splitComma_strip, splitComma_join l h.1 h.2]

/-! The tail of the citation pattern. -/

theorem optArg_skip (n : Nat) (rev r : Str) (g) (h : r.head? ≠ some '[') : (optArg n).run ⟨rev, r, g⟩ = [⟨rev, r, g⟩] := by
  obtain ⟨l, h1, h2⟩ := optArg_run n rev r g
  rw [h1, h2 h]; rfl

theorem blank_head {ws r : Str} {c : Char} (hws : ∀ x ∈ ws, isSpace x = true) (hc : isSpace c = false) (hr : r.head? ≠ some c) :
    (ws ++ r).head? ≠ some c := by
  cases ws with
  | nil => exact hr
  | cons x ws =>
    intro h
    simp at h
    have := hws x (by simp)
    rw [h, hc] at this; cases this

theorem notes_head (n : Notes) (r : Str) : ∀ c, (n.text ++ '{' :: r).head? = some c → c = '[' ∨ c = '{' := by
  intro c hc
  cases n <;> simp [Notes.text] at hc <;> subst hc <;> simp

theorem notes_space (n : Notes) (r : Str) : ∀ c, (n.text ++ '{' :: r).head? = some c → isSpace c = false := by
  intro c hc
  rcases notes_head n r c hc with rfl | rfl <;> decide

/-- The groups of the citation pattern. -/
def noteGroups : Notes → List (Nat × Str)
  | .none => []
  | .one a _ => [(1, a)]
  | .two a b _ => [(2, b), (1, a)]

theorem cite_tail (n : Notes) (hn : n.Ok) (rev ws r : Str) (hws : ∀ x ∈ ws, isSpace x = true) :
    ∃ rev', ((Re.seq (.star reSpace) (.seq (optArg 1) (.seq (optArg 2) openBrace))).run
      ⟨rev, ws ++ (n.text ++ '{' :: r), []⟩).head? = some ⟨rev', r, noteGroups n⟩ := by
  obtain ⟨l, hl⟩ := spaces_first rev ws (n.text ++ '{' :: r) [] hws (notes_space n r)
  have open1 : ∀ rev g ws', (∀ x ∈ ws', isSpace x = true) →
      (openBrace.run ⟨rev, ws' ++ '{' :: r, g⟩).head? = some ⟨'{' :: (ws'.reverse ++ rev), r, g⟩ := by
    intro rev g ws' h; rw [openBrace_hit _ _ _ _ h]; rfl
  cases n with
  | none =>
    refine ⟨_, head_seq hl (head_seq (optArg_skip 1 _ _ _ (by simp [Notes.text])) (head_seq (optArg_skip 2 _ _ _ (by simp [Notes.text]))
      (open1 _ _ [] (by simp))))⟩
  | one a ws' =>
    obtain ⟨l1, h1⟩ := optArg_hit 1 (ws.reverse ++ rev) a (ws' ++ '{' :: r) [] hn.1
    have e : (Notes.one a ws').text ++ '{' :: r = '[' :: (a ++ ']' :: (ws' ++ '{' :: r)) := by simp [Notes.text]
    rw [e] at hl ⊢
    exact ⟨_, head_seq hl (head_seq h1 (head_seq (optArg_skip 2 _ _ _ (blank_head hn.2 (by decide) (by simp))) (open1 _ _ ws' hn.2)))⟩
  | two a b ws' =>
    obtain ⟨l1, h1⟩ := optArg_hit 1 (ws.reverse ++ rev) a ('[' :: (b ++ ']' :: (ws' ++ '{' :: r))) [] hn.1
    obtain ⟨l2, h2⟩ := optArg_hit 2 ((('[' :: a) ++ [']']).reverse ++ (ws.reverse ++ rev)) b (ws' ++ '{' :: r) [(1, a)] hn.2.1
    have e : (Notes.two a b ws').text ++ '{' :: r = '[' :: (a ++ ']' :: ('[' :: (b ++ ']' :: (ws' ++ '{' :: r)))) := by simp [Notes.text]
    rw [e] at hl ⊢
    exact ⟨_, head_seq hl (head_seq h1 (head_seq h2 (open1 _ _ ws' hn.2.2)))⟩

theorem notes_title (n : Notes) (rest : Str) (len : Nat) :
    (let notes := [noteOf ((⟨[], rest, len, noteGroups n⟩ : Match).group 1), noteOf ((⟨[], rest, len, noteGroups n⟩ : Match).group 2)].filter
        fun s => !s.isEmpty
      if notes.isEmpty then Option.none else some (joinWith ", ".toList notes)) = n.title := by
  have key : ([noteOf ((⟨[], rest, len, noteGroups n⟩ : Match).group 1), noteOf ((⟨[], rest, len, noteGroups n⟩ : Match).group 2)].filter
      fun s => !s.isEmpty) = (n.list.map strip).filter fun s => !s.isEmpty := by
    have h0 : strip [] = [] := by decide
    cases n with
    | none => simp [noteOf, Match.group, noteGroups, Notes.list, h0]
    | one a ws => simp [noteOf, Match.group, noteGroups, Notes.list, h0, List.filter_cons]
    | two a b ws => simp [noteOf, Match.group, noteGroups, Notes.list, List.filter_cons]
  simp only [key, Notes.title]
  cases (n.list.map strip).filter fun s => !s.isEmpty with
  | nil => rfl
  | cons x l => rfl

theorem createToken_cite (aliases : Dict Str) (rest : Str) (len : Nat) (n : Notes) (text : Str) :
    createToken aliases .citation ⟨[], rest, len, noteGroups n⟩ text =
      some (aliases, .tok (plain "citation" (.keys ((splitComma (strip text)).map strip)) n.title)) := by
  have := notes_title n rest len
  simp only at this
  rw [← this]
  rfl

theorem cite_table : ∀ w ∈ citeCommands, ((patterns.take 22).all fun q => refusesB q w) = true := by decide +kernel

/-- **C47, citations**: any citation command (its first letter may be a capital), with up to two notes and any keys separated by
commas, gives one token with exactly the keys in the order written, without the blanks around them, and the notes that are not blank
as its title; the text behind the closing brace is next. -/
theorem C47_cite (aliases : Dict Str) (u : Str) (hu : u.map low ∈ citeCommands) (hul : ∀ c ∈ u, isLetter c = true) (ws : Str)
    (n : Notes) (keys : List Str) (rest : Str) (hws : ∀ x ∈ ws, isSpace x = true) (hn : n.Ok) (hk : Keys keys)
    (hb : Wrappable '{' '}' (joinWith [','] keys)) :
    handle id aliases ('\\' :: (u ++ (ws ++ n.text ++ '{' :: (joinWith [','] keys ++ '}' :: rest)))) =
      .ok aliases (.tok (plain "citation" (.keys (keys.map strip)) n.title))
        ('\\' :: (u ++ (ws ++ n.text ++ '{' :: (joinWith [','] keys ++ ['}'])))).length := by
  have hlen : ('\\' :: (u ++ (ws ++ n.text ++ '{' :: (joinWith [','] keys ++ ['}'])))).length =
      u.length + (ws ++ n.text).length + (joinWith [','] keys).length + 3 := by simp; omega
  rw [hlen]
  obtain ⟨rev, ht⟩ := cite_tail n hn (u.reverse ++ ['\\']) ws (joinWith [','] keys ++ '}' :: rest) hws
  rw [← List.append_assoc ws] at ht
  have hst : ∀ c, (ws ++ n.text ++ '{' :: (joinWith [','] keys ++ '}' :: rest)).head? = some c → foldLetter c = false := by
    rw [List.append_assoc]
    refine head_blank hws (fun c hc => space_not_fold hc) ?_
    intro c hc
    rcases notes_head n _ c hc with rfl | rfl <;> decide
  have key := handle_arg_any 22 (p := (.citation, .words citeWords, .seq (.star reSpace) (.seq (optArg 1) (.seq (optArg 2) openBrace))))
    rfl (by decide) (by decide) hul hst (cite_table _ hu) ((any_low (by decide) hul).2 hu) ht hb id aliases
  rw [key, createToken_cite, id, keys_of hk]

/-! The other commands. -/

theorem braceArg_hit (n : Nat) (rev ws a r : Str) (g) (hws : ∀ x ∈ ws, isSpace x = true) (ha : '}' ∉ a) :
    (braceArg n).run ⟨rev, ws ++ '{' :: (a ++ '}' :: r), g⟩ =
      [⟨(a ++ ['}']).reverse ++ ('{' :: (ws.reverse ++ rev)), r, (n, a) :: g⟩] := by
  unfold braceArg
  rw [seq_run, openBrace_hit _ _ _ _ hws]
  simp only [List.flatMap_cons, List.flatMap_nil, List.append_nil]
  rw [seq_run]
  have e : (Re.group n (.star (.chr (· != '}')))).run ⟨'{' :: (ws.reverse ++ rev), a ++ '}' :: r, g⟩ =
      (charRuns (· != '}') g ('{' :: (ws.reverse ++ rev)) (a ++ '}' :: r)).map fun st' =>
        { st' with groups := (n, (a ++ '}' :: r).take ((a ++ '}' :: r).length - st'.rest.length)) :: st'.groups } := by
    show List.map _ ((Re.star (.chr (· != '}'))).run _) = _
    rw [run_star_chr]
  rw [e, List.flatMap_map, charRuns_flatMap]
  · have ht : (a ++ '}' :: r).takeWhile (· != '}') = a := by
      rw [List.takeWhile_append_of_pos]
      · simp
      · intro x hx; simp only [bne_iff_ne]; rintro rfl; exact ha hx
    have hd : (a ++ '}' :: r).dropWhile (· != '}') = '}' :: r := by
      rw [List.dropWhile_append_of_pos]
      · simp
      · intro x hx; simp only [bne_iff_ne]; rintro rfl; exact ha hx
    rw [ht, hd, Re.run_lit]
    simp [List.isPrefixOf]
  · intro rev x rest hx
    have h' : ¬ '}' = x := by
      intro e; rw [← e] at hx; simp at hx
    rw [Re.run_lit]
    simp [List.isPrefixOf, h']

theorem brace_stops (ws r : Str) (hws : ∀ x ∈ ws, isSpace x = true) :
    ∀ c, (ws ++ '{' :: r).head? = some c → foldLetter c = false :=
  head_blank hws (fun c hc => space_not_fold hc) (by intro c hc; simp at hc; subst hc; decide)

theorem bracket_stops (ws r : Str) (hws : ∀ x ∈ ws, isSpace x = true) :
    ∀ c, (ws ++ '[' :: r).head? = some c → foldLetter c = false :=
  head_blank hws (fun c hc => space_not_fold hc) (by intro c hc; simp at hc; subst hc; decide)

theorem openBrace_head (rev ws r : Str) (g) (hws : ∀ x ∈ ws, isSpace x = true) :
    (openBrace.run ⟨rev, ws ++ '{' :: r, g⟩).head? = some ⟨'{' :: (ws.reverse ++ rev), r, g⟩ := by
  rw [openBrace_hit _ _ _ _ hws]; rfl

theorem createToken_ref (aliases : Dict Str) (m : Match) (text : Str) : createToken aliases .ref m text =
    some (aliases, .tok (plain "ref" (.keys [strip (strip text)]) none)) := rfl

theorem createToken_cref (aliases : Dict Str) (m : Match) (text : Str) : createToken aliases .cref m text =
    some (aliases, .tok (plain "ref" (.keys ((splitComma (strip text)).map strip)) none)) := rfl

theorem createToken_hyperref (aliases : Dict Str) (rest : Str) (len : Nat) (a text : Str) :
    createToken aliases .hyperref ⟨[], rest, len, [(1, a)]⟩ text =
      some (aliases, .tok (plain "ref" (.keys [strip a]) (some (strip text)))) := rfl

theorem createToken_href (aliases : Dict Str) (rest : Str) (len : Nat) (a text : Str) :
    createToken aliases .href ⟨[], rest, len, [(1, a)]⟩ text =
      some (aliases, .tok (plain "url" (.str (strip a)) (some (strip text)))) := rfl

theorem createToken_url (aliases : Dict Str) (m : Match) (text : Str) : createToken aliases .url m text =
    some (aliases, .tok (plain "url" (.str (strip text)) none)) := rfl

theorem createToken_doi (aliases : Dict Str) (m : Match) (text : Str) : createToken aliases .doi m text =
    some (aliases, .tok (plain "url" (.str ("https://doi.org/".toList ++ strip text)) none)) := rfl

theorem createToken_def (aliases : Dict Str) (rest : Str) (len : Nat) (a text : Str) :
    createToken aliases .defcitealias ⟨[], rest, len, [(1, a)]⟩ text = some (aliases.set (strip a) (strip text), .none) := rfl

/-- The commands for one reference. -/
def _root_.L2J.Spec.refCommands : List Str := ["autoref", "eqref", "pageref", "ref"].map String.toList

theorem ref_table : ∀ w ∈ refCommands, ((patterns.take 9).all fun q => refusesB q w) = true := by decide +kernel

/-- **C47, references**: `\ref` and its relatives, with any key. -/
theorem C47_ref (aliases : Dict Str) (u : Str) (hu : u.map low ∈ refCommands) (hul : ∀ c ∈ u, isLetter c = true) (star : Bool) (ws : Str)
    (key rest : Str) (hws : ∀ x ∈ ws, isSpace x = true) (hb : Wrappable '{' '}' key) :
    handle id aliases ('\\' :: (u ++ (starText star ++ ws ++ '{' :: (key ++ '}' :: rest)))) =
      .ok aliases (.tok (plain "ref" (.keys [strip key]) none))
        ('\\' :: (u ++ (starText star ++ ws ++ '{' :: (key ++ ['}'])))).length := by
  have hlen : ('\\' :: (u ++ (starText star ++ ws ++ '{' :: (key ++ ['}'])))).length =
      u.length + (starText star ++ ws).length + key.length + 3 := by simp; omega
  rw [hlen]
  obtain ⟨rev, ht⟩ := starBrace_head star (u.reverse ++ ['\\']) ws (key ++ '}' :: rest) [] hws
  have h := handle_arg_any 9 (p := (.ref, .words ["autoref".toList, "eqref".toList, "pageref".toList, "ref".toList], .seq starred openBrace))
    rfl (by decide) (by decide) hul (start_stops star ws _ hws) (ref_table _ hu) ((any_low (by decide) hul).2 hu) ht hb id aliases
  rw [h, createToken_ref, id, strip_strip]

/-- **C47, several references**: `\cref`, `\Cref`: one token with all keys in order. -/
theorem C47_cref (aliases : Dict Str) (u : Str) (hu : u.map low = "cref".toList) (hul : ∀ c ∈ u, isLetter c = true) (star : Bool) (ws : Str)
    (keys : List Str) (rest : Str) (hws : ∀ x ∈ ws, isSpace x = true) (hk : Keys keys) (hb : Wrappable '{' '}' (joinWith [','] keys)) :
    handle id aliases ('\\' :: (u ++ (starText star ++ ws ++ '{' :: (joinWith [','] keys ++ '}' :: rest)))) =
      .ok aliases (.tok (plain "ref" (.keys (keys.map strip)) none))
        ('\\' :: (u ++ (starText star ++ ws ++ '{' :: (joinWith [','] keys ++ ['}'])))).length := by
  have hlen : ('\\' :: (u ++ (starText star ++ ws ++ '{' :: (joinWith [','] keys ++ ['}'])))).length =
      u.length + (starText star ++ ws).length + (joinWith [','] keys).length + 3 := by simp; omega
  rw [hlen]
  obtain ⟨rev, ht⟩ := starBrace_head star (u.reverse ++ ['\\']) ws (joinWith [','] keys ++ '}' :: rest) [] hws
  have h := handle_arg_any 10 (p := (.cref, .words ["cref".toList], .seq starred openBrace))
    rfl (by decide) (by decide) hul (start_stops star ws _ hws) (by rw [hu]; decide +kernel)
    ((any_low (by decide) hul).2 (by rw [hu]; decide)) ht hb id aliases
  rw [h, createToken_cref, id, keys_of hk]

theorem hyper_tail (rev ws a ws' r : Str) (hws : ∀ x ∈ ws, isSpace x = true) (ha : ']' ∉ a) (hws' : ∀ x ∈ ws', isSpace x = true) :
    ∃ rev', ((Re.seq (.star reSpace) (.seq (optArg 1) openBrace)).run ⟨rev, ws ++ ('[' :: (a ++ ']' :: ws')) ++ '{' :: r, []⟩).head? =
      some ⟨rev', r, [(1, a)]⟩ := by
  have e : ws ++ ('[' :: (a ++ ']' :: ws')) ++ '{' :: r = ws ++ '[' :: (a ++ ']' :: (ws' ++ '{' :: r)) := by simp
  rw [e]
  obtain ⟨l, hl⟩ := spaces_first rev ws ('[' :: (a ++ ']' :: (ws' ++ '{' :: r))) [] hws (by intro c hc; simp at hc; subst hc; decide)
  obtain ⟨l1, h1⟩ := optArg_hit 1 (ws.reverse ++ rev) a (ws' ++ '{' :: r) [] ha
  exact ⟨_, head_seq hl (head_seq h1 (openBrace_head _ _ _ _ hws'))⟩

/-- **C47, `\hyperref[key]{text}`**. -/
theorem C47_hyperref (aliases : Dict Str) (ws a ws' body rest : Str) (hws : ∀ x ∈ ws, isSpace x = true) (ha : ']' ∉ a)
    (hws' : ∀ x ∈ ws', isSpace x = true) (hb : Wrappable '{' '}' body) :
    handle id aliases ('\\' :: ("hyperref".toList ++ (ws ++ ('[' :: (a ++ ']' :: ws')) ++ '{' :: (body ++ '}' :: rest)))) =
      .ok aliases (.tok (plain "ref" (.keys [strip a]) (some (strip body))))
        ('\\' :: ("hyperref".toList ++ (ws ++ ('[' :: (a ++ ']' :: ws')) ++ '{' :: (body ++ ['}'])))).length := by
  have hlen : ('\\' :: ("hyperref".toList ++ (ws ++ ('[' :: (a ++ ']' :: ws')) ++ '{' :: (body ++ ['}'])))).length =
      "hyperref".toList.length + (ws ++ ('[' :: (a ++ ']' :: ws'))).length + body.length + 3 := by
    generalize "hyperref".toList = u
    simp; omega
  rw [hlen]
  obtain ⟨rev, ht⟩ := hyper_tail ("hyperref".toList.reverse ++ ['\\']) ws a ws' (body ++ '}' :: rest) hws ha hws'
  have h := handle_arg 11 (p := (.hyperref, .words ["hyperref".toList], .seq (.star reSpace) (.seq (optArg 1) openBrace)))
    rfl (by decide) (by decide) (w := "hyperref".toList) (by decide)
    (by rw [List.append_assoc]; exact bracket_stops ws _ hws) (by decide +kernel) (ciEqs_self (by decide)) ht hb id aliases
  rw [h, createToken_hyperref]
  rfl

theorem href_tail (rev ws a ws' r : Str) (hws : ∀ x ∈ ws, isSpace x = true) (ha : '}' ∉ a) (hws' : ∀ x ∈ ws', isSpace x = true) :
    ∃ rev', ((Re.seq (braceArg 1) openBrace).run ⟨rev, ws ++ ('{' :: (a ++ '}' :: ws')) ++ '{' :: r, []⟩).head? =
      some ⟨rev', r, [(1, a)]⟩ := by
  have e : ws ++ ('{' :: (a ++ '}' :: ws')) ++ '{' :: r = ws ++ '{' :: (a ++ '}' :: (ws' ++ '{' :: r)) := by simp
  rw [e]
  exact ⟨_, head_seq (braceArg_hit 1 rev ws a (ws' ++ '{' :: r) [] hws ha) (openBrace_head _ _ _ _ hws')⟩

/-- **C47, `\href{address}{text}`**. -/
theorem C47_href (aliases : Dict Str) (ws a ws' body rest : Str) (hws : ∀ x ∈ ws, isSpace x = true) (ha : '}' ∉ a)
    (hws' : ∀ x ∈ ws', isSpace x = true) (hb : Wrappable '{' '}' body) :
    handle id aliases ('\\' :: ("href".toList ++ (ws ++ ('{' :: (a ++ '}' :: ws')) ++ '{' :: (body ++ '}' :: rest)))) =
      .ok aliases (.tok (plain "url" (.str (strip a)) (some (strip body))))
        ('\\' :: ("href".toList ++ (ws ++ ('{' :: (a ++ '}' :: ws')) ++ '{' :: (body ++ ['}'])))).length := by
  have hlen : ('\\' :: ("href".toList ++ (ws ++ ('{' :: (a ++ '}' :: ws')) ++ '{' :: (body ++ ['}'])))).length =
      "href".toList.length + (ws ++ ('{' :: (a ++ '}' :: ws'))).length + body.length + 3 := by
    generalize "href".toList = u
    simp; omega
  rw [hlen]
  obtain ⟨rev, ht⟩ := href_tail ("href".toList.reverse ++ ['\\']) ws a ws' (body ++ '}' :: rest) hws ha hws'
  have h := handle_arg 12 (p := (.href, .words ["href".toList], .seq (braceArg 1) openBrace))
    rfl (by decide) (by decide) (w := "href".toList) (by decide)
    (by rw [List.append_assoc]; exact brace_stops ws _ hws) (by decide +kernel) (ciEqs_self (by decide)) ht hb id aliases
  rw [h, createToken_href]
  rfl

theorem url_table : ∀ u ∈ ["url".toList, "path".toList], Lower u ∧ ((patterns.take 17).all fun q => refusesB q u) = true := by
  decide +kernel

theorem alias_table : ∀ u ∈ ["citetalias".toList, "citepalias".toList],
    Lower u ∧ ((patterns.take 24).all fun q => refusesB q u) = true := by
  decide +kernel

/-- **C47, addresses**: `\url`, `\path`. -/
theorem C47_url (aliases : Dict Str) (u : Str) (hu : u ∈ ["url".toList, "path".toList]) (ws body rest : Str)
    (hws : ∀ x ∈ ws, isSpace x = true) (hb : Wrappable '{' '}' body) :
    handle id aliases ('\\' :: (u ++ (ws ++ '{' :: (body ++ '}' :: rest)))) =
      .ok aliases (.tok (plain "url" (.str (strip body)) none)) ('\\' :: (u ++ (ws ++ '{' :: (body ++ ['}'])))).length := by
  have hlen : ('\\' :: (u ++ (ws ++ '{' :: (body ++ ['}'])))).length = u.length + ws.length + body.length + 3 := by simp; omega
  rw [hlen]
  obtain ⟨hl, ht⟩ := url_table u hu
  have h := handle_arg 17 (p := (.url, .words ["url".toList, "path".toList], openBrace))
    rfl (by decide) (by decide) hl (brace_stops ws _ hws) ht (ciEqs_self hu) (rest := rest) (openBrace_head _ ws _ _ hws) hb id aliases
  rw [h, createToken_url]
  rfl

/-- **C47, `\doi`**. -/
theorem C47_doi (aliases : Dict Str) (ws body rest : Str) (hws : ∀ x ∈ ws, isSpace x = true) (hb : Wrappable '{' '}' body) :
    handle id aliases ('\\' :: ("doi".toList ++ (ws ++ '{' :: (body ++ '}' :: rest)))) =
      .ok aliases (.tok (plain "url" (.str ("https://doi.org/".toList ++ strip body)) none))
        ('\\' :: ("doi".toList ++ (ws ++ '{' :: (body ++ ['}'])))).length := by
  have hlen : ('\\' :: ("doi".toList ++ (ws ++ '{' :: (body ++ ['}'])))).length = "doi".toList.length + ws.length + body.length + 3 := by
    generalize "doi".toList = u
    simp; omega
  rw [hlen]
  have h := handle_arg 18 (p := (.doi, .words ["doi".toList], openBrace))
    rfl (by decide) (by decide) (w := "doi".toList) (by decide) (brace_stops ws _ hws) (by decide +kernel) (ciEqs_self (by decide)) (rest := rest)
    (openBrace_head _ ws _ _ hws) hb id aliases
  rw [h, createToken_doi]
  rfl

/-- **C47, `\defcitealias{key}{text}`**: the key now stands for the text; no token. -/
theorem C47_defcitealias (aliases : Dict Str) (ws a ws' body rest : Str) (hws : ∀ x ∈ ws, isSpace x = true) (ha : '}' ∉ a)
    (hws' : ∀ x ∈ ws', isSpace x = true) (hb : Wrappable '{' '}' body) :
    handle id aliases ('\\' :: ("defcitealias".toList ++ (ws ++ ('{' :: (a ++ '}' :: ws')) ++ '{' :: (body ++ '}' :: rest)))) =
      .ok (aliases.set (strip a) (strip body)) .none
        ('\\' :: ("defcitealias".toList ++ (ws ++ ('{' :: (a ++ '}' :: ws')) ++ '{' :: (body ++ ['}'])))).length := by
  have hlen : ('\\' :: ("defcitealias".toList ++ (ws ++ ('{' :: (a ++ '}' :: ws')) ++ '{' :: (body ++ ['}'])))).length =
      "defcitealias".toList.length + (ws ++ ('{' :: (a ++ '}' :: ws'))).length + body.length + 3 := by
    generalize "defcitealias".toList = u
    simp; omega
  rw [hlen]
  obtain ⟨rev, ht⟩ := href_tail ("defcitealias".toList.reverse ++ ['\\']) ws a ws' (body ++ '}' :: rest) hws ha hws'
  have h := handle_arg 23 (p := (.defcitealias, .words ["defcitealias".toList], .seq (braceArg 1) openBrace))
    rfl (by decide) (by decide) (w := "defcitealias".toList) (by decide)
    (by rw [List.append_assoc]; exact brace_stops ws _ hws) (by decide +kernel) (ciEqs_self (by decide)) ht hb id aliases
  rw [h, createToken_def]
  rfl

/-- The token of a citation by alias: the text as title, if there is one. -/
def _root_.L2J.Spec.aliasToken (aliases : Dict Str) (key : Str) : CTok :=
  plain "citation" (.keys [key]) (match aliases.get? key with | some [] => none | x => x)

theorem aliasTok_eq (aliases : Dict Str) (key : Str) : aliasTok aliases key = aliasToken aliases key := by
  unfold aliasTok aliasToken plain
  cases aliases.get? key with
  | none => rfl
  | some t => cases t <;> rfl

theorem createToken_alias (aliases : Dict Str) (m : Match) (text : Str) : createToken aliases .citealias m text =
    some (aliases, match ((splitComma (strip text)).map strip).map (aliasTok aliases) with | [t] => .tok t | ts => .toks ts) := by
  unfold createToken
  simp only
  split
  · rename_i h; rw [h]
  · rename_i ts h
    split
    · rename_i t h'; exact absurd h' (h t)
    · rfl

/-- **C47, `\citetalias`, `\citepalias`**: one token for each key, in order, titled with what the key stands for. -/
theorem C47_citealias (aliases : Dict Str) (u : Str) (hu : u ∈ ["citetalias".toList, "citepalias".toList]) (ws : Str) (keys : List Str)
    (rest : Str) (hws : ∀ x ∈ ws, isSpace x = true) (hk : Keys keys) (hb : Wrappable '{' '}' (joinWith [','] keys)) :
    handle id aliases ('\\' :: (u ++ (ws ++ '{' :: (joinWith [','] keys ++ '}' :: rest)))) =
      .ok aliases (match keys.map fun k => aliasToken aliases (strip k) with | [t] => .tok t | ts => .toks ts)
        ('\\' :: (u ++ (ws ++ '{' :: (joinWith [','] keys ++ ['}'])))).length := by
  have hlen : ('\\' :: (u ++ (ws ++ '{' :: (joinWith [','] keys ++ ['}'])))).length =
      u.length + ws.length + (joinWith [','] keys).length + 3 := by simp; omega
  rw [hlen]
  obtain ⟨hl, ht⟩ := alias_table u hu
  have h := handle_arg 24 (p := (.citealias, .words ["citetalias".toList, "citepalias".toList], openBrace))
    rfl (by decide) (by decide) hl (brace_stops ws _ hws) ht (ciEqs_self hu) (rest := rest) (openBrace_head _ ws _ _ hws) hb id aliases
  have e : (keys.map strip).map (aliasTok aliases) = keys.map fun k => aliasToken aliases (strip k) := by
    rw [List.map_map]
    exact List.map_congr_left fun k _ => aliasTok_eq aliases (strip k)
  rw [h, createToken_alias, id, keys_of hk, e]

end L2J.Content
