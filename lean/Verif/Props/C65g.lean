import Verif.Props.C65f
import Verif.Props.C48
/-! C65: commands with a content: headings, notes, references, citations, links. -/
namespace L2J.Psr
open Cmds Defn L2J.Spec
open Pre (not_word)
open Content (starText foldLetter starred openBrace optArg braceArg handle_arg ciEqs_self)

/-- The headings of LaTeX. -/
def _root_.L2J.Spec.headings : List Heading := [.part, .chapter, .section 0, .section 1, .section 2, .paragraph 0, .paragraph 1]

/-- What a command with a content says: the word, what follows it, and the token it stands for (the texts in it are still to be read). -/
inductive _root_.L2J.Spec.Says : Str → Str → Content.CTok → Prop
  | heading (h : Heading) (star : Bool) (ws body : Str) : h ∈ headings → Blank ws → Wrappable '{' '}' body →
      Says h.word (starText star ++ (ws ++ '{' :: (body ++ ['}']))) (h.token star (strip body))
  | cite (u ws : Str) (n : Notes) (keys : List Str) : u ∈ citeCommands → Blank ws → n.Ok → Keys keys → Wrappable '{' '}' (joinWith [','] keys) →
      Says u (ws ++ (n.text ++ '{' :: (joinWith [','] keys ++ ['}']))) (plain "citation" (.keys (keys.map strip)) n.title)
  | ref (u : Str) (star : Bool) (ws key : Str) : u ∈ ["autoref", "eqref", "pageref", "ref"].map String.toList → Blank ws → Wrappable '{' '}' key →
      Says u (starText star ++ (ws ++ '{' :: (key ++ ['}']))) (plain "ref" (.keys [strip key]) none)
  | cref (u : Str) (star : Bool) (ws : Str) (keys : List Str) : u ∈ ["cref", "Cref"].map String.toList → Blank ws → Keys keys → Wrappable '{' '}' (joinWith [','] keys) →
      Says u (starText star ++ (ws ++ '{' :: (joinWith [','] keys ++ ['}']))) (plain "ref" (.keys (keys.map strip)) none)
  | hyperref (ws a ws' body : Str) : Blank ws → ']' ∉ a → Blank ws' → Wrappable '{' '}' body →
      Says "hyperref".toList (ws ++ '[' :: (a ++ ']' :: (ws' ++ '{' :: (body ++ ['}'])))) (plain "ref" (.keys [strip a]) (some (strip body)))
  | href (ws a ws' body : Str) : Blank ws → '}' ∉ a → Blank ws' → Wrappable '{' '}' body →
      Says "href".toList (ws ++ '{' :: (a ++ '}' :: (ws' ++ '{' :: (body ++ ['}'])))) (plain "url" (.str (strip a)) (some (strip body)))
  | url (u ws body : Str) : u ∈ ["url", "path"].map String.toList → Blank ws → Wrappable '{' '}' body → Says u (ws ++ '{' :: (body ++ ['}'])) (plain "url" (.str (strip body)) none)
  | doi (ws body : Str) : Blank ws → Wrappable '{' '}' body → Says "doi".toList (ws ++ '{' :: (body ++ ['}'])) (plain "url" (.str ("https://doi.org/".toList ++ strip body)) none)
  | footnote (star : Bool) (o : Option Str) (ws body : Str) : (∀ x ∈ o, ']' ∉ x) → Blank ws → Wrappable '{' '}' body →
      Says "footnote".toList (starText star ++ (bracketed o ++ (ws ++ '{' :: (body ++ ['}'])))) (plain "footnote" (.str (strip body)) none)
  | caption (u : Str) (star : Bool) (ws : Str) (o : Option Str) (ws' body : Str) : u ∈ ["caption", "subcaption"].map String.toList → Blank ws → (∀ x ∈ o, ']' ∉ x) →
      Blank ws' → Wrappable '{' '}' body → (o = none → ws' = []) →
      Says u (starText star ++ (ws ++ (bracketed o ++ (ws' ++ '{' :: (body ++ ['}']))))) (plain "caption" (.str (strip body)) none)
  | title (ws : Str) (o : Option Str) (ws' body : Str) : Blank ws → (∀ x ∈ o, ']' ∉ x) → Blank ws' → Wrappable '{' '}' body → (o = none → ws' = []) →
      Says "title".toList (ws ++ (bracketed o ++ (ws' ++ '{' :: (body ++ ['}'])))) (plain "title" (.str (strip body)) none)
  | keywords (ws body : Str) : Blank ws → Wrappable '{' '}' body → Says "keywords".toList (ws ++ '{' :: (body ++ ['}'])) (plain "keywords" (.str (strip body)) none)

/-- The words that stand for themselves. -/
def saysRest : List Str := ["autoref", "eqref", "pageref", "ref", "cref", "Cref", "hyperref", "href", "url", "path", "doi", "footnote", "caption", "subcaption", "title", "keywords"].map String.toList

/-- The words of these commands. -/
def saysWords : List Str := headings.map Heading.word ++ (citeCommands ++ saysRest)

theorem says_ok : saysWords.all (fun w => passes w && notFirsts w) = true := by decide +kernel

theorem some_sub : ∀ l ∈ [["autoref", "eqref", "pageref", "ref"], ["cref", "Cref"], ["url", "path"], ["caption", "subcaption"]], ∀ u ∈ l.map String.toList, u ∈ saysRest := by decide +kernel

theorem says_word {w arg : Str} {t : Content.CTok} (h : Says w arg t) : w ∈ saysWords := by
  unfold saysWords
  cases h with
  | heading h _ _ _ hh => exact List.mem_append_left _ (List.mem_map.2 ⟨h, hh, rfl⟩)
  | cite u _ _ _ hu => exact List.mem_append_right _ (List.mem_append_left _ hu)
  | ref _ _ _ _ hu => exact List.mem_append_right _ (List.mem_append_right _ (some_sub ["autoref", "eqref", "pageref", "ref"] (by decide) w hu))
  | cref _ _ _ _ hu => exact List.mem_append_right _ (List.mem_append_right _ (some_sub ["cref", "Cref"] (by decide) w hu))
  | url _ _ _ hu => exact List.mem_append_right _ (List.mem_append_right _ (some_sub ["url", "path"] (by decide) w hu))
  | caption _ _ _ _ _ _ hu => exact List.mem_append_right _ (List.mem_append_right _ (some_sub ["caption", "subcaption"] (by decide) w hu))
  | hyperref => exact List.mem_append_right _ (List.mem_append_right _ (by decide))
  | href => exact List.mem_append_right _ (List.mem_append_right _ (by decide))
  | doi => exact List.mem_append_right _ (List.mem_append_right _ (by decide))
  | footnote => exact List.mem_append_right _ (List.mem_append_right _ (by decide))
  | title => exact List.mem_append_right _ (List.mem_append_right _ (by decide))
  | keywords => exact List.mem_append_right _ (List.mem_append_right _ (by decide))

/-- A character that ends a name in whatever case. -/
def Cuts (s : Str) : Prop := NameEnds s ∧ ∀ c ∈ s.head?, oddLetter c = false

theorem Cuts.cons {c : Char} {s : Str} (h : isNameChar c = false ∧ oddLetter c = false) : Cuts (c :: s) :=
  ⟨fun d hd => by simp at hd; subst hd; exact h.1, fun d hd => by simp at hd; subst hd; exact h.2⟩

theorem Cuts.blank {ws s : Str} (hws : Blank ws) (h : Cuts s) : Cuts (ws ++ s) := by
  cases ws with
  | nil => exact h
  | cons a ws =>
    have := blank_head (ws := a :: ws) (s := []) (c := '{') hws (by decide)
    exact ⟨fun d hd => this.1 d (by simpa using hd), fun d hd => this.2 d (by simpa using hd)⟩

theorem Cuts.star (star : Bool) {s : Str} (h : Cuts s) : Cuts (starText star ++ s) := by
  cases star with
  | false => exact h
  | true => exact Cuts.cons (by decide)

theorem Cuts.bracket (o : Option Str) {s : Str} (h : Cuts s) : Cuts (bracketed o ++ s) := by
  cases o with
  | none => exact h
  | some x => exact Cuts.cons (c := '[') (by decide)

theorem says_cuts {w arg : Str} {t : Content.CTok} (h : Says w arg t) (rest : Str) : Cuts (arg ++ rest) := by
  cases h with
  | heading h star ws body _ hws => simp only [List.append_assoc]; exact Cuts.star _ (Cuts.blank hws (Cuts.cons (by decide)))
  | cite u ws n keys _ hws =>
    simp only [List.append_assoc]
    refine Cuts.blank hws ?_
    cases n <;> exact Cuts.cons (by decide)
  | ref u star ws key _ hws => simp only [List.append_assoc]; exact Cuts.star _ (Cuts.blank hws (Cuts.cons (by decide)))
  | cref u star ws key _ hws => simp only [List.append_assoc]; exact Cuts.star _ (Cuts.blank hws (Cuts.cons (by decide)))
  | hyperref ws a ws' body hws => rw [List.append_assoc]; exact Cuts.blank hws (Cuts.cons (by decide))
  | href ws a ws' body hws => rw [List.append_assoc]; exact Cuts.blank hws (Cuts.cons (by decide))
  | url u ws body _ hws => rw [List.append_assoc]; exact Cuts.blank hws (Cuts.cons (by decide))
  | doi ws body hws => rw [List.append_assoc]; exact Cuts.blank hws (Cuts.cons (by decide))
  | footnote star o ws body _ hws => simp only [List.append_assoc]; exact Cuts.star _ (Cuts.bracket _ (Cuts.blank hws (Cuts.cons (by decide))))
  | caption u star ws o ws' body _ hws _ hws' => simp only [List.append_assoc]; exact Cuts.star _ (Cuts.blank hws (Cuts.bracket _ (Cuts.blank hws' (Cuts.cons (by decide)))))
  | title ws o ws' body hws _ hws' => simp only [List.append_assoc]; exact Cuts.blank hws (Cuts.bracket _ (Cuts.blank hws' (Cuts.cons (by decide))))
  | keywords ws body hws => rw [List.append_assoc]; exact Cuts.blank hws (Cuts.cons (by decide))

theorem star_eats (star : Bool) {s : Str} (g) (h : s.head? ≠ some '*') : Eats starred (starText star) s g g := by
  cases star with
  | true => exact Eats.optSome (Eats.lit _ _ _)
  | false => exact Eats.optNone (Dead.char (by simpa using h))

theorem openBrace_eats {ws : Str} (hws : Blank ws) (rest : Str) (g) : Eats openBrace (ws ++ ['{']) rest g g :=
  Eats.seq (g1 := g) (y := ['{']) (Eats.spaces (rest := '{' :: rest) hws (by simp; decide)) (Eats.lit _ _ _)

theorem blank_ne {ws s : Str} {c : Char} (hws : Blank ws) (hc : isSpace c = false) (h : s.head? ≠ some c) : (ws ++ s).head? ≠ some c := by
  cases ws with
  | nil => exact h
  | cons a ws => simp; rintro rfl; rw [hws a (by simp)] at hc; cases hc

theorem fold_cuts {s : Str} (h : Cuts s) : ∀ c, s.head? = some c → foldLetter c = false := by
  intro c hc
  have h1 := h.1 c hc
  have h2 := h.2 c hc
  cases hh : foldLetter c with
  | false => rfl
  | true =>
    have h3 := name_letter h.1 c hc
    simp only [foldLetter, Bool.or_eq_true] at hh
    simp [h3] at hh
    simp only [oddLetter, Bool.or_eq_false_iff, beq_eq_false_iff_ne] at h2
    omega

/-- A command with its last argument in braces, for a pattern given by what it takes. -/
theorem handle_eats (i : Nat) {p : Content.Kind × Content.Names × Re} (hi : Content.patterns[i]? = some p) (hk : p.1 ≠ .footnotemark) (hk' : p.1 ≠ .appendix) {w mid body rest : Str}
    (hl : Content.Lower w) (hm : Cuts (mid ++ '{' :: (body ++ '}' :: rest))) (hpre : ((Content.patterns.take i).all fun q => Content.refusesB q w) = true) (ha : p.2.1.Accepts w) {g}
    (ht : Eats p.2.2 (mid ++ ['{']) (body ++ '}' :: rest) (p.2.1.groups w) g) (hb : Wrappable '{' '}' body) (aliases al : Dict Str) (t : Content.CTok)
    (hc : Content.createToken aliases p.1 ⟨[], '\\' :: (w ++ (mid ++ '{' :: (body ++ '}' :: rest))), w.length + mid.length + 2, g⟩ body = some (al, .tok t)) :
    Content.handle id aliases ('\\' :: (w ++ (mid ++ '{' :: (body ++ '}' :: rest)))) = .ok al (.tok t) (w.length + mid.length + body.length + 3) := by
  have h := ht (w.reverse ++ ['\\'])
  rw [show (mid ++ ['{']) ++ (body ++ '}' :: rest) = mid ++ '{' :: (body ++ '}' :: rest) by simp] at h
  rw [handle_arg i hi hk hk' hl (fold_cuts hm) hpre ha h hb id aliases, id, hc]

theorem cap_words : ∀ u ∈ ["caption", "subcaption"].map String.toList, Content.Lower u ∧ ((Content.patterns.take 6).all fun q => Content.refusesB q u) = true := by decide +kernel

/-- The handler reads such a command. -/
theorem says_handle {w arg : Str} {t : Content.CTok} (h : Says w arg t) (aliases : Dict Str) (rest : Str) :
    Content.handle id aliases ('\\' :: (w ++ (arg ++ rest))) = .ok aliases (.tok t) ('\\' :: (w ++ arg)).length := by
  have hcut := says_cuts h rest
  have star0 : ∀ {ws s : Str}, Blank ws → (ws ++ '{' :: s).head? ≠ some '*' := fun hws => blank_ne hws (by decide) (by simp)
  have brk0 : ∀ {ws s : Str}, Blank ws → (ws ++ '{' :: s).head? ≠ some '[' := fun hws => blank_ne hws (by decide) (by simp)
  cases h with
  | heading h star ws body _ hws hb =>
    have := Content.C46_heading id aliases h star ws body rest hws hb
    simpa using this
  | cite u ws n keys hu hws hn hk hb =>
    have hu' := (by decide +kernel : ∀ u ∈ citeCommands, u.map Content.low ∈ citeCommands ∧ ∀ c ∈ u, isLetter c = true) w hu
    have := Content.C47_cite aliases w hu'.1 hu'.2 ws n keys rest hws hn hk hb
    simpa using this
  | ref u star ws key hu hws hb =>
    have hu' := (by decide +kernel : ∀ u ∈ ["autoref", "eqref", "pageref", "ref"].map String.toList, u.map Content.low ∈ refCommands ∧ ∀ c ∈ u, isLetter c = true) w hu
    have := Content.C47_ref aliases w hu'.1 hu'.2 star ws key rest hws hb
    simpa using this
  | cref u star ws keys hu hws hk hb =>
    have hu' := (by decide +kernel : ∀ u ∈ ["cref", "Cref"].map String.toList, u.map Content.low = "cref".toList ∧ ∀ c ∈ u, isLetter c = true) w hu
    have := Content.C47_cref aliases w hu'.1 hu'.2 star ws keys rest hws hk hb
    simpa using this
  | hyperref ws a ws' body hws ha hws' hb =>
    have := Content.C47_hyperref aliases ws a ws' body rest hws ha hws' hb
    simpa using this
  | href ws a ws' body hws ha hws' hb =>
    have := Content.C47_href aliases ws a ws' body rest hws ha hws' hb
    simpa using this
  | url u ws body hu hws hb =>
    have := Content.C47_url aliases w hu ws body rest hws hb
    simpa using this
  | doi ws body hws hb =>
    have := Content.C47_doi aliases ws body rest hws hb
    simpa using this
  | footnote star o ws body ho hws hb =>
    have ht : Eats (.seq starred (.seq (optArg 1) openBrace)) (starText star ++ (bracketed o ++ (ws ++ ['{']))) (body ++ '}' :: rest) [] (optGroup 1 o ++ []) :=
      Eats.seq (g1 := []) (star_eats star [] (by
        cases o with
        | none => show (([] : Str) ++ (ws ++ ['{']) ++ (body ++ '}' :: rest)).head? ≠ _; rw [List.nil_append, List.append_assoc]; exact star0 hws
        | some x => simp [bracketed]))
        (Eats.seq (g1 := optGroup 1 o ++ []) (y := ws ++ ['{']) (optBracket_eats 1 ho (fun _ => by rw [List.append_assoc]; exact brk0 hws)) (openBrace_eats hws _ _))
    have := handle_eats 5 (p := (.footnote, .words ["footnote".toList], .seq starred (.seq (optArg 1) openBrace))) rfl (by decide) (by decide) (w := "footnote".toList)
      (mid := starText star ++ (bracketed o ++ ws)) (body := body) (rest := rest) (by decide) (by simpa using hcut) (by decide +kernel) (ciEqs_self (by decide)) (by simp only [List.append_assoc]; exact ht) hb aliases
      aliases (plain "footnote" (.str (strip body)) none) rfl
    generalize "footnote".toList = u at this ⊢
    simp only [List.append_assoc, List.cons_append, List.nil_append] at this ⊢
    rw [this]
    congr 1
    simp; omega
  | caption u star ws o ws' body hu hws ho hws' hb h0 =>
    have ht : Eats (.seq starred (.seq (.star reSpace) (.seq (optArg 2) openBrace))) (starText star ++ (ws ++ (bracketed o ++ (ws' ++ ['{'])))) (body ++ '}' :: rest) [(1, w)] (optGroup 2 o ++ [(1, w)]) := by
      refine Eats.seq (g1 := [(1, w)]) (star_eats star _ ?_) (Eats.seq (g1 := [(1, w)]) (y := bracketed o ++ (ws' ++ ['{'])) (Eats.spaces hws ?_) (Eats.seq (g1 := optGroup 2 o ++ [(1, w)]) (y := ws' ++ ['{'])
          (optBracket_eats 2 ho (fun _ => by rw [List.append_assoc]; exact brk0 hws')) (openBrace_eats hws' _ _)))
      · cases o with
        | none => rw [h0 rfl]; exact star0 (s := body ++ '}' :: rest) hws |> fun h => by simpa only [bracketed, List.append_assoc, List.nil_append, List.cons_append] using h
        | some x => simpa [bracketed] using blank_ne (s := '[' :: (x ++ ']' :: (ws' ++ '{' :: (body ++ '}' :: rest)))) hws (c := '*') (by decide) (by simp)
      · cases o with
        | none => rw [h0 rfl]; simp [bracketed]; decide
        | some x => simp [bracketed]; decide
    have := handle_eats 6 (p := (.caption, .grouped 1 ["caption".toList, "subcaption".toList], .seq starred (.seq (.star reSpace) (.seq (optArg 2) openBrace)))) rfl (by decide) (by decide) (w := w)
      (mid := starText star ++ (ws ++ (bracketed o ++ ws'))) (body := body) (rest := rest) (cap_words w hu).1 (by simpa using hcut) (cap_words w hu).2 (ciEqs_self hu) (by simp only [List.append_assoc]; exact ht) hb aliases
      aliases (plain "caption" (.str (strip body)) none) rfl
    simp only [List.append_assoc, List.cons_append, List.nil_append] at this ⊢
    rw [this]
    congr 1
    simp; omega
  | title ws o ws' body hws ho hws' hb h0 =>
    have ht : Eats (.seq (.star reSpace) (.seq (optArg 1) openBrace)) (ws ++ (bracketed o ++ (ws' ++ ['{']))) (body ++ '}' :: rest) [] (optGroup 1 o ++ []) := by
      refine Eats.seq (g1 := []) (y := bracketed o ++ (ws' ++ ['{'])) (Eats.spaces hws ?_) (Eats.seq (g1 := optGroup 1 o ++ []) (y := ws' ++ ['{'])
          (optBracket_eats 1 ho (fun _ => by rw [List.append_assoc]; exact brk0 hws')) (openBrace_eats hws' _ _))
      cases o with
      | none => rw [h0 rfl]; simp [bracketed]; decide
      | some x => simp [bracketed]; decide
    have := handle_eats 25 (p := (.title, .words ["title".toList], .seq (.star reSpace) (.seq (optArg 1) openBrace))) rfl (by decide) (by decide) (w := "title".toList)
      (mid := ws ++ (bracketed o ++ ws')) (body := body) (rest := rest) (by decide) (by simpa using hcut) (by decide +kernel) (ciEqs_self (by decide)) (by simp only [List.append_assoc]; exact ht) hb aliases aliases (plain "title" (.str (strip body)) none) rfl
    generalize "title".toList = u at this ⊢
    simp only [List.append_assoc, List.cons_append, List.nil_append] at this ⊢
    rw [this]
    congr 1
    simp; omega
  | keywords ws body hws hb =>
    have := handle_eats 27 (p := (.keywords, .words ["keywords".toList], openBrace)) rfl (by decide) (by decide) (w := "keywords".toList)
      (mid := ws) (body := body) (rest := rest) (by decide) (by simpa using hcut) (by decide +kernel) (ciEqs_self (by decide)) (openBrace_eats hws _ []) hb aliases aliases (plain "keywords" (.str (strip body)) none) rfl
    generalize "keywords".toList = u at this ⊢
    simp only [List.append_assoc, List.cons_append, List.nil_append] at this ⊢
    rw [this]
    congr 1
    simp; omega

/-! ## What becomes of the token -/

/-- `_process_token` gives these tokens, if it may run long enough. -/
def Processes {V X} (cfg : Cfg V X) (env : Bool) (st : St V X) (t : Tok) (toks : List Tok) (st' : St V X) (toks' : List Tok) : Prop :=
  ∃ N, ∀ n, N ≤ n → processTok cfg (parse cfg n) env st t toks = .ok st' toks'

theorem acts_says {V X} {cfg : Cfg V X} (ho : SomeOrder cfg.order) (hl : Letters cfg.cmds) {h} {st st' : St V X} (k : Known cfg h st) {toks toks' : List Tok} (space : Bool) {w arg rest : Str}
    {t : Content.CTok} (hs : Says w arg t) (hu : ∀ x ∈ h, ¬ Meant x.1 w) (hp : Processes cfg false st.fresh (contentTok st t) toks st' toks') :
    Acts cfg st toks space ('\\' :: (w ++ (arg ++ rest))) st' ⟨toks', endsBlank space ('\\' :: (w ++ arg)), rest⟩ := by
  obtain ⟨N, hp⟩ := hp
  refine ⟨N, fun n hn => ?_⟩
  have hok := List.all_eq_true.1 says_ok w (says_word hs)
  simp only [Bool.and_eq_true] at hok
  obtain ⟨hn1, hod⟩ := says_cuts hs rest
  have hh := says_handle hs st.aliases rest
  rw [actAt_passed hl _ _ _ k toks space (passes_spec hok.1 hn1 hu)]
  unfold actHandlers
  rw [handlers_first cfg ho _ _ st toks (notFirsts_spec hok.2 hn1 hod)]
  have hc : Content.canHandle ('\\' :: (w ++ (arg ++ rest))) = true := by
    unfold Content.canHandle
    unfold Content.handle at hh
    cases hf : Content.firstPattern ('\\' :: (w ++ (arg ++ rest))) Content.patterns with
    | none => rw [hf] at hh; simp at hh
    | some m => rfl
  unfold content
  rw [if_pos hc, hh]
  simp only [contentToks, orElse]
  rw [hp n hn]
  simp only [Res.bind]
  rw [show '\\' :: (w ++ (arg ++ rest)) = ('\\' :: (w ++ arg)) ++ rest by simp]
  exact move_ok _ _ _ _ _ rfl

theorem Parses.val {V X} {cfg : Cfg V X} {st st' : St V X} {s : Str} {l : List Tok} (h : Parses cfg st s st' l) :
    ∃ N, ∀ n, N ≤ n → parseVal (parse cfg n) st (.str s) = .ok st' (.toks l) := by
  obtain ⟨N, h⟩ := Parses.fuel h
  exact ⟨N, fun n hn => by show (parse cfg n Opts.default st s).bind _ = _; rw [h n hn]; rfl⟩

theorem add_new {V X} (st : St V X) {t : Tok} (toks : List Tok) (space : Bool) (h : t.type ∉ ["text", "group", "environment", "list"].map String.toList) : add st t toks space = .ok st (toks ++ [t]) := by
  have h' : t.type ≠ "text".toList ∧ t.type ≠ "group".toList ∧ t.type ≠ "environment".toList ∧ t.type ≠ "list".toList := by
    refine ⟨?_, ?_, ?_, ?_⟩ <;> (intro e; rw [e] at h; exact h (by decide))
  have hn : ¬ (t.type = "group".toList ∨ t.type = "environment".toList ∨ t.type = "list".toList) := by rintro (e | e | e); exact h'.2.1 e; exact h'.2.2.1 e; exact h'.2.2.2 e
  unfold add
  rw [adds_spec (.new toks (fun e => absurd e hn) (fun e => hn e.1) fun _ _ _ ⟨b, hb⟩ => h'.1 hb.1)]

/-- What is not to be included is prepared and added. -/
theorem processes_of {V X} {cfg : Cfg V X} {env : Bool} {st st' : St V X} {t t' : Tok} {toks : List Tok} (h0 : t.type ≠ "input_file".toList)
    (h1 : t'.type ∉ ["text", "group", "environment", "list"].map String.toList) (h : ∃ N, ∀ n, N ≤ n → prepare cfg (parse cfg n) env st t = .ok st' t') :
    Processes cfg env st t toks st' (toks ++ [t']) := by
  obtain ⟨N, h⟩ := h
  refine ⟨N, fun n hn => ?_⟩
  unfold processTok
  rw [if_neg h0, h n hn]
  exact add_new st' toks false h1

theorem set_title (id : Nat) (type : Str) (c v v' : Val) (fs : List (Str × Val)) (hf : ∀ e ∈ fs, e.1 ≠ titleKey) :
    (Tok.mk id type c ((titleKey, v) :: fs) none).setField titleKey v' = .mk id type c ((titleKey, v') :: fs) none := by
  have : ∀ fs : List (Str × Val), (∀ e ∈ fs, e.1 ≠ titleKey) → fs.map (fun e => if e.1 = titleKey then (titleKey, v') else e) = fs := by
    intro fs
    induction fs with
    | nil => intro _; rfl
    | cons e fs ih => intro h; rw [List.map_cons, if_neg (h e (by simp)), ih fun e he => h e (by simp [he])]
  simp only [Tok.setField, List.map_cons, if_true, this fs hf]

theorem parse_title {V X} {cfg : Cfg V X} {st st1 : St V X} {id : Nat} {type : Str} {c : Val} {x : Str} {fs : List (Str × Val)} {l : List Tok} (hf : ∀ e ∈ fs, e.1 ≠ titleKey)
    (hp : Parses cfg st x st1 l) :
    ∃ N, ∀ n, N ≤ n → parseField (parse cfg n) titleKey st (.mk id type c ((titleKey, .str x) :: fs) none) = .ok st1 (.mk id type c ((titleKey, .toks l) :: fs) none) := by
  obtain ⟨N, hp⟩ := Parses.val hp
  refine ⟨N, fun n hn => ?_⟩
  unfold parseField
  simp only [Tok.field, Tok.fields, List.find?_cons, decide_true, Option.map_some]
  rw [hp n hn]
  simp only [Res.bind, set_title _ _ _ _ _ _ hf]

theorem parse_untitled {V X} (p : Parse V X) (st : St V X) {id : Nat} {type : Str} {c : Val} {fs : List (Str × Val)} (hf : ∀ e ∈ fs, e.1 ≠ titleKey) :
    parseField p titleKey st (.mk id type c fs none) = .ok st (.mk id type c fs none) := by
  unfold parseField Tok.field
  rw [show (Tok.mk id type c fs none).fields.find? (fun e => e.1 = titleKey) = none by
    rw [List.find?_eq_none]; intro e he; simpa using hf e he]
  rfl

/-- A heading: the title is read; labels go to the heading from now on. -/
theorem processes_heading {V X} {cfg : Cfg V X} {st st1 : St V X} {id : Nat} {type : Str} {c : Val} {x : Str} {fs : List (Str × Val)} {l toks : List Tok}
    (ht : type = "section".toList ∨ type = "paragraph".toList) (hf : ∀ e ∈ fs, e.1 ≠ titleKey) (hp : Parses cfg { st with cur := some id } x st1 l) :
    Processes cfg false st (.mk id type c ((titleKey, .str x) :: fs) none) toks st1 (toks ++ [.mk id type c ((titleKey, .toks l) :: fs) none]) := by
  obtain ⟨N, hp⟩ := parse_title (id := id) (type := type) (c := c) hf hp
  have h2 : ∀ n, prepare cfg (parse cfg n) false st (.mk id type c ((titleKey, .str x) :: fs) none) =
      (parseField (parse cfg n) titleKey { st with cur := some id } (.mk id type c ((titleKey, .str x) :: fs) none)) := by
    intro n
    unfold prepare
    rcases ht with rfl | rfl <;> rfl
  refine processes_of ?_ ?_ ⟨N, fun n hn => by rw [h2 n]; exact hp n hn⟩
  · show type ≠ _; rcases ht with rfl | rfl <;> decide
  · show type ∉ _; rcases ht with rfl | rfl <;> decide

/-- A footnote or a caption: the content is read; labels go to it from now on. -/
theorem processes_note {V X} {cfg : Cfg V X} {st st1 : St V X} {id : Nat} {type : Str} {x : Str} {fs : List (Str × Val)} {l toks : List Tok}
    (ht : type = "footnote".toList ∨ type = "caption".toList) (hp : Parses cfg { st with cur := some id } x st1 l) :
    Processes cfg false st (.mk id type (.str x) fs none) toks st1 (toks ++ [.mk id type (.toks l) fs none]) := by
  obtain ⟨N, hp⟩ := Parses.val hp
  have h2 : ∀ n, prepare cfg (parse cfg n) false st (.mk id type (.str x) fs none) = (parseContent (parse cfg n) { st with cur := some id } (.mk id type (.str x) fs none)) := by
    intro n
    unfold prepare
    rcases ht with rfl | rfl <;> rfl
  refine processes_of ?_ ?_ ⟨N, fun n hn => by rw [h2 n]; unfold parseContent; simp only [Tok.content]; rw [hp n hn]; rfl⟩
  · show type ≠ _; rcases ht with rfl | rfl <;> decide
  · show type ∉ _; rcases ht with rfl | rfl <;> decide

/-- The title of the document or an abstract: the content is read. -/
theorem processes_title {V X} {cfg : Cfg V X} {env : Bool} {st st1 : St V X} {id : Nat} {type : Str} {x : Str} {fs : List (Str × Val)} {l toks : List Tok}
    (ht : type = "title".toList ∨ type = "abstract".toList) (hp : Parses cfg st x st1 l) :
    Processes cfg env st (.mk id type (.str x) fs none) toks st1 (toks ++ [.mk id type (.toks l) fs none]) := by
  obtain ⟨N, hp⟩ := Parses.val hp
  have h2 : ∀ n, prepare cfg (parse cfg n) env st (.mk id type (.str x) fs none) = (parseContent (parse cfg n) st (.mk id type (.str x) fs none)) := by
    intro n
    unfold prepare
    rcases ht with rfl | rfl <;> rfl
  refine processes_of ?_ ?_ ⟨N, fun n hn => by rw [h2 n]; unfold parseContent; simp only [Tok.content]; rw [hp n hn]; rfl⟩
  · show type ≠ _; rcases ht with rfl | rfl <;> decide
  · show type ∉ _; rcases ht with rfl | rfl <;> decide

/-- What is added as it is. -/
theorem processes_asis {V X} {cfg : Cfg V X} {st : St V X} {id : Nat} {type : Str} {c : Val} {fs : List (Str × Val)} {toks : List Tok}
    (ht : type ∈ ["keywords", "includegraphics", "includepdf", "appendix"].map String.toList) :
    Processes cfg false st (.mk id type c fs none) toks st (toks ++ [.mk id type c fs none]) := by
  have key : ∀ type ∈ ["keywords", "includegraphics", "includepdf", "appendix"].map String.toList, type ∉ ["bibliography", "bibliography_file", "footnote", "caption", "url", "ref",
    "citation", "title", "section", "paragraph", "abstract", "input_file"].map String.toList ∧ type ∉ ["text", "group", "environment", "list"].map String.toList := by decide +kernel
  obtain ⟨h1, h2⟩ := key type ht
  have h3 : ∀ v ∈ ["bibliography", "bibliography_file", "footnote", "caption", "url", "ref", "citation", "title", "section", "paragraph", "abstract", "input_file"].map String.toList, type ≠ v := by
    rintro v hv rfl; exact h1 hv
  refine processes_of (h3 _ (by decide)) h2 ⟨0, fun n _ => ?_⟩
  unfold prepare
  simp only [Tok.type, h3 "bibliography".toList (by decide), h3 "bibliography_file".toList (by decide), h3 "footnote".toList (by decide), h3 "caption".toList (by decide), h3 "url".toList (by decide),
    h3 "ref".toList (by decide), h3 "citation".toList (by decide), h3 "title".toList (by decide), h3 "section".toList (by decide), h3 "paragraph".toList (by decide), h3 "abstract".toList (by decide),
    or_self, if_false]
  rfl

/-- A citation. -/
theorem processes_cite {V X} {cfg : Cfg V X} {st : St V X} {id : Nat} {c : Val} {fs : List (Str × Val)} {toks : List Tok} (hf : ∀ e ∈ fs, e.1 ≠ titleKey) :
    Processes cfg false st (.mk id "citation".toList c fs none) toks st (toks ++ [.mk id "citation".toList c fs none]) :=
  processes_of (by show "citation".toList ≠ _; decide) (by show "citation".toList ∉ _; decide) ⟨0, fun n _ => parse_untitled (parse cfg n) st (id := id) (type := "citation".toList) (c := c) hf⟩

/-- A citation with notes, which are read. -/
theorem processes_cite_notes {V X} {cfg : Cfg V X} {st st1 : St V X} {id : Nat} {c : Val} {x : Str} {fs : List (Str × Val)} {l toks : List Tok} (hf : ∀ e ∈ fs, e.1 ≠ titleKey)
    (hp : Parses cfg st x st1 l) :
    Processes cfg false st (.mk id "citation".toList c ((titleKey, .str x) :: fs) none) toks st1 (toks ++ [.mk id "citation".toList c ((titleKey, .toks l) :: fs) none]) := by
  refine processes_of (by show "citation".toList ≠ _; decide) (by show "citation".toList ∉ _; decide) ?_
  exact parse_title hf hp

theorem expandAll_unmet {V X} {cfg : Cfg V X} (hl : Letters cfg.cmds) {h} {st : St V X} (k : Known cfg h st) : ∀ (keys : List Str), (∀ x ∈ keys, Unmet h x) →
    expandAll cfg st keys = .ok st (keys.map cfg.cmds.conv)
  | [], _ => rfl
  | x :: keys, hk => by
    unfold expandAll
    rw [expand_unmet hl k (hk x (by simp))]
    simp only [Res.bind]
    rw [expandAll_unmet hl k keys fun y hy => hk y (by simp [hy])]
    rfl

/-- A reference: commands in the keys are expanded and converted. -/
theorem processes_ref {V X} {cfg : Cfg V X} (hl : Letters cfg.cmds) {h} {st : St V X} (k : Known cfg h st) {id : Nat} {keys : List Str} {fs : List (Str × Val)} {toks : List Tok}
    (hu : ∀ x ∈ keys, Unmet h x) (hf : ∀ e ∈ fs, e.1 ≠ titleKey) :
    Processes cfg false st (.mk id "ref".toList (.strs keys) fs none) toks st (toks ++ [.mk id "ref".toList (.strs (keys.map cfg.cmds.conv)) fs none]) := by
  refine processes_of (by show "ref".toList ≠ _; decide) (by show "ref".toList ∉ _; decide) ⟨0, fun n _ => ?_⟩
  show (expandAll cfg st keys).bind _ = _
  rw [expandAll_unmet hl k keys hu]
  exact parse_untitled (parse cfg n) st hf

/-- A reference with a text of its own, which is read. -/
theorem processes_ref_titled {V X} {cfg : Cfg V X} (hl : Letters cfg.cmds) {h} {st st1 : St V X} (k : Known cfg h st) {id : Nat} {keys : List Str} {x : Str} {fs : List (Str × Val)} {l toks : List Tok}
    (hu : ∀ x ∈ keys, Unmet h x) (hf : ∀ e ∈ fs, e.1 ≠ titleKey) (hp : Parses cfg st x st1 l) :
    Processes cfg false st (.mk id "ref".toList (.strs keys) ((titleKey, .str x) :: fs) none) toks st1
      (toks ++ [.mk id "ref".toList (.strs (keys.map cfg.cmds.conv)) ((titleKey, .toks l) :: fs) none]) := by
  obtain ⟨N, hp⟩ := parse_title (id := id) (type := "ref".toList) (c := .strs (keys.map cfg.cmds.conv)) hf hp
  refine processes_of (by show "ref".toList ≠ _; decide) (by show "ref".toList ∉ _; decide) ⟨N, fun n hn => ?_⟩
  show (expandAll cfg st keys).bind _ = _
  rw [expandAll_unmet hl k keys hu]
  exact hp n hn

/-- A link: commands in the address are expanded and converted. -/
theorem processes_url {V X} {cfg : Cfg V X} (hl : Letters cfg.cmds) {h} {st : St V X} (k : Known cfg h st) {id : Nat} {a : Str} {fs : List (Str × Val)} {toks : List Tok}
    (hu : Unmet h a) (hf : ∀ e ∈ fs, e.1 ≠ titleKey) :
    Processes cfg false st (.mk id "url".toList (.str a) fs none) toks st (toks ++ [.mk id "url".toList (.str (cfg.cmds.conv a)) fs none]) := by
  refine processes_of (by show "url".toList ≠ _; decide) (by show "url".toList ∉ _; decide) ⟨0, fun n _ => ?_⟩
  show (parseField (parse cfg n) titleKey st _).bind _ = _
  rw [parse_untitled (parse cfg n) st hf]
  simp only [Res.bind, Tok.content]
  rw [expand_unmet hl k hu]
  rfl

/-- A link with a text of its own, which is read first. -/
theorem processes_url_titled {V X} {cfg : Cfg V X} (hl : Letters cfg.cmds) {h1} {st st1 : St V X} (k1 : Known cfg h1 st1) {id : Nat} {a : Str} {x : Str} {fs : List (Str × Val)} {l toks : List Tok}
    (hu : Unmet h1 a) (hf : ∀ e ∈ fs, e.1 ≠ titleKey) (hp : Parses cfg st x st1 l) :
    Processes cfg false st (.mk id "url".toList (.str a) ((titleKey, .str x) :: fs) none) toks st1
      (toks ++ [.mk id "url".toList (.str (cfg.cmds.conv a)) ((titleKey, .toks l) :: fs) none]) := by
  obtain ⟨N, hp⟩ := parse_title (id := id) (type := "url".toList) (c := .str a) hf hp
  refine processes_of (by show "url".toList ≠ _; decide) (by show "url".toList ∉ _; decide) ⟨N, fun n hn => ?_⟩
  show (parseField (parse cfg n) titleKey st _).bind _ = _
  rw [hp n hn]
  simp only [Res.bind, Tok.content]
  rw [expand_unmet hl k1 hu]
  rfl

end L2J.Psr
