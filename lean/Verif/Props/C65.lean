import Verif.Model.Parser
import Verif.Props.C64h
/-! C65: what the parser makes of a document. Here: text, blanks and groups. -/
namespace L2J.Psr
open Cmds Defn L2J.Spec
open Pre (hitAt firstHit escapable live live_alt)

/-- Whether the loop stops in front of a text, with the character before it. -/
def stopAt (prev : Option Char) (s : Str) : Bool := s.head? != some '`' && hitAt prev s

/-- How far away the next stop is. -/
def firstStop (prev : Option Char) : Str → Option Nat
  | [] => none
  | c :: t => if stopAt prev (c :: t) then some 0 else (firstStop (some c) t).map (· + 1)

theorem live_some (r : Re) (rev s : Str) : (r.matchAt rev s).isSome = live r ⟨rev, s, []⟩ := by
  rw [Re.matchAt_eq]; unfold live; cases r.run ⟨rev, s, []⟩ <;> rfl

theorem delim_tick (t : Str) : Dead Loop.delimPat ('`' :: t) := may_dead (w := ['`']) (by decide +kernel) t

theorem stop_spec (rev s : Str) : (Loop.delimPat.matchAt rev s).isSome = stopAt rev.head? s := by
  have h := Pre.hit_spec rev s
  rw [live_some] at h ⊢
  unfold Pre.delimQ at h
  rw [live_alt] at h
  cases s with
  | nil =>
    rw [show hitAt (List.head? rev) [] = false from rfl, Bool.or_eq_false_iff] at h
    rw [h.1]; rfl
  | cons c t =>
    unfold stopAt
    by_cases hc : c = '`'
    · subst hc
      simp [live, delim_tick t rev []]
    · rw [← h]
      simp [live, Re.run, Re.lit, hc]

theorem searchFrom_firstStop : ∀ (s rev : Str), (Loop.delimPat.searchFrom rev s).map Match.start = (firstStop rev.head? s).map (· + rev.length)
  | [], rev => by
    have := stop_spec rev []
    unfold Re.searchFrom
    cases h : Loop.delimPat.matchAt rev [] with
    | none => rfl
    | some m => rw [h] at this; simp [stopAt, hitAt] at this
  | c :: t, rev => by
    have hs := stop_spec rev (c :: t)
    unfold Re.searchFrom firstStop
    cases h : Loop.delimPat.matchAt rev (c :: t) with
    | none =>
      rw [h] at hs
      simp only [Option.isSome_none] at hs
      rw [← hs]
      simp only [Bool.false_eq_true, if_false]
      rw [searchFrom_firstStop t (c :: rev)]
      simp only [List.head?_cons, Option.map_map, List.length_cons]
      congr 1
      funext k
      simp only [Function.comp]; omega
    | some m =>
      rw [h] at hs
      simp only [Option.isSome_some] at hs
      rw [← hs]
      have := (Loop.delimPat.matchAt_zip _ _ _ h).1
      simp [Match.start, this]

theorem search_firstStop (s : Str) : (Loop.delimPat.search s).map Match.start = firstStop none s := by
  have := searchFrom_firstStop s []
  unfold Re.search
  rw [this]
  show Option.map (fun x => x + 0) (firstStop none s) = _
  cases firstStop none s <;> rfl

/-! ## Running text -/

/-- Running text: characters without a meaning of their own, and escaped characters. -/
inductive _root_.L2J.Spec.Chunk : Str → Prop
  | nil : Chunk []
  | char (c : Char) {x : Str} : c ∉ "\\$%{".toList → Chunk x → Chunk (c :: x)
  | escaped (c : Char) {x : Str} : c ∈ "$%&_#{}~".toList → Chunk x → Chunk ('\\' :: c :: x)

/-- Text that ends running text: a formula, a command, a group behind a blank, or an empty group. -/
def _root_.L2J.Spec.Stops (r : Str) : Prop :=
  ∃ t, r = '$' :: t ∨ (∃ c, c ∉ "$%&_#{}~".toList ∧ r = '\\' :: c :: t) ∨ r = ['\\'] ∨ (∃ b, isSpace b = true ∧ r = b :: '{' :: t) ∨ r = '{' :: '}' :: t

/-- What may follow running text `x`: nothing, something that ends it, or a group that begins with such a thing. -/
def _root_.L2J.Spec.Follows (x r : Str) : Prop :=
  x.getLast? ≠ some '{' ∧ (r = [] ∨ (Stops r ∧ (r.head? = some '{' → ∀ c ∈ x.getLast?, isSpace c = false)) ∨ ∃ t, r = '{' :: t ∧ Stops t ∧ ∀ c ∈ x.getLast?, isSpace c = false)

theorem chunk_head {x : Str} (h : Chunk x) : x.head? ≠ some '{' := by
  cases h with
  | nil => simp
  | char c hc _ => simp; rintro rfl; exact hc (by decide)
  | escaped c _ _ => simp

theorem escapable_iff (c : Char) : escapable c = true ↔ c ∈ "$%&_#{}~".toList := by unfold escapable; rw [List.contains_iff_mem]

theorem special_ne {c : Char} (h : c ∉ "\\$%{".toList) : c ≠ '\\' ∧ c ≠ '$' ∧ c ≠ '%' ∧ c ≠ '{' := by
  refine ⟨?_, ?_, ?_, ?_⟩ <;> (rintro rfl; exact h (by decide))

theorem chunk_last {x : Str} (h : Chunk x) : x.getLast? ≠ some '\\' := by
  induction h with
  | nil => simp
  | char c hc hx ih =>
    rename_i x
    cases x with
    | nil => simp; exact (special_ne hc).1
    | cons a x => rw [List.getLast?_cons_cons]; exact ih
  | escaped c hc hx ih =>
    rename_i x
    cases x with
    | nil => simp; rintro rfl; revert hc; decide
    | cons a x => rw [List.getLast?_cons_cons, List.getLast?_cons_cons]; exact ih

theorem firstStop_chunk {x rest : Str} (h : Chunk x) (hb : rest.head? = some '{' → ∀ c ∈ x.getLast?, isSpace c = false) :
    ∀ prev, prev ≠ some '\\' → firstStop prev (x ++ rest) = (firstStop (match x.getLast? with | some c => some c | none => prev) rest).map (· + x.length) := by
  induction h with
  | nil => intro prev _; show firstStop prev rest = Option.map (· + 0) (firstStop prev rest); cases firstStop prev rest <;> rfl
  | char c hc hx ih =>
    rename_i x
    intro prev hp
    obtain ⟨n1, n2, n3, n4⟩ := special_ne hc
    have hs : stopAt prev (c :: (x ++ rest)) = false := by
      have hsp : (isSpace c && (x ++ rest).head? == some '{') = false := by
        cases x with
        | nil =>
          by_cases hr : rest.head? = some '{'
          · rw [hb hr c (by simp)]; rfl
          · simp [hr]
        | cons a x =>
          have := chunk_head hx
          simp at this
          simp [this]
      by_cases hbt : c = '`'
      · simp [stopAt, hbt]
      · simp only [stopAt, hitAt, hsp]; simp [n1, n2, n3, n4, hbt]
    rw [List.cons_append, firstStop, if_neg (by rw [hs]; simp), ih (fun hr d hd => hb hr d (by
      cases x with
      | nil => cases hd
      | cons a x => rw [List.getLast?_cons_cons]; exact hd)) (some c) (by simpa using n1)]
    have e : (match (c :: x).getLast? with | some c => some c | none => prev) = (match x.getLast? with | some c => some c | none => some c) := by
      cases x with
      | nil => rfl
      | cons a x => rw [List.getLast?_cons_cons]; cases hh : (a :: x).getLast? with
        | none => simp at hh
        | some z => rfl
    rw [e, Option.map_map]
    congr 1
  | escaped c hc hx ih =>
    rename_i x
    intro prev hp
    have hs : stopAt prev ('\\' :: c :: (x ++ rest)) = false := by
      have := (escapable_iff c).2 hc
      have hsp : isSpace '\\' = false := by decide
      simp [stopAt, hitAt, this, hsp]
    have hs2 : stopAt (some '\\') (c :: (x ++ rest)) = false := by
      have : c ≠ '`' := by rintro rfl; revert hc; decide
      simp [stopAt, hitAt, this, bne]
    rw [List.cons_append, List.cons_append, firstStop, if_neg (by rw [hs]; simp), firstStop, if_neg (by rw [hs2]; simp), ih (fun hr d hd => hb hr d (by
      cases x with
      | nil => cases hd
      | cons a x => rw [List.getLast?_cons_cons, List.getLast?_cons_cons]; exact hd)) (some c) (by rintro h; cases h; revert hc; decide)]
    have e : (match ('\\' :: c :: x).getLast? with | some c => some c | none => prev) = (match x.getLast? with | some c => some c | none => some c) := by
      cases x with
      | nil => rfl
      | cons a x => rw [List.getLast?_cons_cons, List.getLast?_cons_cons]; cases hh : (a :: x).getLast? with
        | none => simp at hh
        | some z => rfl
    rw [e, Option.map_map, Option.map_map]
    congr 1

theorem stops_here {r : Str} (h : Stops r) {prev : Option Char} (hp : prev ≠ some '\\') : firstStop prev r = some 0 := by
  have hp' : (prev != some '\\') = true := by simpa [bne] using hp
  obtain ⟨t, rfl | ⟨c, hc, rfl⟩ | rfl | ⟨b, hb, rfl⟩ | rfl⟩ := h
  · unfold firstStop; rw [if_pos (by simp [stopAt, hitAt, hp'])]
  · have : escapable c = false := by cases he : escapable c with
      | false => rfl
      | true => exact absurd ((escapable_iff c).1 he) hc
    unfold firstStop; rw [if_pos (by simp [stopAt, hitAt, hp', this])]
  · unfold firstStop; rw [if_pos (by simp [stopAt, hitAt, hp'])]
  · have hbt : b ≠ '`' := by rintro rfl; revert hb; decide
    unfold firstStop; rw [if_pos (by simp [stopAt, hitAt, hp', hb, hbt])]
  · unfold firstStop; rw [if_pos (by simp [stopAt, hitAt, hp'])]

theorem stops_head {r : Str} (h : Stops r) : r.head? ≠ some '}' := by
  obtain ⟨t, rfl | ⟨c, hc, rfl⟩ | rfl | ⟨b, hb, rfl⟩ | rfl⟩ := h
  · simp
  · simp
  · simp
  · simp; rintro rfl; revert hb; decide
  · simp

/-- Where running text ends. -/
theorem chunk_stop {x rest : Str} (h : Chunk x) (hne : x ≠ []) (hf : Follows x rest) :
    (rest = [] ∧ firstStop none (x ++ rest) = none) ∨ (rest ≠ [] ∧ firstStop none (x ++ rest) = some x.length) ∨
      (∃ t, rest = '{' :: t ∧ firstStop none (x ++ rest) = some (x.length + 1)) := by
  obtain ⟨z, hz⟩ : ∃ z, x.getLast? = some z := by
    cases hh : x.getLast? with
    | none => exact absurd (List.getLast?_eq_none_iff.1 hh) hne
    | some z => exact ⟨z, rfl⟩
  have hzb : (some z : Option Char) ≠ some '\\' := by rw [← hz]; exact chunk_last h
  obtain ⟨h1, h2⟩ := hf
  rcases h2 with rfl | ⟨h2, h3⟩ | ⟨t, rfl, h2, h3⟩
  · refine .inl ⟨rfl, ?_⟩
    rw [firstStop_chunk h (by simp) none (by simp)]; rw [hz]; rfl
  · refine .inr (.inl ⟨?_, ?_⟩)
    · obtain ⟨t, h⟩ := h2; rintro rfl; rcases h with h | ⟨_, _, h⟩ | h | ⟨_, _, h⟩ | h <;> cases h
    · rw [firstStop_chunk h h3 none (by simp), hz]
      rw [show firstStop (match some z with | some c => some c | none => none) rest = some 0 from stops_here h2 hzb]; simp
  · refine .inr (.inr ⟨t, rfl, ?_⟩)
    rw [firstStop_chunk h (fun _ => h3) none (by simp), hz]
    have : firstStop (some z) ('{' :: t) = some 1 := by
      have hs : isSpace '{' = false := by decide
      have := stops_head h2
      rw [firstStop, if_neg (by simp [stopAt, hitAt, hs, this]), stops_here h2 (by simp)]; rfl
    show Option.map _ (firstStop (some z) ('{' :: t)) = _
    rw [this]; simp [Nat.add_comm]

/-! ## The loop -/

/-- The loop gives these tokens and this state, if it may run long enough. -/
def Runs {V X} (cfg : Cfg V X) (st : St V X) (toks : List Tok) (space : Bool) (s : Str) (st' : St V X) (toks' : List Tok) : Prop :=
  ∃ N, ∀ n, N ≤ n → loop cfg n .default st toks space s = .ok st' toks'

/-- What a text is parsed to. -/
def Parses {V X} (cfg : Cfg V X) (st : St V X) (s : Str) (st' : St V X) (l : List Tok) : Prop := Runs cfg st [] false (stripLatexComments s) st' l

theorem Parses.fuel {V X} {cfg : Cfg V X} {st st' : St V X} {s : Str} {l : List Tok} (h : Parses cfg st s st' l) : ∃ N, ∀ n, N ≤ n → parse cfg n .default st s = .ok st' l := h

/-- One iteration. -/
def Acts {V X} (cfg : Cfg V X) (st : St V X) (toks : List Tok) (space : Bool) (s : Str) (st' : St V X) (l : Left) : Prop :=
  ∃ N, ∀ n, N ≤ n → actAt cfg (parse cfg n) n .default st toks space s = .ok st' l

theorem Runs.act {V X} {cfg : Cfg V X} {st st1 st' : St V X} {toks toks' : List Tok} {space : Bool} {c : Char} {t : Str} {l : Left} (hc : isSpace c = false)
    (h : Acts cfg st toks space (c :: t) st1 l) (hr : Runs cfg st1 l.toks l.space l.rest st' toks') : Runs cfg st toks space (c :: t) st' toks' := by
  obtain ⟨N, h⟩ := h
  obtain ⟨M, hr⟩ := hr
  refine ⟨N + M + 1, fun n hn => ?_⟩
  obtain ⟨n, rfl⟩ : ∃ k, n = k + 1 := ⟨n - 1, by omega⟩
  unfold loop
  simp only [List.takeWhile_cons, List.dropWhile_cons, hc, Bool.false_eq_true, if_false]
  rw [show endsBlank space [] = space from rfl]
  have := h n (by omega)
  unfold parse at this
  rw [this]
  exact hr n (by omega)

theorem Runs.done {V X} (cfg : Cfg V X) (st : St V X) (toks : List Tok) (space : Bool) {s : Str} (h : Blank s) : Runs cfg st toks space s st toks := by
  refine ⟨1, fun n hn => ?_⟩
  obtain ⟨n, rfl⟩ : ∃ k, n = k + 1 := ⟨n - 1, by omega⟩
  have hd : ∀ (s : Str), (∀ c ∈ s, isSpace c = true) → s.dropWhile isSpace = [] := by
    intro s
    induction s with
    | nil => intro _; rfl
    | cons c s ih => intro h; rw [List.dropWhile_cons, if_pos (h c (by simp))]; exact ih (fun c hc => h c (by simp [hc]))
  unfold loop
  simp only [hd s h]

theorem takeWhile_blank {p : Char → Bool} : ∀ {ws : Str} (rest : Str), (∀ c ∈ ws, p c = true) → (ws ++ rest).takeWhile p = ws ++ rest.takeWhile p ∧ (ws ++ rest).dropWhile p = rest.dropWhile p
  | [], _, _ => ⟨rfl, rfl⟩
  | c :: ws, rest, h => by
    have := takeWhile_blank (ws := ws) rest (fun c hc => h c (by simp [hc]))
    rw [List.cons_append, List.takeWhile_cons, List.dropWhile_cons, if_pos (h c (by simp)), if_pos (h c (by simp)), this.1, this.2]
    exact ⟨rfl, rfl⟩

theorem endsBlank_blank (b : Bool) {s : Str} (h : ∀ c ∈ s, isSpace c = true) (hne : s ≠ []) : endsBlank b s = true := by
  unfold endsBlank
  cases hh : s.getLast? with
  | none => exact absurd (List.getLast?_eq_none_iff.1 hh) hne
  | some c => exact h c (List.mem_of_getLast? hh)

theorem takeWhile_all (p : Char → Bool) (s : Str) : ∀ c ∈ s.takeWhile p, p c = true := fun c hc => (List.all_eq_true.1 (List.all_takeWhile (p := p) (l := s))) c hc

theorem Runs.blank {V X} {cfg : Cfg V X} {st st' : St V X} {toks toks' : List Tok} {space : Bool} {ws rest : Str} (hws : Blank ws) (hne : ws ≠ [])
    (hr : Runs cfg st toks true rest st' toks') : Runs cfg st toks space (ws ++ rest) st' toks' := by
  obtain ⟨N, hr⟩ := hr
  refine ⟨N, fun n hn => ?_⟩
  rw [← hr n hn]
  cases n with
  | zero => rfl
  | succ n =>
    unfold loop
    obtain ⟨h1, h2⟩ := takeWhile_blank (p := isSpace) rest hws
    have e : endsBlank space (ws ++ rest.takeWhile isSpace) = endsBlank true (rest.takeWhile isSpace) := by
      rw [endsBlank_blank space (fun c hc => by
        rcases List.mem_append.1 hc with hc | hc
        · exact hws c hc
        · exact takeWhile_all isSpace rest c hc) (by simp [hne])]
      by_cases hr : rest.takeWhile isSpace = []
      · rw [hr]; rfl
      · rw [endsBlank_blank true (takeWhile_all isSpace rest) hr]
    simp only [h1, h2, e]

/-! ## Text -/

theorem take_append {α} (a b : List α) : (a ++ b).take a.length = a := List.take_left ..

theorem actText_chunk {V X} (cfg : Cfg V X) (p : Parse V X) (n : Nat) (o : Opts) (st : St V X) (toks : List Tok) (space : Bool) {x rest : Str} (h : Chunk x) (hne : x ≠ [])
    (hf : Follows x rest) : actText cfg p n o st toks space (x ++ rest) =
      (addText cfg o st toks space x).bind fun st toks => .ok st ⟨toks, if rest.isEmpty then false else endsBlank space x, rest⟩ := by
  have hx : endsWith x ['{'] = false := by
    unfold endsWith
    cases hh : List.isSuffixOf ['{'] x with
    | false => rfl
    | true =>
      obtain ⟨y, hy⟩ := List.isSuffixOf_iff_suffix.1 hh
      exact absurd (by rw [← hy]; simp) hf.1
  have hpos : 0 < x.length := by cases x with
    | nil => exact absurd rfl hne
    | cons c x => simp
  have hs := search_firstStop (x ++ rest)
  unfold actText
  rcases chunk_stop h hne hf with ⟨rfl, h1⟩ | ⟨h0, h1⟩ | ⟨t, rfl, h1⟩
  · rw [h1] at hs
    cases hm : Loop.delimPat.search (x ++ []) with
    | some m => rw [hm] at hs; cases hs
    | none => simp only [List.append_nil, hx, Bool.false_eq_true, if_false]; rfl
  · rw [h1] at hs
    cases hm : Loop.delimPat.search (x ++ rest) with
    | none => rw [hm] at hs; cases hs
    | some m =>
      rw [hm] at hs
      simp only [Option.map_some, Option.some.injEq] at hs
      simp only [hs, hpos, if_true, take_append, hx, Bool.false_eq_true, if_false, List.drop_left]
      cases rest with
      | nil => exact absurd rfl h0
      | cons a b => rfl
  · rw [h1] at hs
    cases hm : Loop.delimPat.search (x ++ '{' :: t) with
    | none => rw [hm] at hs; cases hs
    | some m =>
      rw [hm] at hs
      simp only [Option.map_some, Option.some.injEq] at hs
      have e : x ++ '{' :: t = (x ++ ['{']) ++ t := by simp
      have e2 : (x ++ '{' :: t).take (x.length + 1) = x ++ ['{'] := by rw [e, show x.length + 1 = (x ++ ['{']).length by simp, take_append]
      have e3 : endsWith (x ++ ['{']) ['{'] = true := by unfold endsWith; rw [List.isSuffixOf_iff_suffix]; exact ⟨x, rfl⟩
      simp only [hs, show 0 < x.length + 1 by omega, if_true, e2, e3, List.dropLast_concat, List.drop_left]
      rfl

/-- No definition gives a meaning to a command in a text. -/
def _root_.L2J.Spec.Unmet (h : List (Def × Bool)) (s : Str) : Prop := ∀ a b, s = a ++ '\\' :: b → ∃ w rest, b = w ++ rest ∧ Ends w rest ∧ ∀ x ∈ h, ¬ Meant x.1 w

/-- What was defined is what the parser knows. -/
structure Known {V X} (cfg : Cfg V X) (h : List (Def × Bool)) (st : St V X) : Prop where
  reg : registerAll cfg.cmds Proc.empty h = some (.ok st.proc)
  plain : ∀ x ∈ h, PlainDef x.1
  ifs : st.ifs = (h.reverse.filterMap fun x => match x.1 with | .newif n => some n | _ => none)

theorem unmet_search {V X} {cfg : Cfg V X} (hl : Letters cfg.cmds) {h} {st : St V X} (k : Known cfg h st) {s : Str} (hs : Unmet h s) (e : Str × Entry)
    (hm : e ∈ st.proc.commands ++ st.proc.lets) : e.2.pattern.search s = none := by
  obtain ⟨b, hb⟩ := mem_dict hm
  obtain ⟨⟨d, sty⟩, hx, p0, _, hent⟩ := origin k.reg b e hb
  have key : ∀ (s rev : Str), Unmet h s → e.2.pattern.searchFrom rev s = none := by
    intro s
    induction s with
    | nil =>
      intro rev _
      unfold Re.searchFrom
      cases hm : e.2.pattern.matchAt rev [] with
      | none => rfl
      | some m =>
        have := usage_slash (k.plain _ hx) ((entryOf_pattern hent).2.2 _ (matchAt_ne (by rw [hm]; simp)))
        cases this
    | cons c s ih =>
      intro rev hu
      unfold Re.searchFrom
      have : e.2.pattern.matchAt rev (c :: s) = none := by
        cases hm : e.2.pattern.matchAt rev (c :: s) with
        | none => rfl
        | some m =>
          have hr := (entryOf_pattern hent).2.2 _ (matchAt_ne (by rw [hm]; simp))
          have hc := usage_slash (k.plain _ hx) hr
          simp at hc
          subst hc
          obtain ⟨w, rest, rfl, he, hw⟩ := hu [] s rfl
          exact absurd (usage_meant hl (k.plain _ hx) he hr) (hw _ hx)
      rw [this]
      exact ih _ (fun a b hab => hu (c :: a) b (by rw [hab]; rfl))
  exact key s [] hs

theorem expand_unmet {V X} {cfg : Cfg V X} (hl : Letters cfg.cmds) {h} {st : St V X} (k : Known cfg h st) {s : Str} (hs : Unmet h s) (iu math : Bool) :
    expand cfg st s iu math = .ok st (if iu then s else cfg.cmds.conv s) := by
  have hsub : ∀ (es : Dict Entry), (∀ e ∈ es, e ∈ st.proc.commands ++ st.proc.lets) → expandWith cfg.cmds es math s = some (.ok s) := by
    intro es hes
    have hr : round cfg.cmds es math s = some s := by
      have key : ∀ (es : Dict Entry), (∀ e ∈ es, e.2.pattern.search s = none) →
          substPatterns Match.start (fun t => t.length + 1) (es.map fun e => (e.2.pattern.search, subFn cfg.cmds e.2 math)) s = some s := by
        intro es hes
        induction es with
        | nil => rfl
        | cons e es ih =>
          simp only [List.map_cons, substPatterns]
          have : substLoop e.2.pattern.search Match.start (subFn cfg.cmds e.2 math) (s.length + 1) s 0 = some s := by
            unfold substLoop
            rw [List.drop_zero, hes e (by simp)]
          rw [this]
          exact ih (fun e he => hes e (by simp [he]))
      exact key es (fun e he => unmet_search hl k hs e (hes e he))
    unfold expandWith rounds
    rw [hr]
    simp
  unfold expand Proc.expand
  simp only
  rw [hsub _ (fun e he => by
    split at he
    · simp [he]
    · simp [(List.mem_filter.1 he).1])]
  simp only
  rw [hsub st.proc.lets (fun e he => by simp [he])]

/-! ## Adding tokens -/

/-- A text without styles. -/
def _root_.L2J.Spec.TextTok (t : Tok) (s : Str) : Prop := t.type = "text".toList ∧ t.content = .str s ∧ t.styles = none

/-- An empty group, environment or list. -/
def _root_.L2J.Spec.Hollow (t : Tok) : Prop := (t.type = "group".toList ∨ t.type = "environment".toList ∨ t.type = "list".toList) ∧ t.content.len = some 0

/-- A group, environment or list has a content that can be empty. -/
def _root_.L2J.Spec.Sized (t : Tok) : Prop := t.type = "group".toList ∨ t.type = "environment".toList ∨ t.type = "list".toList → t.content.len ≠ none

/-- Adding a token: a text is joined with the text before it, with a blank between if there was one; empty groups, environments and lists are left out. -/
inductive _root_.L2J.Spec.Adds (space : Bool) (t : Tok) : List Tok → List Tok → Prop
  | join (l : List Tok) (u : Tok) (a b : Str) : TextTok u a → TextTok t b → Adds space t (l ++ [u]) (l ++ [u.setContent (.str ((if space ∧ a.getLast? ≠ some ' ' then a ++ [' '] else a) ++ b))])
  | new (l : List Tok) : Sized t → ¬ Hollow t → (∀ u ∈ l.getLast?, (∃ a, TextTok u a) → ¬ ∃ b, TextTok t b) → Adds space t l (l ++ [t])
  | hollow (l : List Tok) : Hollow t → Adds space t l l

theorem plainText_iff (t : Tok) : plainText t = true ↔ ∃ s, TextTok t s := by
  obtain ⟨i, ty, c, f, st⟩ := t
  constructor
  · intro h
    cases c <;> cases st <;> simp [plainText] at h
    exact ⟨_, h, rfl, rfl⟩
  · rintro ⟨s, h1, h2, h3⟩
    simp only [Tok.type, Tok.content, Tok.styles] at h1 h2 h3
    subst h1 h2 h3
    simp [plainText]

theorem endsWith_sp (s : Str) : endsWith s [' '] = true ↔ s.getLast? = some ' ' := by
  unfold endsWith
  rw [List.isSuffixOf_iff_suffix]
  constructor
  · rintro ⟨y, rfl⟩; simp
  · intro h; obtain ⟨y, hy⟩ := List.getLast?_eq_some_iff.1 h; exact ⟨y, hy.symm⟩

theorem adds_spec {space : Bool} {t : Tok} {l l' : List Tok} (h : Adds space t l l') : addTok t l space = some l' := by
  cases h with
  | join l u a b hu ht =>
    unfold addTok
    rw [if_pos ((plainText_iff t).2 ⟨b, ht⟩), List.getLast?_concat, ht.2.1]
    simp only
    rw [if_pos ((plainText_iff u).2 ⟨a, hu⟩), List.dropLast_concat]
    obtain ⟨i, ty, c, f, st⟩ := u
    have hc := hu.2.1
    simp only [Tok.content] at hc
    subst hc
    simp only [joinText, Tok.setContent]
    by_cases hs : space = true ∧ a.getLast? ≠ some ' '
    · rw [if_pos hs, if_pos]
      have : endsWith a [' '] = false := by
        cases he : endsWith a [' '] with
        | false => rfl
        | true => exact absurd ((endsWith_sp a).1 he) hs.2
      simp [hs.1, this]
    · rw [if_neg hs, if_neg]
      intro hh
      simp only [Bool.and_eq_true, Bool.not_eq_true'] at hh
      refine hs ⟨hh.1, fun he => ?_⟩
      rw [(endsWith_sp a).2 he] at hh; simp at hh
  | new _ hsz hho hj =>
    unfold addTok
    by_cases hp : plainText t = true
    · obtain ⟨b, hb⟩ := (plainText_iff t).1 hp
      rw [if_pos hp, hb.2.1]
      cases hg : l.getLast? with
      | none => rfl
      | some u =>
        simp only
        rw [if_neg]
        intro hu
        exact hj u (by rw [hg]; rfl) ((plainText_iff u).1 hu) ⟨b, hb⟩
    · rw [if_neg hp]
      split
      · rename_i hty
        cases hl : t.content.len with
        | none => exact absurd hl (hsz hty)
        | some n =>
          simp only
          rw [if_neg]
          intro hn
          exact hho ⟨hty, by rw [hl]; congr 1; omega⟩
      · rfl
  | hollow _ hh =>
    obtain ⟨hty, hl⟩ := hh
    unfold addTok
    rw [if_neg, if_pos hty, hl]
    · simp
    · intro hp
      obtain ⟨b, hb, _⟩ := (plainText_iff t).1 hp
      rw [hb] at hty
      revert hty; decide

/-- Adding several. -/
inductive _root_.L2J.Spec.AddsAll : List Tok → List Tok → List Tok → Prop
  | nil (l) : AddsAll [] l l
  | cons {t ts l l' l''} : Adds false t l l' → AddsAll ts l' l'' → AddsAll (t :: ts) l l''

theorem addsAll_spec {V X} (st : St V X) {ts l l' : List Tok} (h : AddsAll ts l l') : addAll st l ts = .ok st l' := by
  induction h with
  | nil l => rfl
  | cons h _ ih => unfold addAll add; rw [adds_spec h]; exact ih

/-- Adding a text that is made of something: nothing if it is empty. -/
inductive _root_.L2J.Spec.AddsText (space : Bool) (id : Nat) : Str → List Tok → List Tok → Nat → Prop
  | empty (l) : AddsText space id [] l l id
  | text (s l l') : s ≠ [] → Adds space (.mk id "text".toList (.str s) [] none) l l' → AddsText space id s l l' (id + 1)

theorem addsText_spec {V X} {st : St V X} {space : Bool} {s : Str} {l l' : List Tok} {n : Nat} (h : AddsText space st.next s l l' n) :
    addStr st s l space = .ok { st with next := n } l' := by
  cases h with
  | empty l => rfl
  | text s l l' hne h =>
    unfold addStr
    rw [if_neg (by simpa using hne)]
    unfold add newTok
    rw [adds_spec h]; rfl

end L2J.Psr
