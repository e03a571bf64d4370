import Verif.Model.Preprocess
import Verif.Props.C62g
import Verif.Props.C63
import Verif.Props.C52
/-! C64: what the preprocessor does to a document. Here: the loop, and where it stops. -/
namespace L2J.Pre
open Cmds Defn L2J.Spec

/-- The characters whose command is an escaped character: the loop passes over them. -/
def escapable (c : Char) : Bool := "$%&_#{}~".toList.contains c

/-- Whether the loop stops in front of a text, with the character before it. -/
def hitAt (prev : Option Char) : Str → Bool
  | [] => false
  | c :: t =>
    c == '`' || (prev != some '\\' && (c == '$' || c == '%' || (c == '{' && prev == none) || (c == '{' && t.head? == some '}') ||
      (isSpace c && t.head? == some '{') || (c == '\\' && !(t.head?.any escapable))))

/-- How far away the next stop is. -/
def firstHit (prev : Option Char) : Str → Option Nat
  | [] => none
  | c :: t => if hitAt prev (c :: t) then some 0 else (firstHit (some c) t).map (· + 1)

/-- Whether a pattern matches. -/
def live (r : Re) (st : MSt) : Bool := !(r.run st).isEmpty

theorem live_alt (a b : Re) (st : MSt) : live (.alt a b) st = (live a st || live b st) := by
  unfold live; show (!(a.run st ++ b.run st).isEmpty) = _
  cases a.run st <;> simp

theorem live_chr_seq (p : Char → Bool) (b : Re) (rev t : Str) (c : Char) (g) : live (.seq (.chr p) b) ⟨rev, c :: t, g⟩ = (p c && live b ⟨c :: rev, t, g⟩) := by
  unfold live; show (!(((Re.chr p).run ⟨rev, c :: t, g⟩).flatMap b.run).isEmpty) = _
  cases h : p c <;> simp [Re.run, h]

theorem live_nil (p : Char → Bool) (b : Re) (rev : Str) (g) : live (.seq (.chr p) b) ⟨rev, [], g⟩ = false := by
  simp [live, Re.run]

theorem live_eps (st : MSt) : live .eps st = true := rfl

theorem live_behind (p : Char → Bool) (b : Re) (rev t : Str) (g) : live (.seq (.nbehind p) b) ⟨rev, t, g⟩ = (!(rev.head?.any p) && live b ⟨rev, t, g⟩) := by
  unfold live
  cases rev with
  | nil => simp [Re.run]
  | cons r rev => cases h : p r <;> simp [Re.run, h]

theorem live_seq_alt (a b d : Re) (st : MSt) : live (.seq (.alt a b) d) st = (live (.seq a d) st || live (.seq b d) st) := by
  unfold live
  show (!(((a.run st ++ b.run st)).flatMap d.run).isEmpty) = (!((a.run st).flatMap d.run).isEmpty || !((b.run st).flatMap d.run).isEmpty)
  rw [List.flatMap_append]
  cases (a.run st).flatMap d.run <;> simp

theorem live_seq_assoc (a b d : Re) (st : MSt) : live (.seq (.seq a b) d) st = live (.seq a (.seq b d)) st := by
  unfold live
  show (!(((a.run st).flatMap b.run).flatMap d.run).isEmpty) = (!((a.run st).flatMap fun x => (b.run x).flatMap d.run).isEmpty)
  rw [List.flatMap_assoc]

theorem live_nlook (p : Char → Bool) (rev t : Str) (g) : live (.nlook (.chr p)) ⟨rev, t, g⟩ = !(t.head?.any p) := by
  cases t with
  | nil => simp [live, Re.run]
  | cons c t => cases h : p c <;> simp [live, Re.run, h]

theorem live_eps_seq (b : Re) (st : MSt) : live (.seq .eps b) st = live b st := by
  unfold live; simp [Re.run]

theorem live_chr (p : Char → Bool) (rev t : Str) (g) : live (.chr p) ⟨rev, t, g⟩ = t.head?.any p := by
  cases t with
  | nil => simp [live, Re.run]
  | cons c t => cases h : p c <;> simp [live, Re.run, h]

theorem live_head (p : Char → Bool) (b : Re) (rev t : Str) (g) : live (.seq (.chr p) b) ⟨rev, t, g⟩ =
    match t with | [] => false | c :: t => p c && live b ⟨c :: rev, t, g⟩ := by
  cases t with
  | nil => exact live_nil p b rev g
  | cons c t => exact live_chr_seq p b rev t c g

theorem hit_spec (rev s : Str) : (delimQ.matchAt rev s).isSome = hitAt rev.head? s := by
  have h0 : (delimQ.matchAt rev s).isSome = live delimQ ⟨rev, s, []⟩ := by
    rw [Re.matchAt_eq]; unfold live; cases delimQ.run ⟨rev, s, []⟩ <;> rfl
  rw [h0]
  unfold delimQ Loop.delimPat reSpace
  simp only [live_alt, live_behind, Re.lit, live_seq_alt, live_seq_assoc, live_eps_seq, live_head, live_nlook, live_eps]
  have hp : ∀ (o : Option Char), Option.any (fun x => x == '\\') o = !(o != some '\\') := by
    intro o; cases o with
    | none => rfl
    | some r => simp [bne]
  have hn : ∀ (o : Option Char), Option.any (fun _ => true) o = !(o == none) := by
    intro o; cases o <;> rfl
  have hs : ∀ d c : Char, (some d == some c) = (d == c) := fun d c => rfl
  simp only [hp, hn, Bool.not_not]
  cases s with
  | nil => simp [hitAt]
  | cons c t =>
    unfold hitAt
    cases t with
    | nil =>
      simp only [List.head?_nil, Option.any_none, Bool.and_false, Bool.or_false, Bool.false_or, show ∀ x : Char, ((none : Option Char) == some x) = false from fun _ => rfl]
      generalize (List.head? rev != some '\\') = b1
      generalize (List.head? rev == none) = b2
      generalize (c == '$') = b3
      generalize (c == '%') = b4
      generalize (c == '{') = b5
      generalize (c == '`') = b7
      generalize (c == '\\') = b6
      cases b1 <;> cases b7 <;> cases b3 <;> cases b4 <;> simp [Bool.and_comm]
    | cons d t =>
      have hA : "$%&_#{}^~\\".toList.contains d = (escapable d || d == '^' || d == '\\') := by
        unfold escapable
        simp only [show "$%&_#{}^~\\".toList = ['$', '%', '&', '_', '#', '{', '}', '^', '~', '\\'] from rfl,
          show "$%&_#{}~".toList = ['$', '%', '&', '_', '#', '{', '}', '~'] from rfl, List.contains_cons, List.contains_nil]
        generalize (d == '$') = a1; generalize (d == '%') = a2; generalize (d == '&') = a3; generalize (d == '_') = a4
        generalize (d == '#') = a5; generalize (d == '{') = a6; generalize (d == '}') = a7; generalize (d == '^') = a8
        generalize (d == '~') = a9; generalize (d == '\\') = a10
        cases a8 <;> cases a9 <;> cases a10 <;> simp
      have hE : (escapable d && (d == '^' || d == '\\')) = false := by
        cases h : escapable d
        · rfl
        · have : d ≠ '^' ∧ d ≠ '\\' := by constructor <;> (rintro rfl; revert h; decide)
          simp [this]
      have hsp : ((c == ' ' || c == '\t') && !isSpace c) = false := by
        cases h : (c == ' ' || c == '\t')
        · rfl
        · have : isSpace c = true := by
            simp at h; rcases h with rfl | rfl <;> decide
          simp [this]
      simp only [List.head?_cons, Option.any_some, Bool.and_true, hA, hs]
      revert hE hsp
      generalize (List.head? rev != some '\\') = b1
      generalize (List.head? rev == none) = b2
      generalize (c == '$') = b3
      generalize (c == '%') = b4
      generalize (c == '{') = b5
      generalize (c == '`') = b7
      generalize (c == ' ' || c == '\t') = c1
      generalize (c == '\\') = b6
      generalize isSpace c = c2
      generalize (d == '{') = d1
      generalize (d == '}') = d2
      generalize (d == '^') = d3
      generalize (d == '\\') = d4
      generalize escapable d = d5
      cases b1 <;> cases b7 <;> cases b3 <;> cases b4 <;> simp
      cases b5 <;> cases b6 <;> cases c1 <;> cases c2 <;> cases d1 <;> cases d2 <;> cases d5 <;> simp
      all_goals (cases d3 <;> cases d4 <;> cases b2 <;> simp)

theorem searchFrom_firstHit : ∀ (s rev : Str), (delimQ.searchFrom rev s).map Match.start = (firstHit rev.head? s).map (· + rev.length)
  | [], rev => by
    have := hit_spec rev []
    unfold Re.searchFrom
    cases h : delimQ.matchAt rev [] with
    | none => rfl
    | some m => rw [h] at this; simp [hitAt] at this
  | c :: t, rev => by
    have hs := hit_spec rev (c :: t)
    unfold Re.searchFrom firstHit
    cases h : delimQ.matchAt rev (c :: t) with
    | none =>
      rw [h] at hs
      simp only [Option.isSome_none] at hs
      rw [← hs]
      simp only [Bool.false_eq_true, if_false]
      rw [searchFrom_firstHit t (c :: rev)]
      simp only [List.head?_cons, Option.map_map, List.length_cons]
      congr 1
      funext k
      simp only [Function.comp]; omega
    | some m =>
      rw [h] at hs
      simp only [Option.isSome_some] at hs
      rw [← hs]
      have := (delimQ.matchAt_zip _ _ _ h).1
      simp [Match.start, this]

theorem search_firstHit (s : Str) : (delimQ.search s).map Match.start = firstHit none s := by
  have := searchFrom_firstHit s []
  unfold Re.search
  rw [this]
  show Option.map (fun x => x + 0) (firstHit none s) = _
  cases firstHit none s <;> rfl

/-- The loop in terms of the next stop. -/
theorem loop_eq {V} (cfg : Cfg V) (n : Nat) (st : St V) (s : Str) : loop cfg (n + 1) st s =
    match firstHit none s with
    | none => .done st s
    | some 0 =>
      match act cfg n st s with
      | .raised => .raised
      | .running => .running
      | .next st out rest => (loop cfg n st rest).prepend out
    | some (k + 1) => (loop cfg n st (s.drop (k + 1))).prepend (s.take (k + 1)) := by
  rw [← search_firstHit]
  cases s with
  | nil => 
    have := search_firstHit []
    cases h : delimQ.search [] with
    | none => rfl
    | some m => rw [h] at this; cases this
  | cons c t =>
    rw [loop.eq_def]
    simp only
    cases h : delimQ.search (c :: t) with
    | none => rfl
    | some m =>
      simp only [Option.map_some]
      cases hm : m.start with
      | zero =>
        simp only [Nat.lt_irrefl, if_false]
        cases act cfg n st (c :: t) <;> rfl
      | succ k => simp

/-- The loop ends with this state and this text. -/
def Runs {V} (cfg : Cfg V) (st : St V) (s : Str) (st' : St V) (out : Str) : Prop := ∃ N, ∀ n, N ≤ n → loop cfg n st s = .done st' out

/-- What is done at a stop, for enough fuel. -/
def Acts {V} (cfg : Cfg V) (st : St V) (s : Str) (st' : St V) (out rest : Str) : Prop := ∃ N, ∀ n, N ≤ n → act cfg n st s = .next st' out rest

theorem Runs.det {V} {cfg : Cfg V} {st : St V} {s : Str} {st1 st2 : St V} {o1 o2 : Str} (h1 : Runs cfg st s st1 o1) (h2 : Runs cfg st s st2 o2) : st1 = st2 ∧ o1 = o2 := by
  obtain ⟨N, h1⟩ := h1
  obtain ⟨M, h2⟩ := h2
  have a := h1 (N + M) (by omega)
  rw [h2 (N + M) (by omega)] at a
  cases a
  exact ⟨rfl, rfl⟩

theorem Runs.stop {V} {cfg : Cfg V} {st : St V} {s : Str} (h : firstHit none s = none) : Runs cfg st s st s := by
  refine ⟨1, fun n hn => ?_⟩
  cases n with
  | zero => omega
  | succ n => rw [loop_eq, h]

theorem Runs.jump {V} {cfg : Cfg V} {st : St V} {s : Str} {k : Nat} {st' : St V} {out : Str} (h : firstHit none s = some (k + 1)) (hr : Runs cfg st (s.drop (k + 1)) st' out) :
    Runs cfg st s st' (s.take (k + 1) ++ out) := by
  obtain ⟨N, hr⟩ := hr
  refine ⟨N + 1, fun n hn => ?_⟩
  cases n with
  | zero => omega
  | succ n => rw [loop_eq, h]; simp only; rw [hr n (by omega)]; rfl

theorem Runs.act {V} {cfg : Cfg V} {st : St V} {s : Str} {st1 st' : St V} {o r out : Str} (h : firstHit none s = some 0) (ha : Acts cfg st s st1 o r) (hr : Runs cfg st1 r st' out) :
    Runs cfg st s st' (o ++ out) := by
  obtain ⟨N, hr⟩ := hr
  obtain ⟨M, ha⟩ := ha
  refine ⟨N + M + 1, fun n hn => ?_⟩
  cases n with
  | zero => omega
  | succ n => rw [loop_eq, h]; simp only; rw [ha n (by omega)]; simp only; rw [hr n (by omega)]; rfl

theorem prepend_done {V} {t : Str} {r : Res V} {st : St V} {out : Str} (h : r.prepend t = .done st out) : ∃ o, r = .done st o ∧ out = t ++ o := by
  cases r with
  | done st' o => simp only [Res.prepend, Res.done.injEq] at h; exact ⟨o, by rw [h.1], h.2.symm⟩
  | _ => cases h

theorem Runs.jump_inv {V} {cfg : Cfg V} {st : St V} {s : Str} {k : Nat} {st' : St V} {out : Str} (h : firstHit none s = some (k + 1)) (hr : Runs cfg st s st' out) :
    ∃ o, out = s.take (k + 1) ++ o ∧ Runs cfg st (s.drop (k + 1)) st' o := by
  obtain ⟨N, hr⟩ := hr
  have h0 := hr (N + 1) (by omega)
  rw [loop_eq, h] at h0
  obtain ⟨o, h1, h2⟩ := prepend_done h0
  refine ⟨o, h2, N, fun n hn => ?_⟩
  have h3 := hr (n + 1) (by omega)
  rw [loop_eq, h] at h3
  obtain ⟨o', h4, h5⟩ := prepend_done h3
  rw [h2] at h5
  rw [h4, List.append_cancel_left h5]

theorem Runs.act_inv {V} {cfg : Cfg V} {st : St V} {s : Str} {st1 st' : St V} {o r out : Str} (h : firstHit none s = some 0) (ha : Acts cfg st s st1 o r) (hr : Runs cfg st s st' out) :
    ∃ u, out = o ++ u ∧ Runs cfg st1 r st' u := by
  obtain ⟨N, hr⟩ := hr
  obtain ⟨M, ha⟩ := ha
  have step : ∀ n, N + M ≤ n → ∃ u, loop cfg n st1 r = .done st' u ∧ out = o ++ u := by
    intro n hn
    have h3 := hr (n + 1) (by omega)
    rw [loop_eq, h] at h3
    simp only [ha n (by omega)] at h3
    exact prepend_done h3
  obtain ⟨u, h1, h2⟩ := step (N + M) (by omega)
  refine ⟨u, h2, N + M, fun n hn => ?_⟩
  obtain ⟨v, h4, h5⟩ := step n hn
  rw [h2] at h5
  rw [h4, List.append_cancel_left h5]

theorem Runs.stop_inv {V} {cfg : Cfg V} {st : St V} {s : Str} {st' : St V} {out : Str} (h : firstHit none s = none) (hr : Runs cfg st s st' out) : st' = st ∧ out = s :=
  hr.det (Runs.stop h)

/-- Nothing happens at a brace or a blank. -/
def Inert {V} (cfg : Cfg V) (st : St V) : Prop := ∀ c t, (c = '{' ∨ isSpace c = true) → Acts cfg st (c :: t) st [c] t

/-- The character before matters for a backslash, and for a brace at the very beginning. -/
theorem hit_prev {c d : Char} {t : Str} (hc : c ≠ '\\') (hd : d ≠ '{') : hitAt (some c) (d :: t) = hitAt none (d :: t) := by
  have h1 : (some c != some '\\') = true := by simp [bne, hc]
  have h2 : ((none : Option Char) != some '\\') = true := rfl
  have h3 : (d == '{') = false := by simpa using hd
  simp only [hitAt, h1, h2, h3, Bool.false_and]

/-- What the loop does with the text behind a character is what it does with that text: the character before is a matter for backslashes only. -/
theorem runs_prev {V} {cfg : Cfg V} {st st' : St V} (hi : Inert cfg st) : ∀ (rest out : Str) (c : Char), c ≠ '\\' → Runs cfg st rest st' out →
    (∀ k, firstHit (some c) rest = some k → ∃ o, out = rest.take k ++ o ∧ Runs cfg st (rest.drop k) st' o) ∧
    (firstHit (some c) rest = none → st' = st ∧ out = rest)
  | [], out, c, _, hr => by
    refine ⟨fun k h => (by simp [firstHit] at h), fun _ => hr.stop_inv rfl⟩
  | d :: t, out, c, hc, hr => by
    by_cases h1 : hitAt (some c) (d :: t) = true
    · refine ⟨fun k h => ?_, fun h => ?_⟩
      · unfold firstHit at h; rw [if_pos h1] at h; cases h; exact ⟨out, rfl, hr⟩
      · unfold firstHit at h; rw [if_pos h1] at h; cases h
    · by_cases h2 : hitAt none (d :: t) = true
      · have hd : d = '{' := by
          by_cases hd : d = '{'
          · exact hd
          · rw [hit_prev hc hd] at h1; exact absurd h2 h1
        have h0 : firstHit none (d :: t) = some 0 := by unfold firstHit; rw [if_pos h2]
        obtain ⟨u, hu, hr'⟩ := hr.act_inv h0 (hi d t (.inl hd))
        have ih := runs_prev hi t u d (by rw [hd]; decide) hr'
        unfold firstHit
        rw [if_neg h1]
        refine ⟨fun k h => ?_, fun h => ?_⟩
        · obtain ⟨j, hj, rfl⟩ := Option.map_eq_some_iff.1 h
          obtain ⟨o, ho, hr2⟩ := ih.1 j hj
          exact ⟨o, by rw [hu, ho]; simp, by simpa using hr2⟩
        · have := ih.2 (by simpa using h)
          exact ⟨this.1, by rw [hu, this.2]; rfl⟩
      · have he : firstHit (some c) (d :: t) = firstHit none (d :: t) := by
          unfold firstHit; rw [if_neg h1, if_neg h2]
        rw [he]
        refine ⟨fun k h => ?_, fun h => hr.stop_inv h⟩
        cases k with
        | zero => exact ⟨out, rfl, hr⟩
        | succ k => exact hr.jump_inv h

/-- A character without meaning for the loop. -/
def _root_.L2J.Spec.Harmless (c : Char) : Prop := c ≠ '\\' ∧ c ≠ '$' ∧ c ≠ '`' ∧ c ≠ '%'

theorem Runs.char {V} {cfg : Cfg V} {st st' : St V} (hi : Inert cfg st) {c : Char} (hc : Harmless c) {rest out : Str} (hr : Runs cfg st rest st' out) :
    Runs cfg st (c :: rest) st' (c :: out) := by
  by_cases h : hitAt none (c :: rest) = true
  · have h0 : firstHit none (c :: rest) = some 0 := by unfold firstHit; rw [if_pos h]
    refine Runs.act (o := [c]) h0 (hi c rest ?_) hr
    by_cases h1 : c = '{'
    · exact .inl h1
    · right
      cases hs : isSpace c with
      | true => rfl
      | false => simp [hitAt, hc.1, hc.2.1, hc.2.2.1, hc.2.2.2, h1, hs] at h
  · have h0 : firstHit none (c :: rest) = (firstHit (some c) rest).map (· + 1) := by
      show (if hitAt none (c :: rest) = true then _ else _) = _
      rw [if_neg h]
    have ih := runs_prev hi rest out c hc.1 hr
    cases hf : firstHit (some c) rest with
    | none =>
      obtain ⟨rfl, rfl⟩ := ih.2 hf
      exact Runs.stop (by rw [h0, hf]; rfl)
    | some k =>
      obtain ⟨o, rfl, hr2⟩ := ih.1 k hf
      exact Runs.jump (k := k) (by rw [h0, hf]; rfl) (by simpa using hr2)

theorem Runs.chars {V} {cfg : Cfg V} {st st' : St V} (hi : Inert cfg st) : ∀ {t : Str}, (∀ c ∈ t, Harmless c) → ∀ {rest out : Str}, Runs cfg st rest st' out →
    Runs cfg st (t ++ rest) st' (t ++ out)
  | [], _, _, _, hr => hr
  | c :: t, h, _, _, hr => Runs.char hi (h c (by simp)) (Runs.chars hi (fun c hc => h c (by simp [hc])) hr)

/-- An escaped character. -/
theorem Runs.escaped {V} {cfg : Cfg V} {st st' : St V} (hi : Inert cfg st) {c : Char} (hc : escapable c = true) {rest out : Str} (hr : Runs cfg st rest st' out) :
    Runs cfg st ('\\' :: c :: rest) st' ('\\' :: c :: out) := by
  have hne : c ≠ '\\' ∧ c ≠ '`' := by constructor <;> (rintro rfl; revert hc; decide)
  have h1 : hitAt none ('\\' :: c :: rest) = false := by
    have hs : isSpace '\\' = false := by decide
    simp [hitAt, hc, hs]
  have h2 : hitAt (some '\\') (c :: rest) = false := by simp [hitAt, hne.2]
  have h0 : firstHit none ('\\' :: c :: rest) = (firstHit (some c) rest).map (· + 2) := by
    show (if hitAt none ('\\' :: c :: rest) = true then _ else _) = _
    rw [if_neg (by rw [h1]; simp)]
    show Option.map _ (if hitAt (some '\\') (c :: rest) = true then _ else _) = _
    rw [if_neg (by rw [h2]; simp), Option.map_map]
    rfl
  have ih := runs_prev hi rest out c hne.1 hr
  cases hf : firstHit (some c) rest with
  | none =>
    obtain ⟨rfl, rfl⟩ := ih.2 hf
    exact Runs.stop (by rw [h0, hf]; rfl)
  | some k =>
    obtain ⟨o, rfl, hr2⟩ := ih.1 k hf
    exact Runs.jump (k := k + 1) (by rw [h0, hf]; rfl) (by simpa using hr2)

end L2J.Pre
