import Verif.Lemmas.Commands
import Verif.Model.ParseLoop
/-! C35: the expansion of user commands ends. -/
namespace L2J.Cmds
open L2J.Spec

/-- The patterns with their handlers, in the order of the dictionary. -/
def _root_.L2J.Spec.rules (cfg : Cfg) (entries : Dict Entry) (math : Bool) : List ((Str → Option Match) × (Str → Match → Str × Nat)) :=
  entries.map fun e => (e.2.pattern.search, subFn cfg e.2 math)

/-- `n` rounds, each of which is one pass for each pattern (`Spec.Passes` of C10). -/
inductive _root_.L2J.Spec.Rounds (ps : List ((Str → Option Match) × (Str → Match → Str × Nat))) : Nat → Str → Str → Prop
  | zero (t) : Rounds ps 0 t t
  | succ (n t u v) : Passes Match.start ps t u → Rounds ps n u v → Rounds ps (n + 1) t v

theorem guarded_ends (u : Re) (c : Str) (e : Entry) : ∃ r, guarded u c e = some r := by
  unfold guarded
  split <;> exact ⟨_, rfl⟩

/-- C35: registering any history of definitions ends (normally, or with the error for too deep recursion, which a `\let` or an
`\edef` can raise). -/
theorem C35_definitions_end (cfg : Cfg) (hs : List (Def × Bool)) : ∃ r, registerAll cfg Proc.empty hs = some r := by
  have key : ∀ (hs : List (Def × Bool)) (p : Proc), p.Good → ∃ r, registerAll cfg p hs = some r := by
    intro hs
    induction hs with
    | nil => intro p _; exact ⟨_, rfl⟩
    | cons x hs ih =>
      intro p hp
      obtain ⟨d, sty⟩ := x
      have hreg : ∃ r, register cfg p d sty = some r := by
        have hent : ∃ r, entryOf cfg p d sty = some r := by
          unfold entryOf
          simp only
          split
          · exact ⟨_, rfl⟩
          · cases d with
            | newcommand n c a ds mo => exact guarded_ends _ _ _
            | alphabet c => exact guarded_ends _ _ _
            | futurelet n c => exact guarded_ends _ _ _
            | let_ n c cs =>
              simp only
              obtain ⟨r, hr⟩ := expand_ends cfg p hp (if sty = true then [] else c) true false
              rw [hr]
              cases r <;> exact ⟨_, rfl⟩
            | def_ n ps c ed cs =>
              simp only
              obtain ⟨r, hr⟩ := expand_ends cfg p hp (if sty = true then [] else c) true false
              cases ed with
              | false => simp only [Bool.false_eq_true, if_false]; exact ⟨_, rfl⟩
              | true =>
                simp only [if_true, hr]
                cases r <;> exact ⟨_, rfl⟩
            | newif n => exact ⟨_, rfl⟩
            | newcounter n => exact ⟨_, rfl⟩
            | newlength n => exact ⟨_, rfl⟩
            | newtoks n => exact ⟨_, rfl⟩
            | newX n => exact ⟨_, rfl⟩
            | paired n l r => exact ⟨_, rfl⟩
        obtain ⟨r, hr⟩ := hent
        unfold register
        rw [hr]
        cases r with
        | error e => exact ⟨_, rfl⟩
        | ok o => cases o <;> exact ⟨_, rfl⟩
      obtain ⟨r, hr⟩ := hreg
      unfold registerAll
      rw [hr]
      cases r with
      | error e => exact ⟨_, rfl⟩
      | ok p' => exact ih p' (register_good cfg p p' d sty hp hr)
  exact key hs Proc.empty Good.empty

/-- C35: after any history of definitions, however recursive, `expand_commands` ends on every text, with a text or with the
error. -/
theorem C35_expansion_ends (cfg : Cfg) (hs : List (Def × Bool)) (p : Proc) (h : registerAll cfg Proc.empty hs = some (.ok p))
    (text : Str) (ignoreUnicode math : Bool) : ∃ r, p.expand cfg text ignoreUnicode math = some r :=
  expand_ends cfg p (registerAll_good cfg hs _ p Good.empty h) text ignoreUnicode math

theorem rounds_iff (cfg : Cfg) (entries : Dict Entry) (math : Bool) (hg : ∀ e ∈ entries, e.2.Good) :
    ∀ (n : Nat) (text out : Str), rounds cfg entries math n text = some (.ok out) ↔
      ∃ k, k < n ∧ Rounds (rules cfg entries math) k text out ∧ Passes Match.start (rules cfg entries math) out out
  | 0, text, out => by
    simp only [rounds]
    constructor
    · intro h; injection h with h; cases h
    · rintro ⟨k, hk, _⟩; omega
  | n + 1, text, out => by
    obtain ⟨o, ho⟩ := round_ends cfg entries math hg text
    have hpass := C10_patterns (start := Match.start) (rules cfg entries math) (entries_good entries cfg math hg)
    have ho' : Passes Match.start (rules cfg entries math) text o := (hpass text o).1 ho
    have huniq : ∀ u, Passes Match.start (rules cfg entries math) text u → u = o := by
      intro u hu
      have := (hpass text u).2 hu
      have h2 : substPatterns Match.start (fun t => t.length + 1) (rules cfg entries math) text = some o := ho
      rw [h2] at this; injection this with this; exact this.symm
    unfold rounds
    rw [ho]
    simp only
    constructor
    · intro h
      split at h
      · rename_i he
        injection h with h; injection h with h
        subst h
        refine ⟨0, by omega, ?_, ?_⟩
        · rw [he]; exact .zero _
        · have := ho'; rw [← he] at this; exact this
      · obtain ⟨k, hk, h1, h2⟩ := (rounds_iff cfg entries math hg n o out).1 h
        exact ⟨k + 1, by omega, .succ _ _ _ _ ho' h1, h2⟩
    · rintro ⟨k, hk, h1, h2⟩
      cases h1 with
      | zero t =>
        have := huniq _ h2
        rw [← this]
        rw [if_pos rfl]
      | succ k t u v h3 h4 =>
        have hu := huniq u h3
        subst hu
        split
        · rename_i he
          -- the round changed nothing, so no later one did
          have hst : ∀ (k : Nat) (v : Str), Rounds (rules cfg entries math) k u v → v = u := by
            intro k
            induction k with
            | zero => intro v hv; cases hv; rfl
            | succ k ih =>
              intro v hv
              cases hv with
              | succ _ _ w _ h5 h6 =>
                have : w = u := huniq w (by rw [← he]; exact h5)
                rw [this] at h6
                exact ih v h6
          rw [hst k out h4]
        · exact (rounds_iff cfg entries math hg n u out).2 ⟨k, by omega, h4, h2⟩

/-- C35: the result of an expansion. `_expand` returns a text exactly if fewer than 1000 rounds lead to a text that a further round
leaves as it is, and that text is the result; in every other case it raises. -/
theorem C35_result (cfg : Cfg) (hs : List (Def × Bool)) (p : Proc) (h : registerAll cfg Proc.empty hs = some (.ok p))
    (entries : Dict Entry) (he : ∀ e ∈ entries, e ∈ p.commands ∨ e ∈ p.lets) (math : Bool) (text : Str) :
    (∀ out, expandWith cfg entries math text = some (.ok out) ↔
      ∃ k, k < 1000 ∧ Rounds (rules cfg entries math) k text out ∧ Passes Match.start (rules cfg entries math) out out) ∧
    (expandWith cfg entries math text = some (.error ()) ↔
      ¬ ∃ k out, k < 1000 ∧ Rounds (rules cfg entries math) k text out ∧ Passes Match.start (rules cfg entries math) out out) := by
  have hg := registerAll_good cfg hs _ p Good.empty h
  have hge : ∀ e ∈ entries, e.2.Good := fun e hx => (he e hx).elim (hg.1 e) (hg.2 e)
  have h1 := rounds_iff cfg entries math hge 1000 text
  refine ⟨h1, ?_⟩
  obtain ⟨r, hr⟩ := rounds_ends cfg entries math hge 1000 text
  constructor
  · rintro hx ⟨k, out, hk⟩
    have := (h1 out).2 ⟨k, hk⟩
    unfold expandWith at hx
    rw [hx] at this
    injection this with this; cases this
  · intro hx
    unfold expandWith
    rw [hr]
    cases r with
    | error e => rfl
    | ok out => exact absurd ((h1 out).1 hr) (fun ⟨k, hk⟩ => hx ⟨k, out, hk⟩)

/-- A simple configuration for examples. -/
def cfg0 : Cfg := ⟨isLetter, fun c => isLetter c || isDigit c, id, fun _ => none⟩

/-- `\def\a{\b}` and `\def\b{\a}`. -/
def mutual_ : List (Def × Bool) :=
  [(.def_ "a".toList [] "\\b".toList false none, false), (.def_ "b".toList [] "\\a".toList false none, false)]

/-- The processor they give. -/
def mutualProc : Proc :=
  ⟨[("a".toList, ⟨(Def.def_ "a".toList [] "\\b".toList false none).usage cfg0, .groups 0 (.plain "\\b".toList), false⟩),
    ("b".toList, ⟨(Def.def_ "b".toList [] "\\a".toList false none).usage cfg0, .groups 0 (.plain "\\a".toList), false⟩)], []⟩

theorem mutual_registered : registerAll cfg0 Proc.empty mutual_ = some (.ok mutualProc) := rfl

theorem mutual_a : mutualProc.canHandle "\\a".toList = true ∧ mutualProc.handle cfg0 "\\a".toList = ("\\b".toList, 2) := by
  decide +kernel

theorem mutual_b : mutualProc.canHandle "\\b".toList = true ∧ mutualProc.handle cfg0 "\\b".toList = ("\\a".toList, 2) := by
  decide +kernel

/-- Violation: the main loop of the parser replaces a user command in place and looks at the same place again. With `\def\a{\b}`
and `\def\b{\a}` the text `\a` keeps it busy for ever, whatever the rest of the parser does. -/
theorem C35_violated_parser {S} (M : Loop.Machine S)
    (hM : ∀ s t, M.command s t =
      if mutualProc.canHandle t then some ((mutualProc.handle cfg0 t).1, ((mutualProc.handle cfg0 t).2 : Int)) else none) :
    ∀ (n : Nat) (s : S), Loop.run M n s "\\a".toList 0 = none := by
  have stepA : ∀ s, Loop.step M s "\\a".toList 0 = .next s "\\b".toList 0 := by
    intro s
    have hd : (Loop.delimPat.search "\\a".toList).map Match.start = some 0 := by decide +kernel
    obtain ⟨m, hm, hs⟩ := Option.map_eq_some_iff.1 hd
    show Loop.stepText M s "\\a".toList 0 = _
    unfold Loop.stepText
    simp only [List.drop_zero, hm, hs, Nat.lt_irrefl, if_false]
    unfold Loop.stepCommand
    simp only [List.drop_zero, hM, mutual_a.1, mutual_a.2, if_true]
    rfl
  have stepB : ∀ s, Loop.step M s "\\b".toList 0 = .next s "\\a".toList 0 := by
    intro s
    have hd : (Loop.delimPat.search "\\b".toList).map Match.start = some 0 := by decide +kernel
    obtain ⟨m, hm, hs⟩ := Option.map_eq_some_iff.1 hd
    show Loop.stepText M s "\\b".toList 0 = _
    unfold Loop.stepText
    simp only [List.drop_zero, hm, hs, Nat.lt_irrefl, if_false]
    unfold Loop.stepCommand
    simp only [List.drop_zero, hM, mutual_b.1, mutual_b.2, if_true]
    rfl
  have key : ∀ (n : Nat) (s : S), Loop.run M n s "\\a".toList 0 = none ∧ Loop.run M n s "\\b".toList 0 = none := by
    intro n
    induction n with
    | zero => intro s; exact ⟨rfl, rfl⟩
    | succ n ih =>
      intro s
      constructor
      · unfold Loop.run; rw [stepA]; exact (ih s).2
      · unfold Loop.run; rw [stepB]; exact (ih s).1
  exact fun n s => (key n s).1

/-- A case where the expansion does something: `\newcommand{\x}[1]{<#1>}`, `\def\y{\x{b}}`. -/
example : ((registerAll cfg0 Proc.empty
    [(.newcommand "x".toList "<#1>".toList 1 [] false, false), (.def_ "y".toList [] "\\x{b}".toList false none, false)]).bind
      fun r => match r with
        | .ok p => p.expand cfg0 "a\\y c".toList true false
        | .error e => some (.error e)).map (fun r => match r with | .ok t => t | .error _ => []) = some "a<b> c".toList := by
  decide +kernel

end L2J.Cmds
