import Verif.Model.Commands
import Verif.Lemmas.MinLen
import Verif.Props.C10
/-! Every entry a definition makes consumes something. -/
namespace L2J.Cmds

/-- What every entry satisfies: it consumes something, and two characters at least if it looks for a brace. -/
def Entry.Good (e : Entry) : Prop :=
  1 ≤ e.pattern.minLen ∧ ∀ l r, e.handler = .paired l r → 2 ≤ e.pattern.minLen

def Proc.Good (p : Proc) : Prop := (∀ e ∈ p.commands, e.2.Good) ∧ ∀ e ∈ p.lets, e.2.Good

theorem Good.empty : Proc.empty.Good := ⟨fun _ h => (by cases h), fun _ h => (by cases h)⟩

theorem mem_set {β} (d : Dict β) (k : Str) (v : β) (e : Str × β) (h : e ∈ Dict.set d k v) : e ∈ d ∨ e = (k, v) := by
  induction d with
  | nil => simp [Dict.set] at h; exact .inr h
  | cons x d ih =>
    obtain ⟨a, b⟩ := x
    simp only [Dict.set] at h
    split at h
    · simp at h; rcases h with h | h
      · exact .inr h
      · exact .inl (by simp [h])
    · simp at h; rcases h with h | h
      · exact .inl (by simp [h])
      · rcases ih h with h | h
        · exact .inl (by simp [h])
        · exact .inr h

theorem Proc.Good.put {p : Proc} (h : p.Good) (pl : Place) {e : Entry} (he : e.Good) : (p.put pl e).Good := by
  unfold Proc.put
  split
  · refine ⟨h.1, fun x hx => ?_⟩
    rcases mem_set _ _ _ _ hx with hx | hx
    · exact h.2 x hx
    · rw [hx]; exact he
  · refine ⟨fun x hx => ?_, h.2⟩
    rcases mem_set _ _ _ _ hx with hx | hx
    · exact h.1 x hx
    · rw [hx]; exact he

theorem withCsname_min (main : Re) (csname : Option Str) (sfx : Re) (h : 1 ≤ main.minLen) :
    1 ≤ (withCsname main csname sfx).minLen := by
  unfold withCsname
  split
  · exact h
  · simp only [Re.minLen, minLen_lit]
    have : "\\csname".toList.length = 7 := rfl
    omega

theorem usage_min (cfg : Cfg) (d : Def) (hn : d.name.isEmpty = false) : 1 ≤ (d.usage cfg).minLen := by
  cases d with
  | newcommand n c a ds mo => simp only [Def.usage, newcommandUsage, Re.minLen, minLen_lit, List.length_cons]; omega
  | alphabet c =>
    simp only [Def.usage, Re.minLen, minLen_lit]
    cases c with
    | nil => simp [Def.name, stripBackslash] at hn
    | cons x c => simp; omega
  | futurelet n c => simp only [Def.usage, Re.minLen, minLen_lit, List.length_cons]; omega
  | let_ n c cs =>
    simp only [Def.usage]
    exact withCsname_min _ _ _ (by simp only [Re.minLen, minLen_lit, List.length_cons]; omega)
  | def_ n ps c ed cs =>
    simp only [Def.usage]
    exact withCsname_min _ _ _ (by simp only [Re.minLen, minLen_lit, List.length_cons]; omega)
  | newif n => simp only [Def.usage, Re.minLen, minLen_lit, List.length_cons]; omega
  | newcounter n =>
    simp only [Def.usage, Re.minLen, minLen_lit]
    have : "\\the".toList.length = 4 := rfl
    omega
  | newlength n => simp only [Def.usage, Re.minLen, minLen_lit, List.length_cons]; omega
  | newtoks n => simp only [Def.usage, Re.minLen, minLen_lit, List.length_cons]; omega
  | newX n => simp only [Def.usage, Re.minLen, minLen_lit, List.length_cons]; omega
  | paired n l r => simp only [Def.usage, Re.minLen, minLen_lit, List.length_cons]; omega

theorem conditional_min (cfg : Cfg) (c : Str) (u : Re) (h : 1 ≤ u.minLen) : 1 ≤ (conditional cfg c u).2.minLen := by
  unfold conditional
  simp only
  split
  · split
    · exact h
    · simp only [Re.minLen]; omega
  · exact h

theorem newcommandEntry_good (cfg : Cfg) (c : Str) (n : Nat) (ds : List Str) (u : Re) (mo : Bool) (h : 1 ≤ u.minLen) :
    (newcommandEntry cfg c n ds u mo).Good := by
  refine ⟨conditional_min cfg c u h, fun l r hh => ?_⟩
  simp only [newcommandEntry] at hh
  split at hh <;> cases hh

theorem guarded_good (u : Re) (c : Str) (e e' : Entry) (he : e.Good) (h : guarded u c e = some (.ok (some e'))) : e'.Good := by
  unfold guarded at h
  split at h
  · cases h
  · injection h with h; injection h with h; injection h with h; rw [← h]; exact he

/-- Every entry a definition makes is good. -/
theorem entryOf_good (cfg : Cfg) (p : Proc) (d : Def) (sty : Bool) (e : Entry)
    (h : entryOf cfg p d sty = some (.ok (some e))) : e.Good := by
  unfold entryOf at h
  simp only at h
  split at h
  · cases h
  · rename_i hn
    have hn : d.name.isEmpty = false := by
      cases hx : d.name.isEmpty
      · rfl
      · simp [hx] at hn
    have hu := usage_min cfg d hn
    cases d with
    | newcommand n c a ds mo => exact guarded_good _ _ _ _ (newcommandEntry_good cfg _ _ _ _ _ hu) h
    | alphabet c => exact guarded_good _ _ _ _ (newcommandEntry_good cfg _ _ _ _ _ hu) h
    | futurelet n c => exact guarded_good _ _ _ _ (newcommandEntry_good cfg _ _ _ _ _ hu) h
    | let_ n c cs =>
      simp only at h
      split at h
      · cases h
      · cases h
      · injection h with h; injection h with h; injection h with h; rw [← h]
        exact ⟨hu, fun l r hh => by cases hh⟩
    | def_ n ps c ed cs =>
      simp only at h
      split at h
      · cases h
      · cases h
      · injection h with h; injection h with h; injection h with h; rw [← h]
        refine ⟨?_, fun l r hh => by cases hh⟩
        simp only
        split
        · exact conditional_min cfg _ _ hu
        · exact hu
    | newif n => injection h with h; injection h with h; injection h with h; rw [← h]; exact ⟨hu, fun l r hh => by cases hh⟩
    | newcounter n => injection h with h; injection h with h; injection h with h; rw [← h]; exact ⟨hu, fun l r hh => by cases hh⟩
    | newlength n => injection h with h; injection h with h; injection h with h; rw [← h]; exact ⟨hu, fun l r hh => by cases hh⟩
    | newtoks n => injection h with h; injection h with h; injection h with h; rw [← h]; exact ⟨hu, fun l r hh => by cases hh⟩
    | newX n => injection h with h; injection h with h; injection h with h; rw [← h]; exact ⟨hu, fun l r hh => by cases hh⟩
    | paired n l r =>
      injection h with h; injection h with h; injection h with h; rw [← h]
      refine ⟨hu, fun l r _ => ?_⟩
      simp only [Def.usage, Re.minLen, minLen_lit, List.length_cons, List.length_nil]; omega

theorem register_good (cfg : Cfg) (p p' : Proc) (d : Def) (sty : Bool) (hp : p.Good)
    (h : register cfg p d sty = some (.ok p')) : p'.Good := by
  unfold register at h
  split at h
  · cases h
  · cases h
  · injection h with h; injection h with h; rw [← h]; exact hp
  · rename_i e he
    injection h with h; injection h with h; rw [← h]
    exact hp.put _ (entryOf_good cfg p d sty e he)

theorem registerAll_good (cfg : Cfg) : ∀ (hs : List (Def × Bool)) (p p' : Proc), p.Good →
    registerAll cfg p hs = some (.ok p') → p'.Good
  | [], p, p', hp, h => by injection h with h; injection h with h; rw [← h]; exact hp
  | (d, sty) :: hs, p, p', hp, h => by
    unfold registerAll at h
    split at h
    · cases h
    · cases h
    · rename_i p1 h1
      exact registerAll_good cfg hs p1 p' (register_good cfg p p1 d sty hp h1) h

theorem useArgs_end (n : Nat) (ds : List Str) (text : Str) (start : Nat) : start ≤ (useArgs n ds text start).2 := by
  unfold useArgs
  split
  rename_i opts e1 h1
  have he1 : start ≤ e1 := by
    split at h1
    · injection h1 with _ h1; omega
    · injection h1 with _ h1; omega
  simp only
  split
  · simp only; omega
  · exact he1

/-- Every handler moves on. -/
theorem run_moves (cfg : Cfg) (e : Entry) (he : e.Good) (m : Match) (text : Str) (math : Bool)
    (hm : e.pattern.minLen ≤ m.len) : 1 ≤ (e.handler.run cfg m text math).2 := by
  have h1 := he.1
  have hs : m.stop = m.rev.length + m.len := rfl
  unfold Handler.run
  split
  · simp only; omega
  · simp only; omega
  · rename_i n ds b _
    have := useArgs_end n ds text m.stop
    simp only; omega
  · simp only; omega
  · simp only; omega
  · split <;> simp only <;> omega
  · rename_i l r hh
    have h2 := he.2 l r hh
    simp only
    split <;> simp only <;> omega

theorem subFn_moves (cfg : Cfg) (e : Entry) (he : e.Good) (math : Bool) : Consumes e.pattern.search (subFn cfg e math) := by
  intro t m hm
  have := run_moves cfg e he m t math (Re.search_minLen _ _ _ hm)
  unfold subFn
  simp only
  split <;> exact this

theorem entries_good (entries : Dict Entry) (cfg : Cfg) (math : Bool) (h : ∀ e ∈ entries, e.2.Good) :
    ∀ p ∈ entries.map (fun e => (e.2.pattern.search, subFn cfg e.2 math)), GoodSearch p.1 Match.start ∧ Consumes p.1 p.2 := by
  intro p hp
  obtain ⟨e, he, rfl⟩ := List.mem_map.1 hp
  exact ⟨goodSearch_re _ (nonEmpty_of_minLen _ (h e he).1), subFn_moves cfg e.2 (h e he) math⟩

theorem substPatterns_ends {M : Type} (start : M → Nat) : ∀ (ps : List ((Str → Option M) × (Str → M → Str × Nat))),
    (∀ p ∈ ps, GoodSearch p.1 start ∧ Consumes p.1 p.2) → ∀ text, ∃ out, substPatterns start (fun t => t.length + 1) ps text = some out
  | [], _, text => ⟨text, rfl⟩
  | (search, f) :: ps, h, text => by
    have hg := h (search, f) (by simp)
    obtain ⟨o, _, he⟩ := C10_terminates hg.1 hg.2 (text.length + 1) text [] (by omega)
    simp only [List.nil_append, List.length_nil] at he
    simp only [substPatterns, he]
    exact substPatterns_ends start ps (fun p hp => h p (by simp [hp])) o

/-- A round ends. -/
theorem round_ends (cfg : Cfg) (entries : Dict Entry) (math : Bool) (h : ∀ e ∈ entries, e.2.Good) (text : Str) :
    ∃ out, round cfg entries math text = some out :=
  substPatterns_ends _ _ (entries_good entries cfg math h) text

theorem rounds_ends (cfg : Cfg) (entries : Dict Entry) (math : Bool) (h : ∀ e ∈ entries, e.2.Good) :
    ∀ (n : Nat) (text : Str), ∃ r, rounds cfg entries math n text = some r
  | 0, _ => ⟨_, rfl⟩
  | n + 1, text => by
    obtain ⟨o, ho⟩ := round_ends cfg entries math h text
    unfold rounds
    rw [ho]
    simp only
    split
    · exact ⟨_, rfl⟩
    · exact rounds_ends cfg entries math h n o

theorem expand_ends (cfg : Cfg) (p : Proc) (hp : p.Good) (text : Str) (iu math : Bool) :
    ∃ r, p.expand cfg text iu math = some r := by
  unfold Proc.expand
  have hc : ∀ e ∈ (if math then p.commands else p.commands.filter fun e => !e.2.mathOnly), e.2.Good := by
    intro e he
    split at he
    · exact hp.1 e he
    · exact hp.1 e (List.mem_filter.1 he).1
  obtain ⟨r, hr⟩ := rounds_ends cfg _ math hc 1000 text
  simp only [expandWith, hr]
  cases r with
  | error e => exact ⟨_, rfl⟩
  | ok t =>
    simp only
    obtain ⟨r, hr⟩ := rounds_ends cfg p.lets math hp.2 1000 t
    rw [hr]
    cases r with
    | error e => exact ⟨_, rfl⟩
    | ok t => exact ⟨_, rfl⟩

end L2J.Cmds
