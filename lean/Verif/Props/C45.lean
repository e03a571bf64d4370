import Verif.Model.ParseLoop
import Verif.Lemmas.Args
import Verif.Lemmas.MinLen
/-! C45: parsing ends. -/
namespace L2J.Loop

/-- What is needed of the parts of the parser: a part that accepts a place moves on from it, and a replacement in place is shorter
than what it replaces. -/
structure _root_.L2J.Spec.MovesOn {S} (M : Machine S) : Prop where
  handlers : ∀ h ∈ M.handlers, ∀ s t s' e, h s t = some (s', e) → 0 < e
  patterns : ∀ s t s' e, M.patterns s t = some (s', e) → 0 < e
  unknown : ∀ s t s' e, M.unknown s t = some (s', e) → 0 < e
  command : ∀ s t new e, M.command s t = some (new, e) → 0 < e → (new.length : Int) < e ∧ new.length < t.length
  ifElse : ∀ s t s' new e, M.ifElse s t = some (s', new, e) → 0 < e → (new.length : Int) < e ∧ new.length < t.length
  legacy : ∀ s t new e, M.legacy s t = some (new, e) → 0 < e → (new.length : Int) < e ∧ new.length < t.length

/-- What is still to be done. -/
def left (content : Str) (pos : Nat) : Nat := content.length - pos

/-- A step that does not leave the loop makes progress. -/
def Advances {S} (content : Str) (pos : Nat) : Step S → Prop
  | .leave _ => True
  | .outside => False
  | .next _ content' pos' => left content' pos' < left content pos

theorem Advances.of_pos {S} (s : S) (content : Str) (pos : Nat) (e : Int) (hpos : pos < content.length) (he : 0 < e) :
    Advances content pos (move s content pos e) := by
  unfold move
  split
  · omega
  · show content.length - _ < content.length - pos
    omega

theorem Advances.of_splice {S} (s : S) (content : Str) (pos : Nat) (new : Str) (e : Int) (hpos : pos < content.length)
    (h1 : (new.length : Int) < e) (h2 : new.length < (content.drop pos).length) :
    Advances content pos (.next s (splice content pos new e) pos) := by
  show (splice content pos new e).length - pos < content.length - pos
  unfold splice
  simp at h2 ⊢
  omega

theorem firstHandler_pos {S} (s : S) (t : Str) : ∀ (hs : List (S → Str → Option (S × Int))),
    (∀ h ∈ hs, ∀ s t s' e, h s t = some (s', e) → 0 < e) → ∀ s' e, firstHandler s t hs = some (s', e) → 0 < e
  | [], _, s', e, h => by cases h
  | h :: hs, hp, s', e, hh => by
    unfold firstHandler at hh
    split at hh
    · rename_i r hr
      injection hh with hh
      subst hh
      exact hp h (by simp) s t s' e hr
    · exact firstHandler_pos s t hs (fun x hx => hp x (by simp [hx])) s' e hh

theorem handlers_advance {S} {M : Machine S} (hM : Spec.MovesOn M) (s : S) (content : Str) (pos : Nat)
    (hpos : pos < content.length) : Advances content pos (stepHandlers M s content pos) := by
  unfold stepHandlers
  split
  · rename_i s' e h
    exact .of_pos _ _ _ _ hpos (firstHandler_pos _ _ _ hM.handlers _ _ h)
  · split
    · rename_i s' e h
      exact .of_pos _ _ _ _ hpos (hM.patterns _ _ _ _ h)
    · split
      · rename_i s' e h
        exact .of_pos _ _ _ _ hpos (hM.unknown _ _ _ _ h)
      · split
        · trivial
        · show content.length - _ < content.length - pos
          omega

theorem ifElse_advances {S} {M : Machine S} (hM : Spec.MovesOn M) (s : S) (content : Str) (pos : Nat)
    (hpos : pos < content.length) : Advances content pos (stepIfElse M s content pos) := by
  unfold stepIfElse
  split
  · rename_i s' block e h
    obtain ⟨h1, h2⟩ := Option.filter_eq_some_iff.1 h
    have := hM.ifElse _ _ _ _ _ h1 (by simpa using h2)
    exact .of_splice _ _ _ _ _ hpos this.1 this.2
  · split
    · rename_i new e h
      obtain ⟨h1, h2⟩ := Option.filter_eq_some_iff.1 h
      have := hM.legacy _ _ _ _ h1 (by simpa using h2)
      exact .of_splice _ _ _ _ _ hpos this.1 this.2
    · exact handlers_advance hM _ _ _ hpos

theorem command_advances {S} {M : Machine S} (hM : Spec.MovesOn M) (s : S) (content : Str) (pos : Nat)
    (hpos : pos < content.length) : Advances content pos (stepCommand M s content pos) := by
  unfold stepCommand
  split
  · rename_i new e h
    obtain ⟨h1, h2⟩ := Option.filter_eq_some_iff.1 h
    have := hM.command _ _ _ _ h1 (by simpa using h2)
    exact .of_splice _ _ _ _ _ hpos this.1 this.2
  · simp only
    split
    · show content.length - _ < content.length - pos
      omega
    · exact ifElse_advances hM _ _ _ hpos

/-- A text that begins with a brace has a delimiter there. -/
theorem delim_at_brace (r : Str) : ∃ m, delimPat.search ('{' :: r) = some m ∧ m.start = 0 := by
  have : (delimPat.matchAt [] ('{' :: r)).isSome = true := by
    unfold Re.matchAt
    have : delimPat.run ⟨[], '{' :: r, []⟩ ≠ [] := by
      simp [delimPat, Re.run, Re.lit]
    split
    · contradiction
    · rfl
  obtain ⟨m, hm⟩ := Option.isSome_iff_exists.1 this
  refine ⟨m, ?_, ?_⟩
  · unfold Re.search Re.searchFrom
    rw [hm]
  · have := (delimPat.matchAt_zip _ _ _ hm).1
    simp [Match.start, this]

theorem text_advances {S} {M : Machine S} (hM : Spec.MovesOn M) (s : S) (content : Str) (pos : Nat)
    (hpos : pos < content.length) : Advances content pos (stepText M s content pos) := by
  unfold stepText
  simp only
  split
  · trivial
  · rename_i m hm
    split
    · rename_i hs
      split
      · rename_i he
        show content.length - _ < content.length - pos
        have : 2 ≤ m.start := by
          rcases Nat.lt_or_ge m.start 2 with h | h
          · exfalso
            have h1 : m.start = 1 := by omega
            rw [h1] at he
            cases ht : content.drop pos with
            | nil => rw [ht] at he; simp [endsWith] at he
            | cons c t =>
              rw [ht] at he hm
              have hc : c = '{' := by
                simp [endsWith] at he
                obtain ⟨t', h'⟩ := he
                have := congrArg List.getLast? h'
                simp at this
                exact this.symm
              subst hc
              obtain ⟨m', hm', h0⟩ := delim_at_brace t
              rw [hm] at hm'; injection hm' with hm'
              rw [hm'] at h1; omega
          · exact h
        omega
      · show content.length - _ < content.length - pos
        omega
    · exact command_advances hM _ _ _ hpos

theorem extract_pos (t : Str) (o c : Char) (inner : Str) (e : Nat) (h : extractNestedContent t o c = some (inner, e)) : 0 < e := by
  unfold extractNestedContent at h
  cases hf : findMatchingDelimiter t o c 0 with
  | none => rw [hf] at h; cases h
  | some x =>
    obtain ⟨a, b⟩ := x
    rw [hf] at h
    injection h with h; injection h with _ h
    rw [← h]
    unfold findMatchingDelimiter at hf
    have key : ∀ (rest rev : Str) (d e : Nat), findMatchLoop o c rev d rest = some e → 0 < e := by
      intro rest
      induction rest with
      | nil => intro rev d e h; cases h
      | cons x rest ih =>
        intro rev d e h
        unfold findMatchLoop at h
        split at h
        · exact ih _ _ _ h
        · split at h
          · split at h
            · cases h
            · split at h
              · injection h with h; omega
              · exact ih _ _ _ h
          · exact ih _ _ _ h
    split at hf
    · cases hf
    · split at hf
      · cases hf
      · obtain ⟨e', he', hx⟩ := Option.map_eq_some_iff.1 hf
        injection hx with _ hx
        rw [← hx]; exact key _ _ _ _ he'

theorem stepAt_advances {S} {M : Machine S} (hM : Spec.MovesOn M) (s : S) (content : Str) (pos : Nat) :
    Advances content pos (stepAt M s content pos) := by
  unfold stepAt
  split
  · trivial
  · rename_i c t ht
    have hpos : pos < content.length := by
      have := congrArg List.length ht
      simp at this; omega
    split
    · split
      · rename_i inner e h
        have := extract_pos _ _ _ _ _ h
        show content.length - _ < content.length - pos
        omega
      · exact text_advances hM _ _ _ hpos
    · exact text_advances hM _ _ _ hpos

/-- C45: if every part of the parser that accepts a place moves on from it, and every replacement in place is shorter than what it
replaces, the loop ends on every text, within one iteration more than the text has characters. -/
theorem C45_terminates_partial {S} (M : Machine S) (hM : Spec.MovesOn M) (s : S) (content : Str) :
    ∃ s', run M (content.length + 1) s content 0 = some (some s') := by
  have key : ∀ (n : Nat) (s : S) (content : Str) (pos : Nat), left content pos < n → ∃ s', run M n s content pos = some (some s') := by
    intro n
    induction n with
    | zero => intro s content pos h; omega
    | succ n ih =>
      intro s content pos h
      have hadv := stepAt_advances hM s content (pos + ((content.drop pos).takeWhile isSpace).length)
      unfold run step
      split
      · exact ⟨_, rfl⟩
      · rename_i h2; rw [h2] at hadv; exact hadv.elim
      · rename_i s' content' pos' h2
        rw [h2] at hadv
        have : left content' pos' < left content (pos + ((content.drop pos).takeWhile isSpace).length) := hadv
        refine ih s' content' pos' ?_
        unfold left at *
        omega
  exact key _ s content 0 (by unfold left; omega)

/-- A handler that accepts a place without moving on stops the loop there for ever. -/
theorem stuck {S} (M : Machine S) (content : Str) (pos : Nat) (stay : S → S)
    (h : ∀ s, step M s content pos = .next (stay s) content pos) : ∀ (n : Nat) (s : S), run M n s content pos = none
  | 0, _ => rfl
  | n + 1, s => by unfold run; rw [h]; exact stuck M content pos stay h n (stay s)

/-- A step at a delimiter where only a handler accepts. -/
theorem step_at_handler {S} (M : Machine S) (s : S) (content : Str) (pos : Nat) (c : Char) (t : Str) (m : Match)
    (ht : content.drop pos = c :: t) (hc : isSpace c = false) (hb : c ≠ '{') (hm : delimPat.search (c :: t) = some m)
    (hm0 : m.start = 0) (h1 : M.command s (c :: t) = none) (h2 : M.define s (c :: t) = (s, 0)) (h3 : M.ifElse s (c :: t) = none)
    (h4 : M.legacy s (c :: t) = none) : step M s content pos = stepHandlers M s content pos := by
  unfold step
  rw [ht, List.takeWhile_cons, hc]
  simp only [Bool.false_eq_true, if_false, List.length_nil, Nat.add_zero]
  unfold stepAt
  rw [ht]
  simp only [if_neg hb]
  unfold stepText
  rw [ht]
  simp only [hm, hm0, Nat.lt_irrefl, if_false]
  unfold stepCommand
  rw [ht, h1]
  simp only [Option.filter_none, h2, Int.lt_irrefl, if_false]
  unfold stepIfElse
  rw [ht, h3, h4]
  simp only [Option.filter_none]

theorem firstHandler_skip {S} (s : S) (t : Str) (h : S → Str → Option (S × Int)) (hs2 : List (S → Str → Option (S × Int)))
    (r : S × Int) (hr : h s t = some r) : ∀ (hs1 : List (S → Str → Option (S × Int))), (∀ x ∈ hs1, x s t = none) →
      firstHandler s t (hs1 ++ h :: hs2) = some r
  | [], _ => by simp [firstHandler, hr]
  | x :: hs1, hx => by
    simp only [List.cons_append, firstHandler, hx x (by simp)]
    exact firstHandler_skip s t h hs2 r hr hs1 (fun y hy => hx y (by simp [hy]))

def openGroup : Str := "\\bgroup a".toList

/-- Violation: on `\bgroup` without `\egroup` the environment handler accepts the place and does not move on; the loop never
ends. The hypotheses say that nothing before that handler takes the text, as is the case: it is no user command, definition,
conditional, old font command, picture, author, equation, … -/
theorem C45_violated_group {S} (M : Machine S) (store : S → Str → S) (hs1 hs2 : List (S → Str → Option (S × Int)))
    (hh : M.handlers = hs1 ++ groupHandler store :: hs2) (hs1n : ∀ h ∈ hs1, ∀ s, h s openGroup = none)
    (h1 : ∀ s, M.command s openGroup = none) (h2 : ∀ s, M.define s openGroup = (s, 0)) (h3 : ∀ s, M.ifElse s openGroup = none)
    (h4 : ∀ s, M.legacy s openGroup = none) : ∀ (n : Nat) (s : S), run M n s openGroup 0 = none := by
  refine stuck M openGroup 0 id ?_
  intro s
  have hd : (delimPat.search openGroup).map Match.start = some 0 := by decide +kernel
  obtain ⟨m, hm, hs⟩ := Option.map_eq_some_iff.1 hd
  rw [step_at_handler M s openGroup 0 '\\' "bgroup a".toList m rfl (by decide) (by decide) hm hs (h1 s) (h2 s) (h3 s) (h4 s)]
  have hg : groupHandler store s openGroup = some (s, 0) := by
    have e1 : (((Re.seq (.lit "\\bgroup".toList) reWordEnd)).matchAt [] openGroup).isSome = true := by decide +kernel
    have e2 : extractNestedPattern openGroup (Re.seq (.lit "\\bgroup".toList) reWordEnd) (Re.seq (.lit "\\egroup".toList) reWordEnd) = none := by
      decide +kernel
    unfold groupHandler
    simp only
    rw [if_pos e1, e2]
  unfold stepHandlers
  show (match firstHandler s openGroup M.handlers with
    | some (s', e) => move s' openGroup 0 e
    | none => _) = _
  rw [hh, firstHandler_skip s openGroup _ hs2 _ hg hs1 (fun x hx => hs1n x hx s)]
  rfl

def openPicture : Str := "a\\begin{picture}".toList

/-- Violation: on a picture that is not closed its handler returns the end position -1, so the loop goes back by a character,
reads that again, and comes to the picture again, adding a token each time. -/
theorem C45_violated_picture {S} (M : Machine S) (store : S → Str → S) (hs1 hs2 : List (S → Str → Option (S × Int)))
    (hh : M.handlers = hs1 ++ pictureHandler "picture".toList store :: hs2)
    (hs1n : ∀ h ∈ hs1, ∀ s, h s (openPicture.drop 1) = none)
    (h1 : ∀ s, M.command s (openPicture.drop 1) = none) (h2 : ∀ s, M.define s (openPicture.drop 1) = (s, 0))
    (h3 : ∀ s, M.ifElse s (openPicture.drop 1) = none) (h4 : ∀ s, M.legacy s (openPicture.drop 1) = none) :
    ∀ (n : Nat) (s : S), run M n s openPicture 0 = none ∧ run M n s openPicture 1 = none := by
  have step0 : ∀ s, step M s openPicture 0 = .next (M.text s ['a']) openPicture 1 := by
    intro s
    have hd : (delimPat.search openPicture).map Match.start = some 1 := by decide +kernel
    obtain ⟨m, hm, hs⟩ := Option.map_eq_some_iff.1 hd
    show stepText M s openPicture 0 = _
    unfold stepText
    simp only [List.drop_zero, hm, hs, Nat.lt_add_one, if_true]
    rfl
  have step1 : ∀ s, step M s openPicture 1 = .next (store s []) openPicture 0 := by
    intro s
    have hd : (delimPat.search (openPicture.drop 1)).map Match.start = some 0 := by decide +kernel
    obtain ⟨m, hm, hs⟩ := Option.map_eq_some_iff.1 hd
    rw [step_at_handler M s openPicture 1 '\\' "begin{picture}".toList m rfl (by decide) (by decide) hm hs (h1 s) (h2 s) (h3 s) (h4 s)]
    have hg : pictureHandler "picture".toList store s (openPicture.drop 1) = some (store s [], -1) := by
      have e1 : ((beginRe "picture".toList).matchAt [] (openPicture.drop 1)).isSome = true := by decide +kernel
      have e2 : findMatchingEnvBlock (openPicture.drop 1) "picture".toList 0 = none := by decide +kernel
      obtain ⟨m', hm'⟩ := Option.isSome_iff_exists.1 e1
      unfold pictureHandler
      rw [hm', e2]
    unfold stepHandlers
    rw [hh, firstHandler_skip s _ _ hs2 _ hg hs1 (fun x hx => hs1n x hx s)]
    rfl
  intro n
  induction n with
  | zero => intro s; exact ⟨rfl, rfl⟩
  | succ n ih =>
    intro s
    constructor
    · unfold run; rw [step0]; exact (ih _).2
    · unfold run; rw [step1]; exact (ih _).1

/-- A machine that counts what it sees, to show the hypotheses can be met. -/
def counter (hs : List (Nat → Str → Option (Nat × Int))) : Machine Nat where
  text := fun n _ => n + 1
  group := fun n _ => n + 1
  command := fun _ _ => none
  define := fun n _ => (n, 0)
  ifElse := fun _ _ => none
  legacy := fun _ _ => none
  handlers := hs
  patterns := fun _ _ => none
  unknown := fun n t => if t.length < 2 then none else some (n + 1, 2)
  char := fun n _ => n + 1

example : run (counter []) 30 0 "a {b} $c \\x".toList 0 = some (some 4) := by decide +kernel

example : Spec.MovesOn (counter []) where
  handlers := fun _ h => by cases h
  patterns := fun _ _ _ _ h => by cases h
  unknown := fun _ t _ e h => by
    unfold counter at h
    simp only at h
    split at h
    · cases h
    · injection h with h; injection h with _ h; omega
  command := fun _ _ _ _ h => by cases h
  ifElse := fun _ _ _ _ _ h => by cases h
  legacy := fun _ _ _ _ h => by cases h

example : ∀ (n : Nat) (s : Nat), run (counter [groupHandler fun s _ => s]) n s openGroup 0 = none :=
  C45_violated_group (counter [groupHandler fun s _ => s]) (fun s _ => s) [] [] rfl (fun _ h => by cases h) (fun _ => rfl)
    (fun _ => rfl) (fun _ => rfl) (fun _ => rfl)

end L2J.Loop
