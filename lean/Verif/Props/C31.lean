import Verif.Model.State
/-! C31: documents do not leak state into each other. -/
namespace L2J.State

variable {V Doc Out : Type}

/-- Every attribute is reset by `clear`, or falls back on its class. -/
theorem cleared_or_class (f : Field) : cleared.contains f = true ∨ f.classAttr.isSome = true := by
  cases f with
  | commands o => cases o <;> decide
  | lets o => cases o <;> decide
  | keys o => cases o <;> decide
  | cmUnknown o => cases o <;> decide
  | ifs o => cases o <;> decide
  | _ => decide

/-- A state of a reader that has none of its own where `clear` does not give it one. -/
def Tidy (s : St V) : Prop := ∀ f, cleared.contains f = false → s.own f = none

theorem fresh_tidy (M : Machine V Doc Out) (cls : ClassAttr → V) : Tidy (M.fresh cls) := by
  intro f hf
  have : f.classAttr.isSome = true := (cleared_or_class f).resolve_left (by rw [hf]; simp)
  simp only [Machine.fresh, this, if_true]

theorem clear_tidy (M : Machine V Doc Out) {s : St V} (h : Tidy s) : Tidy (M.clear s) := by
  intro f hf
  simp only [Machine.clear, hf]
  exact h f hf

theorem run_tidy (M : Machine V Doc Out) (d : Doc) {s : St V} (h : Tidy s) : Tidy (M.run d s).2 := by
  intro f hf
  have h1 := M.shape d s f
  rw [h f hf] at h1
  cases hx : (M.run d s).2.own f with
  | none => rfl
  | some v => rw [hx] at h1; cases h1

theorem process_tidy (M : Machine V Doc Out) (d : Doc) {s : St V} (h : Tidy s) : Tidy (M.process s d).2 := by
  unfold Machine.process
  simp only
  have h2 := run_tidy M d (clear_tidy M h)
  split
  · split
    · rename_i hr; rw [hr] at h2; exact clear_tidy M h2
    · rename_i hr; rw [hr] at h2; exact h2
  · exact clear_tidy M h

theorem after_tidy (M : Machine V Doc Out) : ∀ (ds : List Doc) (s : St V), Tidy s → Tidy (M.after s ds)
  | [], _, h => h
  | d :: ds, _, h => after_tidy M ds _ (process_tidy M d h)

/-- A tidy state after `clear` depends on the classes only. -/
theorem clear_eq (M : Machine V Doc Out) {s t : St V} (hs : Tidy s) (ht : Tidy t) (hc : s.cls = t.cls) : M.clear s = M.clear t := by
  unfold Machine.clear
  have : (fun f => if cleared.contains f then some (M.initial f) else s.own f) =
      fun f => if cleared.contains f then some (M.initial f) else t.own f := by
    funext f
    cases hf : cleared.contains f with
    | true => rfl
    | false => simp only [Bool.false_eq_true, if_false, hs f hf, ht f hf]
  rw [this, hc]

theorem process_eq (M : Machine V Doc Out) {s t : St V} (hs : Tidy s) (ht : Tidy t) (hc : s.cls = t.cls) (d : Doc) :
    M.process s d = M.process t d := by
  unfold Machine.process
  rw [clear_eq M hs ht hc]

/-- C31, within a process: a reader that has processed any documents, successfully or not, gives the same result for the next one as a
new reader made at that moment, and leaves the same state behind. -/
theorem C31_new_reader (M : Machine V Doc Out) (cls : ClassAttr → V) (ds : List Doc) (d : Doc) :
    M.process (M.after (M.fresh cls) ds) d = M.process (M.fresh (M.after (M.fresh cls) ds).cls) d :=
  process_eq M (after_tidy M ds _ (fresh_tidy M cls)) (fresh_tidy M _) rfl d

theorem process_cls (M : Machine V Doc Out) (s : St V) (d : Doc) (c : ClassAttr)
    (h : ∀ f, f.classAttr = some c → cleared.contains f = true) : (M.process s d).2.cls c = s.cls c := by
  have h1 : (M.run d (M.clear s)).2.cls c = s.cls c := by
    refine M.through d (M.clear s) c (fun f hf => ?_)
    simp only [Machine.clear, h f hf, if_true]
    rfl
  unfold Machine.process
  simp only
  split
  · split
    · rename_i hr; rw [hr] at h1; exact h1
    · rename_i hr; rw [hr] at h1; exact h1
  · rfl

/-- C31: a class attribute all of whose objects are reset by `clear` is never changed. This is so for `last_thanks_token`, and not for
the others (`C31_channels`). -/
theorem C31_thanks (M : Machine V Doc Out) (ds : List Doc) : ∀ s, (M.after s ds).cls .thanks = s.cls .thanks := by
  induction ds with
  | nil => intro s; rfl
  | cons d ds ih =>
    intro s
    show (M.after (M.process s d).2 ds).cls .thanks = _
    rw [ih, process_cls M s d .thanks (by intro f hf; cases f <;> first | decide | cases hf)]

/-- The attributes that `clear` leaves alone: those of the preprocessor's equation handler and the aliases of the parser's. -/
theorem C31_channels (f : Field) : cleared.contains f = false ↔
    f = .eqCitealias ∨ f = .preCitealias ∨ f = .preBoxSaved ∨ f = .preBoxNumbered := by
  cases f with
  | commands o => cases o <;> decide
  | lets o => cases o <;> decide
  | keys o => cases o <;> decide
  | cmUnknown o => cases o <;> decide
  | ifs o => cases o <;> decide
  | _ => decide

theorem after_cls (M : Machine V Doc Out) : ∀ (ds : List Doc) (s : St V),
    (∀ d ∈ ds, ∀ s, (M.run d s).2.cls = s.cls) → (M.after s ds).cls = s.cls
  | [], s, _ => rfl
  | d :: ds, s, h => by
    show (M.after (M.process s d).2 ds).cls = _
    rw [after_cls M ds _ (fun d hd => h d (by simp [hd]))]
    have h1 := h d (by simp) (M.clear s)
    unfold Machine.process
    simp only
    split
    · split
      · rename_i hr; rw [hr] at h1; exact h1
      · rename_i hr; rw [hr] at h1; exact h1
    · rfl

/-- C31, across processes: if the documents processed before left the class attributes alone (no `\defcitealias`, `\sbox` and the like
within an equation), the result is that of a reader in a new process, and the state left behind too.
Partial: without the hypothesis this fails, see `C31_violated`. -/
theorem C31_new_process_partial (M : Machine V Doc Out) (ds : List Doc) (d : Doc)
    (h : ∀ d ∈ ds, ∀ s, (M.run d s).2.cls = s.cls) : M.process (M.after M.start ds) d = M.process M.start d :=
  process_eq M (after_tidy M ds _ (fresh_tidy M _)) (fresh_tidy M _) (after_cls M ds _ h) d

/-- The hypothesis is met by documents without aliases, in the concrete machine. -/
example : (equationMachine.process (equationMachine.after equationMachine.start ["x^2".toList, "y".toList]) "\\citetalias{k}".toList).1.map
    Except.toOption = some (some [("k".toList, none)]) := by decide +kernel

/-- Violation: the alias defined within an equation of one document is used in another document, processed later by the same reader or
by any other of the process. In a new process there is no title. -/
theorem C31_violated :
    (equationMachine.process (equationMachine.after equationMachine.start ["\\defcitealias{k}{Paper I}".toList]) "\\citetalias{k}".toList).1.map
      Except.toOption = some (some [("k".toList, some "Paper I".toList)]) ∧
    (equationMachine.process equationMachine.start "\\citetalias{k}".toList).1.map Except.toOption = some (some [("k".toList, none)]) := by
  constructor <;> decide +kernel

end L2J.State
