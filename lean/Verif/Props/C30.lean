import Verif.Props.C28
/-! C30: how failures surface. -/
namespace L2J.Reader
open L2J.Spec

variable {Tok Out Col : Type} (env : Env Tok Out Col)

/-- No operation raises something that is not an `Exception`. -/
structure _root_.L2J.Spec.NoBase (env : Env Tok Out Col) : Prop where
  mkdtemp : ∀ n, env.mkdtemp ≠ .error (.base n)
  unzip : ∀ n, env.unzip ≠ .error (.base n)
  untar : ∀ n, env.untar ≠ .error (.base n)
  gunzip : ∀ n, env.gunzip ≠ .error (.base n)
  tempMain : ∀ n, env.tempMain ≠ .error (.base n)
  folderMain : ∀ n, env.folderMain ≠ .error (.base n)
  rmtree : ∀ n, env.rmtree ≠ .error (.base n)
  read : ∀ p n, env.read p ≠ .error (.base n)
  parse : ∀ p n, env.parse p ≠ .error (.base n)
  build : ∀ p n, env.build p ≠ .error (.base n)

/-- The documented exceptions. -/
def _root_.L2J.Spec.Documented (e : PyExn) : Prop := e = .fileNotFound ∨ e = .texProcessing

theorem outer_documented {e : PyExn} (h : e.isException = true) : Documented (outer e) := by
  unfold outer Documented
  split
  · next he => exact .inl he
  · simp

theorem exception_of_ne {α : Type} {x : Except PyExn α} (h : ∀ n, x ≠ .error (.base n)) {e : PyExn} (he : x = .error e) :
    e.isException = true := by
  cases e with
  | base n => exact absurd he (h n)
  | _ => rfl

theorem documented_exception {e : PyExn} (h : Documented e) : e.isException = true := by
  rcases h with rfl | rfl <;> rfl

theorem parseFile_total (hb : NoBase env) (p : Str) : ∃ ts, parseFile env p = .ok ts := by
  unfold parseFile
  cases h : env.read p with
  | error e => simp [exception_of_ne (hb.read p) h]
  | ok s =>
    simp only []
    cases h2 : env.parse s with
    | error e => simp [exception_of_ne (hb.parse s) h2]
    | ok ts => exact ⟨ts, rfl⟩

theorem processFileOut_documented (hb : NoBase env) (p : Str) {e : PyExn} (h : processFileOut env p = .error e) :
    Documented e := by
  unfold processFileOut at h
  cases hx : env.fileExists p with
  | false => simp [hx] at h; subst h; exact .inl rfl
  | true =>
    obtain ⟨ts, ht⟩ := parseFile_total env hb p
    simp only [hx, if_true, ht] at h
    cases hbd : env.build ts with
    | error e' =>
      simp only [hbd, Except.error.injEq] at h; subst h
      exact outer_documented (exception_of_ne (hb.build ts) hbd)
    | ok o => simp [hbd] at h

theorem extractBody_exception (hb : NoBase env) (path : Str) {e : PyExn} (h : extractBody env path = .error e) :
    e.isException = true := by
  have hu : ∀ e, (if endsWith path ".gz".toList then
      match env.gunzip with
      | .ok true => .ok "main.tex".toList
      | .ok false => .error .io
      | .error e => if e.isException then .error .io else .error e
    else (.error .value : Except PyExn Str)) = .error e → e.isException = true := by
    intro e he
    split at he
    · cases hg : env.gunzip with
      | ok b => cases b <;> simp [hg] at he; subst he; rfl
      | error e' => simp [hg, exception_of_ne hb.gunzip hg] at he; subst he; rfl
    · simp at he; subst he; rfl
  unfold extractBody at h
  simp only [] at h
  split at h
  · cases hz : env.unzip with
    | ok _ => rw [hz] at h; exact exception_of_ne hb.tempMain h
    | error e' => simp only [hz, Except.error.injEq] at h; subst h; exact exception_of_ne hb.unzip hz
  · split at h
    · cases hz : env.untar with
      | ok _ =>
        simp only [hz] at h
        cases ht : env.tempMain with
        | ok m => simp [ht] at h
        | error e' =>
          rw [ht] at h
          cases e' <;> simp only [Except.error.injEq] at h <;>
            first | exact hu e h | (subst h; exact exception_of_ne hb.tempMain ht)
      | error e' =>
        rw [hz] at h
        cases e' <;> simp only [Except.error.injEq] at h <;>
          first | exact hu e h | (subst h; exact exception_of_ne hb.untar hz)
    · exact hu e h

/-- C30: whatever step fails, the exception that leaves `process` is `FileNotFoundError` or `TexProcessingError`. -/
theorem C30_documented (hb : NoBase env) (path : Str) (cleanup : Bool) (w w' : World) (hw : World.WF w) (e : PyExn)
    (h : process env path cleanup w = (.error e, w')) : Documented e := by
  cases hx : env.fileExists path with
  | false =>
    unfold process at h
    rw [bind_error (w' := w) (e := .fileNotFound) (by simp [verifyExists, M.lift, hx])] at h
    simp only [Prod.mk.injEq, Except.error.injEq] at h
    exact .inl h.1.symm
  | true =>
    by_cases ha : env.isDir path = false ∧
        [".gz".toList, ".tar.gz".toList, ".tgz".toList, ".zip".toList].contains (suffix path) = true
    · rw [process_archive env path cleanup w hx ha.1 ha.2] at h
      cases hp : processCompressed env path false w with
      | mk r1 w1 =>
        cases r1 with
        | error e1 =>
          simp only [hp, Prod.mk.injEq, Except.error.injEq] at h
          rw [← h.1]
          refine outer_documented ?_
          rw [compressed_eq env path false w hw] at hp
          simp only [hx, if_true, Bool.false_eq_true, if_false] at hp
          have hwrap : ∀ (x : Except PyExn (Result Out Col)), (∀ e, x = .error e → e.isException = true) →
              wrapRuntime x = .error e1 → e1.isException = true := by
            intro x hx hw
            cases x with
            | ok a => simp [wrapRuntime] at hw
            | error e => simp [wrapRuntime, hx e rfl] at hw; subst hw; rfl
          cases hm : env.mkdtemp with
          | error e2 =>
            simp only [hm, Prod.mk.injEq] at hp
            exact hwrap _ (fun e he => by cases he; exact exception_of_ne hb.mkdtemp hm) hp.1
          | ok _ =>
            simp only [hm, Prod.mk.injEq] at hp
            refine hwrap _ (fun e he => ?_) hp.1
            unfold insideOut at he
            cases hxb : extractBody env path with
            | error e3 => simp only [hxb, Except.error.injEq] at he; subst he; exact extractBody_exception env hb path hxb
            | ok main =>
              simp only [hxb] at he
              cases hpf : processFileOut env main with
              | error e3 =>
                simp only [hpf, Except.error.injEq] at he; subst he
                exact documented_exception (processFileOut_documented env hb main hpf)
              | ok r => simp [hpf] at he
        | ok r1 =>
          obtain ⟨ht, hw1⟩ := compressed_ok env path false w w1 hw r1 hp
          cases cleanup with
          | false => simp [hp] at h
          | true =>
            simp only [Bool.false_eq_true, if_false] at hw1
            subst hw1
            simp only [hp, if_true, cleanupResult, ht, M.bind, rmtree, List.contains_cons, BEq.rfl, Bool.true_or] at h
            cases hr : env.rmtree with
            | error e2 =>
              simp only [hr, Prod.mk.injEq, Except.error.injEq] at h
              rw [← h.1]
              exact outer_documented (exception_of_ne hb.rmtree hr)
            | ok _ => simp [hr, M.pure] at h
    · rw [process_other env path cleanup w (by
        cases hd : env.isDir path with
        | true => exact .inl rfl
        | false =>
          right
          cases hc : [".gz".toList, ".tar.gz".toList, ".tgz".toList, ".zip".toList].contains (suffix path) with
          | false => rfl
          | true => exact absurd ⟨hd, hc⟩ ha)] at h
      simp only [hx, if_true, Prod.mk.injEq] at h
      have hfo : ∀ e, processFolderOut env path = .error e → Documented e := by
        intro e he
        unfold processFolderOut at he
        simp only [hx, if_true] at he
        cases hm : env.folderMain with
        | error e2 =>
          simp only [hm, Except.error.injEq] at he; subst he
          exact outer_documented (exception_of_ne hb.folderMain hm)
        | ok main =>
          simp only [hm] at he
          cases hpf : processFileOut env (pathJoin path main) with
          | error e3 =>
            simp only [hpf, Except.error.injEq] at he; subst he
            exact outer_documented (documented_exception (processFileOut_documented env hb _ hpf))
          | ok r => simp [hpf] at he
      have hall : ∀ x : Except PyExn (Result Out Col), (∀ e, x = .error e → Documented e) →
          (match x with | .error e => .error (outer e) | .ok r => .ok r : Except PyExn (Result Out Col)) = .error e → Documented e := by
        intro x hx he
        cases x with
        | ok r => simp at he
        | error e2 =>
          simp only [Except.error.injEq] at he; subst he
          exact outer_documented (documented_exception (hx e2 rfl))
      refine hall _ (fun e he => ?_) h.1
      split at he
      · exact hfo e he
      · exact processFileOut_documented env hb path he

/-- C30: a missing input raises `FileNotFoundError` and has no effect. -/
theorem C30_missing_input (path : Str) (cleanup : Bool) (w : World) (hx : env.fileExists path = false) :
    process env path cleanup w = (.error .fileNotFound, w) := by
  unfold process
  rw [bind_error (w' := w) (e := .fileNotFound) (by simp [verifyExists, M.lift, hx])]

/-- C30: a failure while building the document, or anything that goes wrong with an archive, never yields a result; for
an archive the exception is always `TexProcessingError`. -/
theorem C30_archive_failure (hb : NoBase env) (path : Str) (cleanup : Bool) (w : World) (hw : World.WF w)
    (hx : env.fileExists path = true) (hd : env.isDir path = false)
    (hs : [".gz".toList, ".tar.gz".toList, ".tgz".toList, ".zip".toList].contains (suffix path) = true)
    (e : PyExn) (hf : (processCompressed env path false w).1 = .error e) :
    (process env path cleanup w).1 = .error .texProcessing := by
  rw [process_archive env path cleanup w hx hd hs]
  have hdoc := C30_documented env hb path cleanup w
  cases hp : processCompressed env path false w with
  | mk r1 w1 =>
    rw [hp] at hf
    simp only at hf
    subst hf
    simp only []
    rw [compressed_eq env path false w hw] at hp
    simp only [hx, if_true, Bool.false_eq_true, if_false] at hp
    have hwr : ∀ (x : Except PyExn (Result Out Col)), wrapRuntime x = .error e →
        (outer e = .texProcessing ∨ e.isException = false) := by
      intro x hh
      cases x with
      | ok a => simp [wrapRuntime] at hh
      | error e' =>
        simp only [wrapRuntime, Except.error.injEq] at hh
        cases he' : e'.isException with
        | true => simp only [he', if_true] at hh; subst hh; exact .inl rfl
        | false => simp [he'] at hh; subst hh; exact .inr he'
    have hex : outer e = .texProcessing ∨ e.isException = false := by
      cases hm : env.mkdtemp with
      | error e2 => simp only [hm, Prod.mk.injEq] at hp; exact hwr _ hp.1
      | ok _ => simp only [hm, Prod.mk.injEq] at hp; exact hwr _ hp.1
    rcases hex with h | h
    · rw [h]
    · exfalso
      have := hdoc w1 hw (outer e) (by
        rw [process_archive env path cleanup w hx hd hs, compressed_eq env path false w hw]
        simp only [hx, if_true, Bool.false_eq_true, if_false]
        rw [hp])
      have h2 := documented_exception this
      unfold outer at h2
      split at h2
      · next he => subst he; cases h
      · rw [h] at h2; simp [h] at h2

/-- C30 (partial): a result returned for a file is built from what the parser returned. Missing: that the parser did not
fail, which is false (below). -/
theorem C30_result_partial (path : Str) (w w' : World) (r : Result Out Col)
    (h : processFile env path w = (.ok r, w')) :
    env.fileExists path = true ∧ ∃ ts, parseFile env path = .ok ts ∧ env.build ts = .ok r.tokens := by
  rw [processFile_eq] at h
  simp only [Prod.mk.injEq] at h
  have h := h.1
  unfold processFileOut at h
  cases hx : env.fileExists path with
  | false => simp [hx] at h
  | true =>
    refine ⟨rfl, ?_⟩
    simp only [hx, if_true] at h
    cases hp : parseFile env path with
    | error e => simp [hp] at h
    | ok ts =>
      simp only [hp] at h
      cases hbd : env.build ts with
      | error e => simp [hbd] at h
      | ok o => simp only [hbd, Except.ok.injEq] at h; subst h; exact ⟨ts, rfl, hbd⟩

/-- C30 violated: if reading or parsing a document raises any `Exception`, `process_file` still returns a result: the one
for an empty document. -/
theorem C30_violated_parse_failure (path : Str) (w : World) (hx : env.fileExists path = true) (o : List Out)
    (ho : env.build [] = .ok o) (e : PyExn) (he : e.isException = true)
    (hf : env.read path = .error e ∨ ∃ s, env.read path = .ok s ∧ env.parse s = .error e) :
    processFile env path w = (.ok ⟨o, env.colors, path, none⟩, w) := by
  rw [processFile_eq]
  have : parseFile env path = .ok [] := by
    unfold parseFile
    rcases hf with h | ⟨s, h, hp⟩
    · simp [h, he]
    · simp [h, hp, he]
  simp [processFileOut, hx, this, ho]

/- Non-vacuity (tests). -/
example : NoBase exampleEnv := by constructor <;> (intros; simp [exampleEnv])
example : (process { exampleEnv with parse := fun _ => .error (.other 7) } "a.tex".toList true ⟨[], 0⟩) =
    (.ok ⟨[], (), "a.tex".toList, none⟩, ⟨[], 0⟩) := by decide +kernel
example : (process { exampleEnv with build := fun _ => (.error (.other 7) : Except PyExn (List Char)) } "a.tex".toList true ⟨[], 0⟩) =
    (.error .texProcessing, ⟨[], 0⟩) := by decide +kernel
example : (process { exampleEnv with folderMain := .error .fileNotFound } "d".toList true ⟨[], 0⟩) =
    (.error .fileNotFound, ⟨[], 0⟩) := by decide +kernel

end L2J.Reader
