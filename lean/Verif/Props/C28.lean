import Verif.Model.Reader
/-! C28: temporary directories; C30 uses the same model. -/
namespace L2J.Reader

variable {Tok Out Col : Type} (env : Env Tok Out Col)

/-- The invariant of the world: the next directory is a new one. -/
def _root_.L2J.Spec.World.WF (w : World) : Prop := ∀ d ∈ w.temps, d < w.next

open L2J.Spec

theorem filter_fresh {w : World} (hw : World.WF w) : (w.next :: w.temps).filter (· != w.next) = w.temps := by
  rw [List.filter_cons_of_neg (by simp), List.filter_eq_self]
  intro d hd
  have := hw d hd
  simp; omega

theorem bind_ok {α β : Type} {m : M α} {f : α → M β} {w w' : World} {a : α} (h : m w = (.ok a, w')) :
    M.bind m f w = f a w' := by simp [M.bind, h]

theorem bind_error {α β : Type} {m : M α} {f : α → M β} {w w' : World} {e : PyExn} (h : m w = (.error e, w')) :
    M.bind m f w = (.error e, w') := by simp [M.bind, h]

theorem finally_eq {α : Type} {m : M α} {f : M Unit} {w w' : World} {r : Except PyExn α} (h : m w = (r, w')) :
    M.finally m f w = match f w' with
      | (.ok _, w'') => (r, w'')
      | (.error e, w'') => (.error e, w'') := by
  unfold M.finally; rw [h]
  simp only []
  cases f w' with
  | mk r2 w2 => cases r2 <;> rfl

/-- The exception that `_handle_file_operation` lets out. -/
def outer (e : PyExn) : PyExn := if e = .fileNotFound then e else if e.isException then .texProcessing else e

/-- The outcome of `process_file`; it does not touch temporary directories. -/
def processFileOut (p : Str) : Except PyExn (Result Out Col) :=
  if env.fileExists p then
    match parseFile env p with
    | .error e => .error (outer e)
    | .ok ts => match env.build ts with
      | .error e => .error (outer e)
      | .ok o => .ok ⟨o, env.colors, p, none⟩
  else .error .fileNotFound

theorem processFile_eq (p : Str) (w : World) : processFile env p w = (processFileOut env p, w) := by
  unfold processFile processFileOut verifyExists handleFileOperation M.bind M.lift M.pure outer
  cases env.fileExists p
  · simp
  · cases parseFile env p with
    | error e => simp
    | ok ts => 
      simp only [if_true]
      cases env.build ts <;> simp

/-- The outcome of `process_folder`. -/
def processFolderOut (p : Str) : Except PyExn (Result Out Col) :=
  if env.fileExists p then
    match env.folderMain with
    | .error e => .error (outer e)
    | .ok main => match processFileOut env (pathJoin p main) with
      | .error e => .error (outer e)
      | .ok r => .ok r
  else .error .fileNotFound

theorem processFolder_eq (p : Str) (w : World) : processFolder env p w = (processFolderOut env p, w) := by
  unfold processFolder processFolderOut verifyExists handleFileOperation M.bind M.lift
  cases env.fileExists p
  · simp
  · cases env.folderMain with
    | error e => simp [outer]
    | ok main =>
      simp only [if_true, processFile_eq]
      cases processFileOut env (pathJoin p main) <;> simp [outer]

/-- What happens between the creation and the removal of the temporary directory `d`. -/
def insideOut (path : Str) (d : Nat) : Except PyExn (Result Out Col) :=
  match extractBody env path with
  | .error e => .error e
  | .ok main => match processFileOut env main with
    | .error e => .error e
    | .ok r => .ok { r with tempDir := some d }

/-- The exception that `process_compressed` lets out. -/
def wrapRuntime {α : Type} : Except PyExn α → Except PyExn α
  | .ok a => .ok a
  | .error e => .error (if e.isException then .runtime else e)

/-- `process_compressed` step by step. -/
theorem compressed_eq (path : Str) (cleanup : Bool) (w : World) (hw : World.WF w) :
    processCompressed env path cleanup w =
      if env.fileExists path then
        match env.mkdtemp with
        | .error e => (wrapRuntime (.error e), w)
        | .ok _ =>
          if cleanup then
            match env.rmtree with
            | .ok _ => (wrapRuntime (insideOut env path w.next), { w with next := w.next + 1 })
            | .error e => (wrapRuntime (.error e), ⟨w.next :: w.temps, w.next + 1⟩)
          else (wrapRuntime (insideOut env path w.next), ⟨w.next :: w.temps, w.next + 1⟩)
      else (.error .fileNotFound, w) := by
  unfold processCompressed
  cases env.fileExists path with
  | false => rfl
  | true =>
    simp only [if_true]
    unfold withCompressed
    cases hm : env.mkdtemp with
    | error e => rw [bind_error (w' := w) (e := e) (by simp [mkdtemp, hm])]; rfl
    | ok u =>
      rw [bind_ok (a := w.next) (w' := ⟨w.next :: w.temps, w.next + 1⟩) (by simp [mkdtemp, hm])]
      have hin : ∀ w' : World, (M.bind (M.lift (extractBody env path)) fun main =>
          M.bind (processFile env main) fun r => M.pure { r with tempDir := some w.next }) w' =
          (insideOut env path w.next, w') := by
        intro w'
        unfold insideOut M.bind M.lift M.pure
        cases extractBody env path with
        | error e => rfl
        | ok main =>
          simp only [processFile_eq]
          cases processFileOut env main <;> rfl
      rw [finally_eq (hin _)]
      cases cleanup with
      | false =>
        simp only [Bool.false_eq_true, if_false, M.pure]
        cases insideOut env path w.next <;> rfl
      | true =>
        simp only [if_true, rmtree, List.contains_cons, BEq.rfl, Bool.true_or, filter_fresh hw]
        cases env.rmtree with
        | error e => rfl
        | ok _ => cases insideOut env path w.next <;> rfl

/-- `process` step by step, for an archive. -/
theorem process_archive (path : Str) (cleanup : Bool) (w : World) (hx : env.fileExists path = true)
    (hd : env.isDir path = false)
    (hs : [".gz".toList, ".tar.gz".toList, ".tgz".toList, ".zip".toList].contains (suffix path) = true) :
    process env path cleanup w =
      match processCompressed env path false w with
      | (.error e, w') => (.error (outer e), w')
      | (.ok r, w') => if cleanup then
          match cleanupResult env r w' with
          | (.error e, w'') => (.error (outer e), w'')
          | (.ok r', w'') => (.ok r', w'')
        else (.ok r, w') := by
  unfold process
  rw [bind_ok (a := ()) (w' := w) (by simp [verifyExists, M.lift, hx])]
  simp only [hd, Bool.false_eq_true, if_false, hs, if_true]
  unfold handleFileOperation
  cases hp : processCompressed env path false w with
  | mk r w' =>
    cases r with
    | error e => rw [bind_error hp]; rfl
    | ok r =>
      rw [bind_ok hp]
      cases cleanup with
      | false => rfl
      | true =>
        simp only [if_true]
        cases hc : cleanupResult env r w' with
        | mk r2 w2 => cases r2 <;> rfl

/-- `process` step by step, for a folder or a single file. -/
theorem process_other (path : Str) (cleanup : Bool) (w : World)
    (h : env.isDir path = true ∨
      [".gz".toList, ".tar.gz".toList, ".tgz".toList, ".zip".toList].contains (suffix path) = false) :
    process env path cleanup w =
      (if env.fileExists path then
        (match (if env.isDir path then processFolderOut env path else processFileOut env path) with
        | .error e => .error (outer e)
        | .ok r => .ok r)
      else .error .fileNotFound, w) := by
  unfold process
  cases hx : env.fileExists path with
  | false => rw [bind_error (w' := w) (e := .fileNotFound) (by simp [verifyExists, M.lift, hx])]; rfl
  | true =>
    rw [bind_ok (a := ()) (w' := w) (by simp [verifyExists, M.lift, hx])]
    simp only [if_true]
    unfold handleFileOperation
    cases hd : env.isDir path with
    | true =>
      simp only [if_true, processFolder_eq]
      cases processFolderOut env path <;> rfl
    | false =>
      have h : [".gz".toList, ".tar.gz".toList, ".tgz".toList, ".zip".toList].contains (suffix path) = false := by
        rcases h with h | h
        · rw [hd] at h; cases h
        · exact h
      simp only [h, Bool.false_eq_true, if_false, processFile_eq]
      cases processFileOut env path <;> rfl

/-- C28: with cleanup, `process_compressed` leaves no temporary directory behind, whether it succeeds or fails and
whatever fails (unless deleting the directory fails). -/
theorem C28_compressed_cleanup (path : Str) (w : World) (hw : World.WF w) (hr : env.rmtree = .ok ()) :
    (processCompressed env path true w).2.temps = w.temps := by
  rw [compressed_eq env path true w hw]
  cases env.fileExists path <;> cases env.mkdtemp <;> simp [hr]

/-- What a successful run of `process_compressed` returns. -/
theorem compressed_ok (path : Str) (cleanup : Bool) (w w' : World) (hw : World.WF w) (r : Result Out Col)
    (h : processCompressed env path cleanup w = (.ok r, w')) :
    r.tempDir = some w.next ∧
      w' = if cleanup then { w with next := w.next + 1 } else ⟨w.next :: w.temps, w.next + 1⟩ := by
  have hin : ∀ r, wrapRuntime (insideOut env path w.next) = .ok r → r.tempDir = some w.next := by
    intro r hr
    unfold insideOut at hr
    cases hb : extractBody env path with
    | error e => simp [hb, wrapRuntime] at hr
    | ok main =>
      cases hp : processFileOut env main with
      | error e => simp [hb, hp, wrapRuntime] at hr
      | ok r0 => simp [hb, hp, wrapRuntime] at hr; subst hr; rfl
  rw [compressed_eq env path cleanup w hw] at h
  cases hx : env.fileExists path with
  | false => simp [hx] at h
  | true =>
    cases hm : env.mkdtemp with
    | error e => simp [hx, hm, wrapRuntime] at h
    | ok u =>
      simp only [hx, hm, if_true] at h
      cases cleanup with
      | false =>
        simp only [Bool.false_eq_true, if_false, Prod.mk.injEq] at h
        exact ⟨hin r h.1, h.2.symm⟩
      | true =>
        simp only [if_true] at h
        cases hr : env.rmtree with
        | error e => simp [hr, wrapRuntime] at h
        | ok _ =>
          simp only [hr, Prod.mk.injEq] at h
          exact ⟨hin r h.1, h.2.symm⟩

/-- C28: without cleanup the returned directory exists, and the caller's `cleanup()` removes it and nothing else. -/
theorem C28_caller_cleanup (path : Str) (w w' : World) (hw : World.WF w) (r : Result Out Col)
    (h : processCompressed env path false w = (.ok r, w')) (hr : env.rmtree = .ok ()) :
    (∃ d, r.tempDir = some d ∧ d ∈ w'.temps) ∧
      (cleanupResult env r w').1 = .ok { r with tempDir := none } ∧ (cleanupResult env r w').2.temps = w.temps := by
  obtain ⟨ht, hw'⟩ := compressed_ok env path false w w' hw r h
  simp only [Bool.false_eq_true, if_false] at hw'
  subst hw'
  refine ⟨⟨_, ht, by simp⟩, ?_⟩
  unfold cleanupResult
  simp only [ht, M.bind, rmtree, List.contains_cons, BEq.rfl, Bool.true_or, if_true, hr, M.pure, filter_fresh hw, true_and]

/-- C28: `process` with cleanup leaves nothing behind when it succeeds. -/
theorem C28_process_success (path : Str) (w w' : World) (hw : World.WF w) (r : Result Out Col)
    (h : process env path true w = (.ok r, w')) : w'.temps = w.temps := by
  cases hx : env.fileExists path with
  | false =>
    unfold process M.bind verifyExists M.lift at h
    simp [hx] at h
  | true =>
    by_cases ha : env.isDir path = false ∧
        [".gz".toList, ".tar.gz".toList, ".tgz".toList, ".zip".toList].contains (suffix path) = true
    · rw [process_archive env path true w hx ha.1 ha.2] at h
      cases hp : processCompressed env path false w with
      | mk r1 w1 =>
        cases r1 with
        | error e => simp [hp] at h
        | ok r1 =>
          obtain ⟨ht, hw1⟩ := compressed_ok env path false w w1 hw r1 hp
          simp only [Bool.false_eq_true, if_false] at hw1
          subst hw1
          simp only [hp, if_true, cleanupResult, ht, M.bind, rmtree, List.contains_cons, BEq.rfl, Bool.true_or,
            filter_fresh hw] at h
          cases hr : env.rmtree with
          | error e => simp [hr] at h
          | ok _ => simp only [hr, M.pure, Prod.mk.injEq] at h; rw [← h.2]
    · rw [process_other env path true w (by
        cases hd : env.isDir path with
        | true => exact .inl rfl
        | false =>
          right
          cases hc : [".gz".toList, ".tar.gz".toList, ".tgz".toList, ".zip".toList].contains (suffix path) with
          | false => rfl
          | true => exact absurd ⟨hd, hc⟩ ha)] at h
      rw [← (Prod.mk.inj h).2]

/-- C28 violated: `process` with cleanup leaves the temporary directory of an archive behind whenever a step after its
creation fails: `process_compressed` is called without cleanup and `cleanup()` only runs on success. -/
theorem C28_violated_process_failure (path : Str) (w : World) (hw : World.WF w) (hx : env.fileExists path = true)
    (hd : env.isDir path = false)
    (hs : [".gz".toList, ".tar.gz".toList, ".tgz".toList, ".zip".toList].contains (suffix path) = true)
    (hm : env.mkdtemp = .ok ()) (e : PyExn) (hf : (processCompressed env path false w).1 = .error e) :
    (process env path true w).1.isOk = false ∧ (process env path true w).2.temps = w.next :: w.temps := by
  rw [process_archive env path true w hx hd hs]
  rw [compressed_eq env path false w hw] at hf ⊢
  simp only [hx, hm, if_true, Bool.false_eq_true, if_false] at hf ⊢
  rw [hf]
  exact ⟨rfl, rfl⟩

/-- It fails if the archive cannot be extracted, has no main file, or processing that file fails. -/
theorem C28_failure_points (path : Str) (w : World) (hw : World.WF w)
    (h : (∃ e, extractBody env path = .error e) ∨
      ∃ main e, extractBody env path = .ok main ∧ (processFile env main w).1 = .error e) :
    ∃ e', (processCompressed env path false w).1 = .error e' := by
  rw [compressed_eq env path false w hw]
  have : ∃ e', wrapRuntime (insideOut env path w.next) = .error e' := by
    unfold insideOut
    rcases h with ⟨e, h⟩ | ⟨main, e, h, hp⟩
    · simp only [h, wrapRuntime]; exact ⟨_, rfl⟩
    · rw [processFile_eq] at hp
      simp only at hp
      simp only [h, hp, wrapRuntime]; exact ⟨_, rfl⟩
  obtain ⟨e', he⟩ := this
  cases env.fileExists path
  · exact ⟨_, rfl⟩
  · cases env.mkdtemp
    · exact ⟨_, rfl⟩
    · exact ⟨e', by simpa using he⟩

/-- C28 violated: `process_compressed` with cleanup returns a result that names the deleted directory; the documented
`cleanup()` on it raises `FileNotFoundError`. -/
theorem C28_violated_stale_directory (path : Str) (w w' : World) (hw : World.WF w) (r : Result Out Col)
    (h : processCompressed env path true w = (.ok r, w')) :
    (∃ d, r.tempDir = some d ∧ d ∉ w'.temps) ∧ (cleanupResult env r w').1 = .error .fileNotFound := by
  obtain ⟨ht, hw'⟩ := compressed_ok env path true w w' hw r h
  simp only [if_true] at hw'
  have hn : w.next ∉ w'.temps := by
    subst hw'; intro hm; exact Nat.lt_irrefl _ (hw _ hm)
  refine ⟨⟨_, ht, hn⟩, ?_⟩
  unfold cleanupResult
  simp [ht, M.bind, rmtree, hn]

/- Non-vacuity (tests). -/
def _root_.L2J.Spec.exampleEnv : Env Char Char Unit :=
  ⟨fun _ => true, fun p => p = "d".toList, .ok (), .ok (), .error .tarRead, .ok true, .ok "m.tex".toList, .ok "f.tex".toList,
    .ok (), fun p => .ok p, fun s => .ok s, fun t => .ok t, ()⟩
example : World.WF ⟨[3], 5⟩ := by intro d hd; simp at hd; subst hd; decide
example : process exampleEnv "a.zip".toList true ⟨[3], 5⟩ =
    (.ok ⟨"m.tex".toList, (), "m.tex".toList, none⟩, ⟨[3], 6⟩) := by decide +kernel
example : processCompressed exampleEnv "a.zip".toList false ⟨[3], 5⟩ =
    (.ok ⟨"m.tex".toList, (), "m.tex".toList, some 5⟩, ⟨[5, 3], 6⟩) := by decide +kernel
example : (process { exampleEnv with tempMain := .error .fileNotFound } "a.zip".toList true ⟨[3], 5⟩) =
    (.error .texProcessing, ⟨[5, 3], 6⟩) := by decide +kernel
example : process exampleEnv "a.tgz".toList true ⟨[3], 5⟩ = (.error .texProcessing, ⟨[5, 3], 6⟩) := by decide +kernel

end L2J.Reader
