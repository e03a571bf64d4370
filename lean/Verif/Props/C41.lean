import Verif.Model.Sty
/-! C41: each style file is read at most once, and loading ends. -/
namespace L2J.Sty

/-- The file at a path that exists under the name it was asked for is the one read: no directory has the name of a package
file, and `abspath` does not change what is at a path nor the extension. -/
structure _root_.L2J.Spec.PlainFS {T} (fs : FS T) : Prop where
  noDir : ∀ p, fs.entry (fs.abs p) ≠ .dir
  same : ∀ p, fs.entry (fs.abs p) = fs.entry p

/-- The state is consistent: what was parsed is what was logged, each once. -/
def Good (st : State) : Prop := st.log.Nodup ∧ ∀ q, q ∈ st.log ↔ q ∈ st.parsed

/-- What loading does to the state: the log grows by files not parsed before. -/
def Grows (st st' : State) : Prop := Good st' ∧ (∃ l, st'.log = st.log ++ l) ∧ ∀ p ∈ st.parsed, p ∈ st'.parsed

theorem Grows.refl {st : State} (h : Good st) : Grows st st := ⟨h, ⟨[], by simp⟩, fun _ h => h⟩

theorem Grows.trans {a b c : State} (h1 : Grows a b) (h2 : Grows b c) : Grows a c := by
  obtain ⟨_, ⟨l1, e1⟩, k1⟩ := h1
  obtain ⟨g2, ⟨l2, e2⟩, k2⟩ := h2
  exact ⟨g2, ⟨l1 ++ l2, by rw [e2, e1, List.append_assoc]⟩, fun p hp => k2 p (k1 p hp)⟩

theorem runProg_grows {T} (load : State → Str → Bool → Option (State × List T))
    (hl : ∀ st name cls st' ts, Good st → load st name cls = some (st', ts) → Grows st st') :
    ∀ (p : Prog T) (st st' : State) (o : Option (List T)), Good st → runProg load p st = some (st', o) → Grows st st' := by
  intro p
  induction p with
  | done ts => intro st st' o hg h; simp [runProg] at h; rw [← h.1]; exact .refl hg
  | raise => intro st st' o hg h; simp [runProg] at h; rw [← h.1]; exact .refl hg
  | load name cls k ih =>
    intro st st' o hg h
    unfold runProg at h
    cases hx : load st name cls with
    | none => rw [hx] at h; cases h
    | some r =>
      obtain ⟨st1, ts⟩ := r
      rw [hx] at h
      have h1 := hl st name cls st1 ts hg hx
      exact h1.trans (ih ts st1 st' o h1.1 h)

theorem readFile_same {T} (fs : FS T) (p ext q : Str) (prog : Prog T) (hd : fs.entry p ≠ .dir) (ha : fs.entry p ≠ .absent)
    (h : readFile fs p ext = some (q, prog)) : q = p := by
  unfold readFile pathsToTry readFile.go at h
  cases he : fs.entry p with
  | absent => exact absurd he ha
  | dir => exact absurd he hd
  | unreadable => rw [he] at h; cases h
  | file pr => rw [he] at h; simp at h; exact h.1.symm

theorem parseFile_grows {T} (fs : FS T) (hfs : Spec.PlainFS fs) : ∀ (fuel : Nat) (st : State) (path : Str) (st' : State) (ts : List T),
    Good st → fs.exists path = true → parseFile fs fuel st path = some (st', ts) → Grows st st' := by
  intro fuel
  induction fuel with
  | zero => intro st path st' ts _ _ h; cases h
  | succ fuel ih =>
    intro st path st' ts hg hex h
    unfold parseFile at h
    simp only at h
    split at h
    · injection h with h; injection h with h1 h2; rw [← h1]; exact .refl hg
    · rename_i hnp
      have hnp' : fs.abs path ∉ st.parsed := by simpa using hnp
      cases hr : readFile fs (fs.abs path) ".sty".toList with
      | none => rw [hr] at h; injection h with h; injection h with h1 h2; rw [← h1]; exact .refl hg
      | some r =>
        obtain ⟨q, prog⟩ := r
        have hne : fs.entry (fs.abs path) ≠ .absent := by
          rw [hfs.same]
          intro he
          unfold FS.exists at hex
          rw [he] at hex
          cases hex
        have hq := readFile_same fs _ _ q prog (hfs.noDir path) hne hr
        subst hq
        rw [hr] at h
        simp only at h
        have hg1 : Good ⟨some (fs.dirname (fs.abs path)), fs.abs path :: st.parsed, st.log ++ [fs.abs path]⟩ := by
          obtain ⟨g1, g2⟩ := hg
          refine ⟨?_, ?_⟩
          · rw [List.nodup_append]
            refine ⟨g1, by simp, ?_⟩
            intro a ha b hb
            simp at hb
            subst hb
            rintro rfl
            exact hnp' ((g2 _).1 ha)
          · intro q
            simp [g2 q, or_comm]
        have hload : ∀ st name cls st' ts, Good st → loadPackage fs (parseFile fs fuel) st name cls = some (st', ts) → Grows st st' := by
          intro st name cls st' ts hg h
          unfold loadPackage at h
          simp only at h
          split at h
          · rename_i hx; exact ih st _ st' ts hg hx h
          · injection h with h; injection h with h1 h2; rw [← h1]; exact .refl hg
        have step : ∀ st2 o, runProg (loadPackage fs (parseFile fs fuel)) prog
            ⟨some (fs.dirname (fs.abs path)), fs.abs path :: st.parsed, st.log ++ [fs.abs path]⟩ = some (st2, o) → Grows st st2 := by
          intro st2 o h2
          have := runProg_grows _ hload prog _ st2 o hg1 h2
          obtain ⟨k1, ⟨l, k2⟩, k3⟩ := this
          exact ⟨k1, ⟨fs.abs path :: l, by rw [k2]; simp⟩, fun p hp => k3 p (by simp [hp])⟩
        split at h
        · cases h
        · rename_i st2 ts2 hx
          injection h with h; injection h with h1 h2
          rw [← h1]
          obtain ⟨k1, k2, k3⟩ := step _ _ hx
          exact ⟨k1, k2, k3⟩
        · rename_i st2 hx
          injection h with h; injection h with h1 h2
          rw [← h1]
          exact step _ _ hx

/-- C41: whatever the files load, the files whose content is parsed for the requests of one document are all different. -/
theorem C41_once {T} (fs : FS T) (hfs : Spec.PlainFS fs) (fuel : Nat) (rs : List Request) (st : State)
    (h : requests fs fuel cleared rs = some st) : st.log.Nodup := by
  have key : ∀ (rs : List Request) (st0 : State), Good st0 → requests fs fuel st0 rs = some st → Good st := by
    intro rs
    induction rs with
    | nil => intro st0 hg h; simp [requests] at h; rw [← h]; exact hg
    | cons r rs ih =>
      intro st0 hg h
      unfold requests at h
      cases hx : request fs fuel st0 r with
      | none => rw [hx] at h; cases h
      | some x =>
        obtain ⟨st1, ts⟩ := x
        rw [hx] at h
        refine ih st1 ?_ h
        unfold request at hx
        simp only at hx
        split at hx
        · rename_i hex; exact (parseFile_grows fs hfs fuel st0 _ st1 ts hg hex hx).1
        · injection hx with hx; injection hx with h1 h2; rw [← h1]; exact hg
  exact (key rs cleared ⟨by simp [cleared], by simp [cleared]⟩ h).1

/-- The paths among `all` that are not parsed yet. -/
def todo (all : List Str) (st : State) : Nat := (all.filter fun p => !st.parsed.contains p).length

theorem todo_mono (all : List Str) {a b : State} (h : ∀ p ∈ a.parsed, p ∈ b.parsed) : todo all b ≤ todo all a := by
  unfold todo
  induction all with
  | nil => simp
  | cons p all ih =>
    simp only [List.filter_cons]
    by_cases ha : p ∈ a.parsed
    · have hb := h p ha; simp [ha, hb]; simpa using ih
    · by_cases hb : p ∈ b.parsed
      · simp [ha, hb]; simp at ih; omega
      · simp [ha, hb]; simpa using ih

theorem todo_lt (all : List Str) (st : State) (p : Str) (d : Option Str) (lg : List Str) (hp : p ∈ all) (hn : p ∉ st.parsed) :
    todo all ⟨d, p :: st.parsed, lg⟩ < todo all st := by
  have hle : ∀ l : List Str, todo l ⟨d, p :: st.parsed, lg⟩ ≤ todo l st := fun l => todo_mono l (by simp; intro q hq; exact .inr hq)
  induction all with
  | nil => simp at hp
  | cons q all ih =>
    by_cases hq : q = p
    · subst hq
      have := hle all
      unfold todo at this ⊢
      simp only [List.filter_cons]
      simp [hn]
      simp at this
      omega
    · have hp' : p ∈ all := by
        rcases List.mem_cons.1 hp with h | h
        · exact absurd h.symm hq
        · exact h
      have := ih hp'
      unfold todo at this ⊢
      simp only [List.filter_cons]
      by_cases hs : q ∈ st.parsed
      · simp [hs]; simpa using this
      · have h2 : ¬ (q = p ∨ q ∈ st.parsed) := by simp [hq, hs]
        simp [hs, hq]; simpa using this

/-- Loading never forgets a parsed file. -/
def Keeps (st st' : State) : Prop := ∀ p ∈ st.parsed, p ∈ st'.parsed

theorem runProg_keeps {T} (load : State → Str → Bool → Option (State × List T))
    (hl : ∀ st name cls st' ts, load st name cls = some (st', ts) → Keeps st st') :
    ∀ (p : Prog T) (st st' : State) (o : Option (List T)), runProg load p st = some (st', o) → Keeps st st' := by
  intro p
  induction p with
  | done ts => intro st st' o h; simp [runProg] at h; rw [← h.1]; exact fun _ h => h
  | raise => intro st st' o h; simp [runProg] at h; rw [← h.1]; exact fun _ h => h
  | load name cls k ih =>
    intro st st' o h
    unfold runProg at h
    cases hx : load st name cls with
    | none => rw [hx] at h; cases h
    | some r =>
      obtain ⟨st1, ts⟩ := r
      rw [hx] at h
      exact fun p hp => ih ts st1 st' o h p (hl st name cls st1 ts hx p hp)

theorem parseFile_keeps {T} (fs : FS T) : ∀ (fuel : Nat) (st : State) (path : Str) (st' : State) (ts : List T),
    parseFile fs fuel st path = some (st', ts) → Keeps st st' := by
  intro fuel
  induction fuel with
  | zero => intro st path st' ts h; cases h
  | succ fuel ih =>
    intro st path st' ts h
    unfold parseFile at h
    simp only at h
    split at h
    · injection h with h; injection h with h1 h2; rw [← h1]; exact fun _ h => h
    · cases hr : readFile fs (fs.abs path) ".sty".toList with
      | none => rw [hr] at h; injection h with h; injection h with h1 h2; rw [← h1]; exact fun _ h => h
      | some r =>
        obtain ⟨q, prog⟩ := r
        rw [hr] at h
        simp only at h
        have hload : ∀ st name cls st' ts, loadPackage fs (parseFile fs fuel) st name cls = some (st', ts) → Keeps st st' := by
          intro st name cls st' ts h
          unfold loadPackage at h
          simp only at h
          split at h
          · exact ih st _ st' ts h
          · injection h with h; injection h with h1 h2; rw [← h1]; exact fun _ h => h
        have step : ∀ st2 o, runProg (loadPackage fs (parseFile fs fuel)) prog
            ⟨some (fs.dirname (fs.abs path)), fs.abs path :: st.parsed, st.log ++ [q]⟩ = some (st2, o) → Keeps st st2 :=
          fun st2 o h2 p hp => runProg_keeps _ hload prog _ st2 o h2 p (by simp [hp])
        split at h
        · cases h
        · rename_i st2 ts2 hx
          injection h with h; injection h with h1 h2
          rw [← h1]
          exact fun p hp => step st2 _ hx p hp
        · rename_i st2 hx
          injection h with h; injection h with h1 h2
          rw [← h1]
          exact step _ _ hx

/-- Enough fuel: one more than the number of paths left. -/
theorem parseFile_ends {T} (fs : FS T) (all : List Str) (hall : ∀ p, (readFile fs p ".sty".toList).isSome = true → p ∈ all) :
    ∀ (fuel : Nat) (st : State) (path : Str), todo all st < fuel → ∃ r, parseFile fs fuel st path = some r := by
  intro fuel
  induction fuel with
  | zero => intro st path h; omega
  | succ fuel ih =>
    intro st path h
    unfold parseFile
    simp only
    split
    · exact ⟨_, rfl⟩
    · rename_i hnp
      have hnp' : fs.abs path ∉ st.parsed := by simpa using hnp
      cases hr : readFile fs (fs.abs path) ".sty".toList with
      | none => exact ⟨_, rfl⟩
      | some r =>
        obtain ⟨q, prog⟩ := r
        simp only
        have hlt := todo_lt all st (fs.abs path) (some (fs.dirname (fs.abs path))) (st.log ++ [q])
          (hall _ (by rw [hr]; rfl)) hnp'
        have run : ∀ (pr : Prog T) (s : State), todo all s < fuel → ∃ r, runProg (loadPackage fs (parseFile fs fuel)) pr s = some r := by
          intro pr
          induction pr with
          | done ts => intro s _; exact ⟨_, rfl⟩
          | raise => intro s _; exact ⟨_, rfl⟩
          | load name cls k ihk =>
            intro s hs
            unfold runProg
            have hl : ∃ r, loadPackage fs (parseFile fs fuel) s name cls = some r := by
              unfold loadPackage
              simp only
              split
              · exact ih s _ hs
              · exact ⟨_, rfl⟩
            obtain ⟨⟨s1, ts⟩, hl⟩ := hl
            rw [hl]
            have hk : Keeps s s1 := by
              unfold loadPackage at hl
              simp only at hl
              split at hl
              · exact parseFile_keeps fs fuel s _ s1 ts hl
              · injection hl with hl; injection hl with h1 h2; rw [← h1]; exact fun _ h => h
            exact ihk ts s1 (Nat.lt_of_le_of_lt (todo_mono all hk) hs)
        obtain ⟨⟨st2, o⟩, hrun⟩ := run prog ⟨some (fs.dirname (fs.abs path)), fs.abs path :: st.parsed, st.log ++ [q]⟩ (by omega)
        rw [hrun]
        cases o with
        | none => exact ⟨_, rfl⟩
        | some ts => exact ⟨_, rfl⟩

/-- C41: with finitely many files, however they load each other, loading all that a document asks for ends: nesting is never
deeper than the number of files, and more fuel changes nothing about that. -/
theorem C41_terminates {T} (fs : FS T) (all : List Str) (hall : ∀ p, (readFile fs p ".sty".toList).isSome = true → p ∈ all)
    (rs : List Request) (fuel : Nat) (hf : all.length < fuel) : ∃ st, requests fs fuel cleared rs = some st := by
  have key : ∀ (rs : List Request) (st : State), ∃ st', requests fs fuel st rs = some st' := by
    intro rs
    induction rs with
    | nil => intro st; exact ⟨st, rfl⟩
    | cons r rs ih =>
      intro st
      have : ∃ x, request fs fuel st r = some x := by
        unfold request
        simp only
        split
        · exact parseFile_ends fs all hall fuel st _ (Nat.lt_of_le_of_lt (List.length_filter_le _ _) hf)
        · exact ⟨_, rfl⟩
      obtain ⟨⟨st1, ts⟩, hx⟩ := this
      obtain ⟨st2, h2⟩ := ih st1
      exact ⟨st2, by unfold requests; rw [hx]; exact h2⟩
  exact key rs cleared

/-- C41: a readable file that is asked for has been parsed afterwards. -/
theorem C41_parsed {T} (fs : FS T) (fuel : Nat) (st st' : State) (path : Str) (ts : List T)
    (h : parseFile fs fuel st path = some (st', ts)) (hr : (readFile fs (fs.abs path) ".sty".toList).isSome = true) :
    fs.abs path ∈ st'.parsed := by
  cases fuel with
  | zero => cases h
  | succ fuel =>
    unfold parseFile at h
    simp only at h
    split at h
    · rename_i hc; injection h with h; injection h with h1 h2; rw [← h1]; simpa using hc
    · obtain ⟨⟨q, prog⟩, hr⟩ := Option.isSome_iff_exists.1 hr
      rw [hr] at h
      simp only at h
      have hload : ∀ st name cls st' ts, loadPackage fs (parseFile fs fuel) st name cls = some (st', ts) → Keeps st st' := by
        intro st name cls st' ts h
        unfold loadPackage at h
        simp only at h
        split at h
        · exact parseFile_keeps fs fuel st _ st' ts h
        · injection h with h; injection h with h1 h2; rw [← h1]; exact fun _ h => h
      split at h
      · cases h
      · rename_i st2 ts2 hx
        injection h with h; injection h with h1 h2
        rw [← h1]
        exact runProg_keeps _ hload prog _ st2 _ hx _ (by simp)
      · rename_i st2 hx
        injection h with h; injection h with h1 h2
        rw [← h1]
        exact runProg_keeps _ hload prog _ st2 _ hx _ (by simp)

/-- C41, which file is read: the path itself if it is a file; with the extension appended if the path is nothing or a directory, does not
end with the extension and this is a file. -/
theorem C41_reads {T} (fs : FS T) (p ext q : Str) (prog : Prog T) : readFile fs p ext = some (q, prog) ↔
    (fs.entry p = .file prog ∧ q = p) ∨
    ((fs.entry p = .absent ∨ fs.entry p = .dir) ∧ ¬ ext <:+ p ∧ q = p ++ ext ∧ fs.entry q = .file prog) := by
  unfold readFile pathsToTry
  by_cases hs : ext <:+ p
  · rw [if_pos (by rwa [List.isSuffixOf_iff_suffix])]
    unfold readFile.go
    cases he : fs.entry p <;> simp [readFile.go, hs]
    exact ⟨fun ⟨a, b⟩ => ⟨b, a.symm⟩, fun ⟨a, b⟩ => ⟨b.symm, a⟩⟩
  · rw [if_neg (by rwa [List.isSuffixOf_iff_suffix])]
    unfold readFile.go
    have key : readFile.go fs [p ++ ext] = some (q, prog) ↔ q = p ++ ext ∧ fs.entry q = .file prog := by
      unfold readFile.go
      constructor
      · intro h
        cases he : fs.entry (p ++ ext) <;> rw [he] at h <;> simp [readFile.go] at h
        exact ⟨h.1.symm, by rw [← h.1, he, h.2]⟩
      · rintro ⟨rfl, h⟩
        rw [h]
    cases he : fs.entry p <;> simp [hs]
    · exact key
    · exact key
    · exact ⟨fun ⟨a, b⟩ => ⟨b, a.symm⟩, fun ⟨a, b⟩ => ⟨b.symm, a⟩⟩

/-- Where a package asked for in a directory is: the extension is added to the name unless it has it. -/
def _root_.L2J.Spec.PackageAt {T} (fs : FS T) (d name ext p : Str) : Prop :=
  (ext <:+ fs.join d name ∧ p = fs.join d name) ∨ (¬ ext <:+ fs.join d name ∧ p = fs.join d name ++ ext)

/-- C41: a package file beside the document that is asked for by its name is parsed, once the request is done. -/
theorem C41_found {T} (fs : FS T) (fuel : Nat) (st st' : State) (ts : List T) (d name p : Str) (cls : Bool) (prog : Prog T)
    (hd : d ≠ []) (hn : strip name = name) (hp : Spec.PackageAt fs d name (if cls then ".cls".toList else ".sty".toList) p)
    (hf : fs.entry p = .file prog) (ha : fs.entry (fs.abs p) = fs.entry p)
    (h : request fs fuel st ⟨some d, name, cls⟩ = some (st', ts)) : fs.abs p ∈ st'.parsed := by
  have hpath : packagePath fs (some d) name cls = p := by
    unfold packagePath extOf
    have : d.isEmpty = false := by cases d with | nil => exact absurd rfl hd | cons _ _ => rfl
    simp only [this, hn]
    rcases hp with ⟨h1, h2⟩ | ⟨h1, h2⟩
    · rw [if_pos (by rw [List.isSuffixOf_iff_suffix]; simpa using h1)]; simpa using h2.symm
    · rw [if_neg (by rw [List.isSuffixOf_iff_suffix]; simpa using h1)]; simpa using h2.symm
  unfold request at h
  simp only [hpath] at h
  rw [if_pos (by unfold FS.exists; rw [hf])] at h
  exact C41_parsed fs fuel st st' p ts h (by
    rw [(C41_reads fs (fs.abs p) ".sty".toList (fs.abs p) prog).2 (.inl ⟨by rw [ha, hf], rfl⟩)]; rfl)

/-- A package that is not there changes nothing. -/
theorem C41_missing {T} (fs : FS T) (fuel : Nat) (st : State) (d name p : Str) (cls : Bool)
    (hd : d ≠ []) (hn : strip name = name) (hp : Spec.PackageAt fs d name (if cls then ".cls".toList else ".sty".toList) p)
    (hf : fs.entry p = .absent) : request fs fuel st ⟨some d, name, cls⟩ = some (st, []) := by
  have hpath : packagePath fs (some d) name cls = p := by
    unfold packagePath extOf
    have : d.isEmpty = false := by cases d with | nil => exact absurd rfl hd | cons _ _ => rfl
    simp only [this, hn]
    rcases hp with ⟨h1, h2⟩ | ⟨h1, h2⟩
    · rw [if_pos (by rw [List.isSuffixOf_iff_suffix]; simpa using h1)]; simpa using h2.symm
    · rw [if_neg (by rw [List.isSuffixOf_iff_suffix]; simpa using h1)]; simpa using h2.symm
  unfold request
  simp only [hpath]
  rw [if_neg (by unfold FS.exists; rw [hf]; simp)]

/-- A file system with `/a/m.sty`, which loads `s/n` and then `o`; `/a/s/n.sty`, which raises; `/a/o.sty`. Paths are joined
with a slash. -/
def smallFS (n : Prog Nat) : FS Nat where
  entry p :=
    if p = "/a/m.sty".toList then .file (.load "s/n".toList false fun t1 => .load "o".toList false fun t2 => .done (t1 ++ t2))
    else if p = "/a/s/n.sty".toList then .file n
    else if p = "/a/o.sty".toList then .file (.load "m".toList false fun _ => .done [7])
    else .absent
  join d p := d ++ '/' :: p
  abs p := p
  dirname p := (p.reverse.dropWhile (· ≠ '/')).reverse.dropLast

/-- C41 does not give what one expects of an error: after a nested file raises, later names are looked up in that file's
directory, so an existing package is not loaded. Without the error it is. -/
theorem C41_violated_directory :
    (requests (smallFS .raise) 10 cleared [⟨some "/a".toList, "m".toList, false⟩]).map (·.log) =
      some ["/a/m.sty".toList, "/a/s/n.sty".toList] ∧
    (requests (smallFS (.done [])) 10 cleared [⟨some "/a".toList, "m".toList, false⟩]).map (·.log) =
      some ["/a/m.sty".toList, "/a/s/n.sty".toList, "/a/o.sty".toList] := by decide +kernel

/-- C41 violated if a file is also asked for without its extension: it is parsed twice. (The document and the style files
always add the extension, so this concerns direct calls of `parse_file`.) -/
theorem C41_violated_extension :
    (((parseFile (smallFS (.done [])) 10 cleared "/a/o".toList).bind fun r => parseFile (smallFS (.done [])) 10 r.1 "/a/o.sty".toList).map
      fun r => r.1.log.count "/a/o.sty".toList) = some 2 := by decide +kernel

/-- `m` in `/a` is `/a/m.sty`, and so is `m.sty`. -/
example : Spec.PackageAt (smallFS .raise) "/a".toList "m".toList ".sty".toList "/a/m.sty".toList ∧
    Spec.PackageAt (smallFS .raise) "/a".toList "m.sty".toList ".sty".toList "/a/m.sty".toList := by
  constructor
  · exact .inr ⟨by decide +kernel, by decide +kernel⟩
  · exact .inl ⟨by decide +kernel, by decide +kernel⟩

/-! The hypotheses hold for a cyclic file system. -/
example : Spec.PlainFS (smallFS .raise) := ⟨by intro p; unfold smallFS; simp only; split <;> (try split) <;> (try split) <;> simp, by intro p; rfl⟩

end L2J.Sty
