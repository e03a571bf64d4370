import Verif.Spec.Files
import Verif.Lemmas.Bib
/-! C26: where a bibliography is looked for. -/
namespace L2J
open Spec

variable {E : Type} (parse : Str → Except Exn (List E)) (fs : FS) (path : Str)

theorem isEmpty_ne {s : Str} (h : s ≠ []) : s.isEmpty = false := by cases s <;> simp_all

theorem exists_iff {fs : FS} {p : Str} : fs.exists p = true ↔ fs.kind p ≠ .absent := by
  unfold FS.exists; cases fs.kind p <;> simp

/-- The first half of the function: the own names. -/
theorem own_eq : bibOwnContent fs path =
    match (ownCandidates path).find? fs.exists with
    | some c => some <$> fs.open c
    | none => pure none := by
  unfold ownCandidates bibOwnContent
  generalize (endsWith path ".bbl".toList || endsWith path ".bib".toList) = b
  generalize h0 : fs.exists path = e0
  generalize h1 : fs.exists (path ++ ".bbl".toList) = e1
  generalize h2 : fs.exists (path ++ ".bib".toList) = e2
  cases b <;> cases e0 <;> cases e1 <;> cases e2 <;>
    simp only [Bool.false_and, Bool.true_and, Bool.false_eq_true, if_false, if_true, List.nil_append, List.cons_append,
      List.find?_cons, List.find?_nil, h0, h1, h2]

/-- The second half: the fall-backs. -/
theorem fallback_eq (hw : FS.WF fs) (d : Option Str) :
    bibFallback fs path d =
    match (fallbackCandidates fs path).find? fs.exists with
    | some c => some <$> fs.open c
    | none => match fs.kind (dirname path) with
      | .dir => pure d
      | .file => .error .other
      | .absent => .error .fileNotFound := by
  unfold fallbackCandidates bibFallback
  rw [List.find?_cons]
  simp only []
  cases hm : fs.exists (pathJoin (dirname path) "main.bbl".toList) with
  | true => rfl
  | false =>
    simp only [Bool.false_eq_true, if_false]
    unfold FS.listdir
    cases hk : fs.kind (dirname path) with
    | absent =>
      have : fs.listing (dirname path) = [] := by
        cases hl : fs.listing (dirname path) with
        | nil => rfl
        | cons a l => have := hw.dirs (dirname path) (by simp [hl]); rw [hk] at this; cases this
      simp [this, bind, Except.bind]
    | file =>
      have : fs.listing (dirname path) = [] := by
        cases hl : fs.listing (dirname path) with
        | nil => rfl
        | cons a l => have := hw.dirs (dirname path) (by simp [hl]); rw [hk] at this; cases this
      simp [this, bind, Except.bind]
    | dir =>
      simp only [bind, Except.bind]
      cases hf : (fs.listing (dirname path)).filter (endsWith · ".bbl".toList) with
      | nil => rfl
      | cons f l =>
        have hmem : f ∈ fs.listing (dirname path) := by
          have : f ∈ (fs.listing (dirname path)).filter (endsWith · ".bbl".toList) := by rw [hf]; simp
          exact (List.mem_filter.1 this).1
        have := exists_iff.2 (hw.entries _ f hmem)
        simp [this]

theorem parseFile_eq (hw : FS.WF fs) : bibParseFile parse fs path =
    (match (ownCandidates path).find? fs.exists with
      | some c => some <$> fs.open c
      | none => pure none) >>= fun content =>
    (if (content.getD []).isEmpty then
        (match (fallbackCandidates fs path).find? fs.exists with
        | some c => some <$> fs.open c
        | none => match fs.kind (dirname path) with
          | .dir => pure content
          | .file => .error .other
          | .absent => .error .fileNotFound)
      else pure content) >>= fun content =>
    if (content.getD []).isEmpty then pure [] else parse (content.getD []) := by
  unfold bibParseFile
  rw [own_eq]
  congr 1
  funext content
  rw [fallback_eq fs path hw content]

/-- C26: the file that is read is the first one that exists among the candidates, the own names coming before the
fall-backs; if it is readable and not empty its entries are returned. An earlier candidate that exists is therefore never
shadowed by a later one. -/
theorem C26_first_existing (hw : FS.WF fs) (c s : Str)
    (hc : (ownCandidates path ++ fallbackCandidates fs path).find? fs.exists = some c)
    (hr : fs.open c = .ok s) (hs : s ≠ []) : bibParseFile parse fs path = parse s := by
  rw [parseFile_eq parse fs path hw]
  rw [List.find?_append] at hc
  cases ho : (ownCandidates path).find? fs.exists with
  | some c' =>
    rw [ho] at hc
    cases hc
    simp [hr, bind, Except.bind, pure, Except.pure, Functor.map, Except.map, isEmpty_ne hs]
  | none =>
    rw [ho] at hc
    have hc : (fallbackCandidates fs path).find? fs.exists = some c := hc
    simp [hc, hr, bind, Except.bind, pure, Except.pure, Functor.map, Except.map, isEmpty_ne hs]

/-- C26: if the first candidate that exists cannot be read the error is raised; no later candidate is used. -/
theorem C26_unreadable (hw : FS.WF fs) (c : Str) (e : Exn)
    (hc : (ownCandidates path ++ fallbackCandidates fs path).find? fs.exists = some c)
    (hr : fs.open c = .error e) : bibParseFile parse fs path = .error e := by
  rw [parseFile_eq parse fs path hw]
  rw [List.find?_append] at hc
  cases ho : (ownCandidates path).find? fs.exists with
  | some c' =>
    rw [ho] at hc
    cases hc
    simp [hr, bind, Except.bind, Functor.map, Except.map]
  | none =>
    rw [ho] at hc
    have hc : (fallbackCandidates fs path).find? fs.exists = some c := hc
    simp [hc, hr, bind, Except.bind, pure, Except.pure, Functor.map, Except.map]

/-- C26: if no candidate exists and the directory does, there are no entries. -/
theorem C26_not_found (hw : FS.WF fs) (hd : fs.kind (dirname path) = .dir)
    (hc : ∀ c ∈ ownCandidates path ++ fallbackCandidates fs path, fs.kind c = .absent) :
    bibParseFile parse fs path = .ok [] := by
  rw [parseFile_eq parse fs path hw]
  have h1 : (ownCandidates path).find? fs.exists = none := by
    rw [List.find?_eq_none]; intro x hx; rw [exists_iff]; simp [hc x (by simp [hx])]
  have h2 : (fallbackCandidates fs path).find? fs.exists = none := by
    rw [List.find?_eq_none]; intro x hx; rw [exists_iff]; simp [hc x (by simp [hx])]
  simp [h1, h2, hd, bind, Except.bind, pure, Except.pure]

/-- C26 violated: if the bibliography under its own name exists but is empty, an unrelated file is read instead. -/
theorem C26_violated_empty_file_shadowed (hw : FS.WF fs) (c c' s : Str)
    (hc : (ownCandidates path).find? fs.exists = some c) (hr : fs.open c = .ok [])
    (hc' : (fallbackCandidates fs path).find? fs.exists = some c') (hr' : fs.open c' = .ok s) (hs : s ≠ []) :
    bibParseFile parse fs path = parse s := by
  rw [parseFile_eq parse fs path hw]
  simp [hc, hr, hc', hr', bind, Except.bind, Functor.map, Except.map, isEmpty_ne hs]

theorem dirname_bare (h : '/' ∉ path) : dirname path = [] := by
  unfold dirname
  have : path.reverse.dropWhile (· != '/') = [] := by
    refine dropWhile_eq_nil ?_
    intro x hx
    simp at hx ⊢
    rintro rfl; exact h hx
  simp [this]

/-- C26 violated: for a bare file name the current directory is never listed: if the bibliography does not exist under its
own name nor as `main.bbl`, the lookup raises `FileNotFoundError` whatever `.bbl` files there are. -/
theorem C26_violated_bare_name (hw : FS.WF fs) (hb : '/' ∉ path)
    (hc : ∀ c ∈ "main.bbl".toList :: ownCandidates path, fs.kind c = .absent) :
    bibParseFile parse fs path = .error .fileNotFound := by
  rw [parseFile_eq parse fs path hw]
  have h1 : (ownCandidates path).find? fs.exists = none := by
    rw [List.find?_eq_none]; intro x hx; rw [exists_iff]; simp [hc x (by simp [hx])]
  have hl : fs.listing [] = [] := by
    cases hl : fs.listing [] with
    | nil => rfl
    | cons a l => have := hw.dirs [] (by simp [hl]); rw [hw.empty] at this; cases this
  have h2 : (fallbackCandidates fs path).find? fs.exists = none := by
    unfold fallbackCandidates
    rw [dirname_bare path hb, hl, List.find?_eq_none]
    intro x hx
    simp only [List.filter_nil, List.map_nil, List.mem_singleton] at hx
    subst hx
    have := hc "main.bbl".toList (by simp)
    rw [exists_iff]
    exact fun h => h this
  simp [h1, h2, dirname_bare path hb, hw.empty, bind, Except.bind, pure, Except.pure]

/- Non-vacuity (tests): a file system with an empty `d/r.bbl`, `d/r.bib` and `d/x.bbl`. -/
def Spec.exampleFS : FS :=
  ⟨fun p => if p ∈ ["d/r.bbl".toList, "d/r.bib".toList, "d/x.bbl".toList, "d/s.bib".toList] then .file
      else if p = "d".toList then .dir else .absent,
    fun p => if p = "d/r.bbl".toList then some [] else if p = "d/x.bbl".toList then some "X".toList else some "S".toList,
    fun p => if p = "d".toList then ["r.bbl".toList, "r.bib".toList, "x.bbl".toList, "s.bib".toList] else []⟩

example : FS.WF exampleFS := by
  refine ⟨by decide +kernel, fun d h => ?_, fun d f hf => ?_⟩
  · unfold exampleFS at h ⊢; simp only [] at h ⊢
    split at h
    · next hd => subst hd; decide +kernel
    · simp at h
  · unfold exampleFS at hf; simp only [] at hf
    split at hf
    · next hd =>
      subst hd
      simp only [List.mem_cons, List.not_mem_nil, or_false] at hf
      rcases hf with rfl | rfl | rfl | rfl <;> decide +kernel
    · simp at hf
example : bibParseFile (fun s => .ok s) exampleFS "d/s".toList = .ok "S".toList := by decide +kernel
example : bibParseFile (fun s => .ok s) exampleFS "d/r".toList = .ok [] := by decide +kernel
example : (ownCandidates "d/s".toList ++ fallbackCandidates exampleFS "d/s".toList).find? exampleFS.exists =
    some "d/s.bib".toList := by decide +kernel
example : bibParseFile (fun s => .ok s) exampleFS "bare".toList = .error .fileNotFound := by decide +kernel

end L2J
