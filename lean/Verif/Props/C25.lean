import Verif.Spec.Files
/-! C25: merging bibliography files keeps the first entry of each key. -/
namespace L2J
open Spec

/-- What one bibliography file contributes: nothing if looking it up, parsing or converting it raises. -/
def Spec.fileTokens {E T : Type} (parse : Str → Except Exn (List E)) (convert : E → Except Exn T) (fs : FS)
    (full : Str) : List T :=
  match bibParseFile parse fs full with
  | .error _ => []
  | .ok es => match es.mapM convert with
    | .error _ => []
    | .ok ts => ts

/-- Where a listed file is looked for: relative to the directory of the current file, if there is one. -/
def Spec.located (cwd : Option Str) (p : Str) : Str :=
  match cwd with
  | some d => if d = [] then p else pathJoin d p
  | none => p

theorem dedupe_eq {T : Type} (key : T → Str) : ∀ (ts : List T) (pre : List T) (seen : List Str),
    (∀ k, seen.contains k = pre.any fun u => key u = k) →
    dedupeKeys key seen ts = (List.range ts.length).filterMap fun i =>
      ts[i]?.bind fun t => if (pre ++ ts.take i).any (fun u => key u = key t) then none else some t := by
  intro ts
  induction ts with
  | nil => intro pre seen _; simp [dedupeKeys]
  | cons t ts ih =>
    intro pre seen h
    have step : ((List.range (t :: ts).length).filterMap fun i =>
        (t :: ts)[i]?.bind fun t' => if (pre ++ (t :: ts).take i).any (fun u => key u = key t') then none else some t')
        = (if pre.any (fun u => key u = key t) then [] else [t]) ++
          (List.range ts.length).filterMap fun i =>
            ts[i]?.bind fun t' => if ((pre ++ [t]) ++ ts.take i).any (fun u => key u = key t') then none else some t' := by
      rw [List.length_cons, List.range_succ_eq_map, List.filterMap_cons, List.filterMap_map]
      simp only [List.getElem?_cons_zero, Option.bind_some, List.take_zero, List.append_nil]
      have : ((fun i => (t :: ts)[i]?.bind fun t' =>
            if (pre ++ (t :: ts).take i).any (fun u => key u = key t') then none else some t') ∘ Nat.succ) =
          fun i => ts[i]?.bind fun t' =>
            if ((pre ++ [t]) ++ ts.take i).any (fun u => key u = key t') then none else some t' := by
        funext i; simp
      rw [this]
      cases hp : pre.any (fun u => decide (key u = key t)) <;> simp
    rw [step]
    unfold dedupeKeys
    rw [h]
    split
    next hk =>
      rw [List.nil_append]
      refine ih _ _ fun k => ?_
      rw [h, List.any_append]
      by_cases hkk : key t = k
      · subst hkk; simp [hk]
      · simp [hkk]
    next hk =>
      rw [List.singleton_append]
      congr 1
      refine ih _ _ fun k => ?_
      rw [List.contains_cons, h, List.any_append, Bool.or_comm]
      congr 1
      by_cases hkk : key t = k
      · simp [hkk]
      · simp [hkk, Ne.symm hkk]

/-- C25: the bibliography made from a comma-separated list of files is the concatenation of what the files contribute, in
reading order, keeping exactly the entries whose key does not occur earlier. -/
theorem C25_first_definition_wins {E T : Type} (parse : Str → Except Exn (List E)) (convert : E → Except Exn T)
    (key : T → Str) (fs : FS) (cwd : Option Str) (filePath : Str) :
    parseBibFile parse convert key fs cwd filePath =
      firstOfEach key ((((splitComma filePath).map strip).filter (· ≠ [])).flatMap fun p =>
        fileTokens parse convert fs (located cwd p)) := by
  have hfiles : ∀ ps, bibFilesTokens parse convert fs cwd ps = ps.flatMap fun p =>
      fileTokens parse convert fs (located cwd p) := by
    intro ps
    induction ps with
    | nil => rfl
    | cons p ps ih =>
      rw [List.flatMap_cons, ← ih]; conv => lhs; unfold bibFilesTokens
      congr 1
      have hl : bibFullPath cwd p = located cwd p := by
        unfold located bibFullPath; split <;> simp
      simp only [hl]
      unfold fileTokens
      cases bibParseFile parse fs (located cwd p) with
      | error e => rfl
      | ok es =>
        simp only [bind, Except.bind]
        cases es.mapM convert <;> rfl
  have hp : ((splitComma filePath).filter fun p => !(strip p).isEmpty).map strip =
      ((splitComma filePath).map strip).filter (· ≠ []) := by
    rw [List.filter_map]
    congr 2
    funext p
    cases h : strip p <;> simp [h]
  rw [parseBibFile, hp, hfiles]
  exact dedupe_eq key _ [] [] (by simp)

theorem firstOfEach_cons {T : Type} (key : T → Str) (t : T) (ts : List T) :
    firstOfEach key (t :: ts) = t :: firstOfEach key (ts.filter fun u => key u ≠ key t) := by
  have h1 := dedupe_eq key (t :: ts) [] [] (by simp)
  have h2 := dedupe_eq key (ts.filter fun u => key u ≠ key t) [] [] (by simp)
  simp only [List.nil_append] at h1 h2
  unfold firstOfEach
  rw [← h1, ← h2]
  have : ∀ (ts : List T) (seen : List Str), dedupeKeys key (seen ++ [key t]) ts =
      dedupeKeys key seen (ts.filter fun u => key u ≠ key t) := by
    intro ts
    induction ts with
    | nil => intro _; rfl
    | cons u us ih =>
      intro seen
      rw [List.filter_cons]
      by_cases hu : key u = key t
      · simp only [dedupeKeys, List.contains_eq_mem, List.mem_append, hu, List.mem_singleton, or_true, decide_true, if_true,
          ih, ne_eq, not_true, decide_false, Bool.false_eq_true, if_false]
      · simp only [hu, ne_eq, not_false_eq_true, decide_true, if_true, dedupeKeys, List.contains_eq_mem, List.mem_append,
          List.mem_singleton, or_false, ih, ← List.cons_append]
  conv => lhs; unfold dedupeKeys
  simp only [List.contains_nil, Bool.false_eq_true, if_false]
  rw [← this ts []]; rfl

/-- C25: no two entries of the result have the same key. -/
theorem C25_keys_unique {T : Type} (key : T → Str) (all : List T) : ((firstOfEach key all).map key).Nodup := by
  induction hn : all.length using Nat.strongRecOn generalizing all with
  | _ n ih =>
    cases all with
    | nil => simp [firstOfEach]
    | cons t ts =>
      rw [firstOfEach_cons, List.map_cons, List.nodup_cons]
      have hl : (ts.filter fun u => key u ≠ key t).length ≤ ts.length := List.length_filter_le _ _
      refine ⟨?_, ih _ (by simp at hn; omega) _ rfl⟩
      intro hm
      obtain ⟨u, hu, he⟩ := List.mem_map.1 hm
      unfold firstOfEach at hu
      obtain ⟨i, _, hi⟩ := List.mem_filterMap.1 hu
      obtain ⟨v, hv, hvu⟩ := Option.bind_eq_some_iff.1 hi
      have : v ∈ ts.filter fun u => key u ≠ key t := List.mem_of_getElem? hv
      split at hvu
      · cases hvu
      · cases hvu; simp at this; exact this.2 he

/-- C25: looking a key up in the result gives the entry that a lookup in all entries gives; in particular no key is lost. -/
theorem C25_lookup {T : Type} (key : T → Str) (all : List T) (k : Str) :
    (firstOfEach key all).find? (key · = k) = all.find? (key · = k) := by
  induction hn : all.length using Nat.strongRecOn generalizing all with
  | _ n ih =>
    cases all with
    | nil => simp [firstOfEach]
    | cons t ts =>
      rw [firstOfEach_cons, List.find?_cons, List.find?_cons]
      by_cases hk : key t = k
      · simp [hk]
      · have hl : (ts.filter fun u => key u ≠ key t).length ≤ ts.length := List.length_filter_le _ _
        simp only [hk, decide_false]
        rw [ih _ (by simp at hn; omega) _ rfl, List.find?_filter]
        congr 1; funext u
        by_cases h : key u = k
        · have : key u ≠ key t := fun e => hk (e ▸ h)
          simp [h]; exact fun e => hk e.symm
        · simp [h]

/- Non-vacuity (tests). -/
example : firstOfEach (·.1) [("a".toList, 1), ("b".toList, 2), ("a".toList, 3)] = [("a".toList, 1), ("b".toList, 2)] := by
  decide +kernel
/-- Two files, the second missing from the own directory but found as `main.bbl`; entries are lines `key`. -/
example :
    let fs : FS := ⟨fun p => if p = "d/r.bib".toList ∨ p = "d/main.bbl".toList then .file else if p = "d".toList then .dir else .absent,
      fun p => if p = "d/r.bib".toList then some "x".toList else some "xy".toList, fun _ => []⟩
    parseBibFile (fun s => .ok s) (fun c => .ok c) (fun c => [c]) fs (some "d".toList) "r, zzz,,".toList = "xy".toList := by
  decide +kernel

end L2J
