import Verif.Spec.Files
import Verif.Lemmas.Comments
/-! C29: choosing the main file of a folder. -/
namespace L2J
open Spec

theorem findSub_contains (sub : Str) (hs : sub ≠ []) : ∀ s : Str, (findSub sub s).isSome = true ↔ Contains s sub := by
  intro s
  induction s with
  | nil =>
    unfold findSub
    cases sub with
    | nil => exact absurd rfl hs
    | cons a as =>
      simp only [List.isEmpty_cons, Bool.false_eq_true, if_false, Option.isSome_none, false_iff]
      rintro ⟨x, y, h⟩; simp at h
  | cons c cs ih =>
    unfold findSub
    split
    next h =>
      simp only [Option.isSome_some, true_iff]
      obtain ⟨t, ht⟩ := List.isPrefixOf_iff_prefix.1 h
      exact ⟨[], t, by simp [ht]⟩
    next h =>
      rw [Option.isSome_map, ih]
      constructor
      · rintro ⟨a, b, rfl⟩; exact ⟨c :: a, b, by simp⟩
      · rintro ⟨a, b, hab⟩
        cases a with
        | nil => exact absurd (List.isPrefixOf_iff_prefix.2 ⟨b, by simpa using hab.symm⟩) h
        | cons x a => simp at hab; exact ⟨a, b, by simp [hab.2]⟩

theorem isMain_iff (s : Str) : isMainTex s = true ↔
    (Contains (stripLatexComments s) "\\documentclass".toList ∨ Contains (stripLatexComments s) "\\begin{document}".toList) := by
  unfold isMainTex
  simp only [Bool.or_eq_true]
  rw [findSub_contains _ (by decide), findSub_contains _ (by decide)]

/-- The executable form of the criterion. -/
def Spec.looksMainB (f : List Str × Option Str) : Bool :=
  (match f.1.getLast? with | some n => endsWith n ".tex".toList | none => false) &&
  (match f.2 with | some s => isMainTex s | none => false)

theorem looksMainB_iff (f : List Str × Option Str) : looksMainB f = true ↔ LooksMain f := by
  unfold looksMainB LooksMain
  rw [Bool.and_eq_true]
  refine and_congr ?_ ?_
  · cases h : f.1.getLast? with
    | none => simp
    | some n => simp [endsWith]
  · cases h : f.2 with
    | none => simp
    | some s => simp [isMain_iff]

theorem findMainIn_eq (root : List Str) (fs : List (Str × Option Str)) :
    findMainIn root fs = ((fs.map fun f => (root ++ [f.1], f.2)).find? looksMainB).map (·.1) := by
  induction fs with
  | nil => rfl
  | cons f fs ih =>
    obtain ⟨name, text⟩ := f
    unfold findMainIn
    rw [List.map_cons, List.find?_cons]
    cases he : endsWith name ".tex".toList with
    | false => 
      have : looksMainB (root ++ [name], text) = false := by
        simp only [looksMainB, List.getLast?_append, List.getLast?_singleton, Option.some_or, he, Bool.false_and]
      simp only [Bool.false_eq_true, if_false, this, ih]
    | true =>
      cases text with
      | none =>
        have : looksMainB (root ++ [name], none) = false := by simp [looksMainB]
        simp only [if_true, this, ih]
      | some s =>
        have : looksMainB (root ++ [name], some s) = isMainTex s := by
          simp only [looksMainB, List.getLast?_append, List.getLast?_singleton, Option.some_or, he, Bool.true_and]
        simp only [if_true, this, ih]
        cases isMainTex s <;> simp

mutual
theorem findMain_eq (root : List Str) : ∀ t, findMain root t = ((walk root t).find? looksMainB).map (·.1)
  | .node files dirs => by
    unfold findMain walk
    rw [findMainIn_eq, List.find?_append, findMainDirs_eq root dirs]
    cases (files.map fun f => (root ++ [f.1], f.2)).find? looksMainB <;> simp
theorem findMainDirs_eq (root : List Str) : ∀ ds, findMainDirs root ds = ((walkDirs root ds).find? looksMainB).map (·.1)
  | [] => rfl
  | (name, t) :: ds => by
    unfold findMainDirs walkDirs
    rw [List.find?_append, findMain_eq (root ++ [name]) t, findMainDirs_eq root ds]
    cases (walk (root ++ [name]) t).find? looksMainB <;> simp
end

/-- C29: the result is the path of a readable `.tex` file that looks like a main document, and no file before it in walk
order does. -/
theorem C29_first_main (t : DirTree) (p : List Str) :
    findMain [] t = some p ↔ ∃ before text after, walk [] t = before ++ (p, text) :: after ∧ LooksMain (p, text) ∧
      ∀ f ∈ before, ¬ LooksMain f := by
  rw [findMain_eq, Option.map_eq_some_iff]
  constructor
  · rintro ⟨⟨q, text⟩, hf, rfl⟩
    obtain ⟨hp, as, bs, hl, hb⟩ := List.find?_eq_some_iff_append.1 hf
    refine ⟨as, text, bs, hl, (looksMainB_iff _).1 hp, fun f hm h => ?_⟩
    have := hb f hm
    rw [(looksMainB_iff f).2 h] at this
    cases this
  · rintro ⟨as, text, bs, hl, hp, hb⟩
    refine ⟨(p, text), List.find?_eq_some_iff_append.2 ⟨(looksMainB_iff _).2 hp, as, bs, hl, fun f hm => ?_⟩, rfl⟩
    cases h : looksMainB f with
    | false => rfl
    | true => exact absurd ((looksMainB_iff f).1 h) (hb f hm)

/-- C29: `FileNotFoundError` is raised exactly when there is no such file. -/
theorem C29_not_found (t : DirTree) : findMain [] t = none ↔ ∀ f ∈ walk [] t, ¬ LooksMain f := by
  rw [findMain_eq, Option.map_eq_none_iff, List.find?_eq_none]
  refine forall₂_congr fun f _ => ?_
  rw [looksMainB_iff]

/- Non-vacuity (tests): an unreadable file, one whose `\documentclass` is commented out and a main file in a
sub-directory. -/
example : findMain [] (.node [("a.tex".toList, none), ("b.tex".toList, some "% \\documentclass{x}".toList),
      ("c.txt".toList, some "\\documentclass{x}".toList)]
    [("sub".toList, .node [("m.tex".toList, some "a\n\\begin{document}".toList)] [])]) =
    some ["sub".toList, "m.tex".toList] := by decide +kernel
example : findMain [] (.node [("b.tex".toList, some "% \\documentclass{x}".toList)] []) = none := by decide +kernel

end L2J
