import Verif.Lemmas.Canon
/-!
C17 Adjacent text merging is canonical: after text concatenation no two adjacent text tokens with equal
styles remain at a concatenated level, non-text tokens are kept in order, merged text is the concatenation
of the originals up to one inserted space between neighbours, and running it again changes nothing.
-/
namespace L2J
open Spec

/-- Merging one level: the list is cut into consecutive groups, each a single item or a run of text tokens
with the same styles, and each group becomes one item; no two neighbours can be merged any more (so the
groups are maximal). -/
theorem C17_merge (l : List Item) :
    (∃ gs : List (List Item), l = gs.flatten ∧ (concatText none l).map some = gs.map mergeRun ∧ ∀ g ∈ gs, IsRun g) ∧
    NoMergeable (concatText none l) := by
  obtain ⟨gs, h1, h2, h3⟩ := concat_groups l none [] rfl
  exact ⟨⟨gs, by simpa using h1, h2, h3⟩, concat_noMergeable l none (by simp)⟩

/-- Items other than text tokens are kept, in order. -/
theorem C17_others_kept (l : List Item) [DecidablePred fun x => ¬ IsText x] :
    (concatText none l).filter (fun x => ¬ IsText x) = l.filter (fun x => ¬ IsText x) := by
  obtain ⟨gs, h1, h2, h3⟩ := concat_groups l none [] rfl
  rw [show l = gs.flatten by simpa using h1] at *
  clear h1
  generalize concatText none gs.flatten = out at h2
  induction gs generalizing out with
  | nil =>
    simp only [List.map_nil, List.map_eq_nil_iff] at h2
    subst h2; rfl
  | cons g gs ih =>
    cases out with
    | nil => simp at h2
    | cons y out =>
      simp only [List.map_cons, List.cons.injEq] at h2
      rw [List.flatten_cons, List.filter_append, ← ih (fun g hg => h3 g (by simp [hg])) out h2.2]
      have : (y :: out).filter (fun x => ¬ IsText x) = [y].filter (fun x => ¬ IsText x) ++ out.filter (fun x => ¬ IsText x) := by
        rw [← List.filter_append]; rfl
      rw [this]
      congr 1
      rcases h3 g (by simp) with ⟨x, rfl⟩ | ⟨x, r, rfl, hr, hs⟩
      · have : y = x := by simpa [mergeRun] using h2.1
        rw [this]
      · cases r with
        | nil => exact absurd rfl hr
        | cons z r =>
          cases x with
          | raw s => have := hs z (by simp); cases z <;> simp [SameText] at this
          | lst s => have := hs z (by simp); cases z <;> simp [SameText] at this
          | tok a t c =>
            simp only [mergeRun, Option.some.injEq] at h2
            have hall : ∀ w ∈ Item.tok a t c :: z :: r, IsText w := by
              intro w hw
              rcases List.mem_cons.1 hw with rfl | hw
              · have := hs z (by simp); cases z <;> simp [SameText] at this; exact this.1
              · have := hs w hw
                cases w with
                | raw s => simp [SameText] at this
                | lst s => simp [SameText] at this
                | tok b u d => exact this.2.1
            have e1 : (Item.tok a t c :: z :: r).filter (fun x => ¬ IsText x) = [] :=
              List.filter_eq_nil_iff.2 (by intro w hw; simpa using hall w hw)
            rw [e1, List.filter_eq_nil_iff]
            intro w hw
            simp only [List.mem_singleton] at hw
            have := hall (.tok a t c) (by simp)
            rw [hw, h2.1, decide_eq_true_eq]
            exact fun h => h this

/-- Merging one level twice is merging it once. -/
theorem C17_level_idempotent (l : List Item) : concatText none (concatText none l) = concatText none l :=
  concat_idem l

/-- The pass over the whole document leaves no mergeable neighbours at any level that is merged (titles,
contents, nested lists; the rows of a table are lists of cells and are not merged), and running it again
changes nothing. -/
theorem C17_deep (l : List Item) :
    NoMergeable (processTokens l) ∧ CanonItems (processTokens l) ∧ processTokens (processTokens l) = processTokens l :=
  ⟨(processTokens_canon l).1, (processTokens_canon l).2, processTokens_idem l⟩

/-- Text as the builder joins it. -/
example : joinText "a".toList "b".toList = "a b".toList ∧ joinText "a".toList ", b".toList = "a, b".toList ∧
    joinText "(".toList "b".toList = "(b".toList := by decide

/-- A concrete document: three texts, two of them with the same styles, around an equation. -/
example :
    let tx (s : String) (st : Option (List Str)) : Item := .tok { type := .text, text := some s.toList, styles := st } [] []
    let eq : Item := .tok { type := .equation } [] []
    processTokens [tx "a" none, tx "b" none, tx "c" (some []), eq, tx "d" none] =
      [tx "a b" none, tx "c" (some []), eq, tx "d" none] := by rfl

end L2J
