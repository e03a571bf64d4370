import Verif.Model.Builder
/-!
C18 Building is repeatable and pure: building the same tokens twice with one builder, with any other builds
in between, gives the same output, and does not change the caller's token list.
-/
namespace L2J

/-- The counters a builder is left with after a sequence of builds. A build that raises leaves the counters
in whatever state `onError` says. -/
def afterBuilds (onError : Num → List Item → Num) (st : Num) : List (List Item) → Num
  | [] => st
  | doc :: docs =>
    afterBuilds onError (match organizeContent st doc with
      | some (_, st) => st
      | none => onError st doc) docs

/-- The output of building a document does not depend on what the builder built before, successfully or
not: it is what a fresh builder would produce.

Missing: that the caller's tokens are left alone (`copy.deepcopy`, builder.py:303) is not expressible here,
because the model has values and no shared references. -/
theorem C18_repeatable_partial (onError : Num → List Item → Num) (history : List (List Item)) (doc : List Item) :
    organizeContent (afterBuilds onError {} history) doc = organizeContent {} doc := rfl

/-- In particular the second of two builds of one document, with others in between. -/
theorem C18_twice_partial (onError : Num → List Item → Num) (between : List (List Item)) (st : Num) (doc : List Item) :
    organizeContent (afterBuilds onError st (doc :: between)) doc = organizeContent st doc := rfl

/-- The history matters to the counters (so forgetting to reset them would show). -/
example : afterBuilds (fun n _ => n) {} [[.tok { type := .equation, numbered := some true } [] []]] = { eq := 1 } := by rfl

end L2J
