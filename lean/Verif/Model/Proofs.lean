import Verif.Model.Builder
/-! Model of the merging of proofs, latex2json/structure/builder.py:93-111, 236-264. It is off by default (:114). -/
namespace L2J.Prf

/-- `token.get("name", "").lower()` for an environment with a statement or a proof; `name` gives the name of a token (ASCII). -/
def mathName (name : Attrs → Str) : Item → Option Str
  | .tok a _ _ => if a.type = .math_env then some ((name a).map Char.toLower) else none
  | _ => none

/-- `is_nonproof_math_env`, builder.py:93-99. -/
def isStatement (name : Attrs → Str) (it : Item) : Bool :=
  match mathName name it with
  | some n => n != "proof".toList
  | none => false

/-- `is_proof_env`, builder.py:102-108. -/
def isProof (name : Attrs → Str) (it : Item) : Bool :=
  match mathName name it with
  | some n => n == "proof".toList
  | none => false

/-- `_merge_proof_environments`, builder.py:236-264: each token with what is put under its key `proof`. -/
def mergeProofs (name : Attrs → Str) : List Item → List (Item × Option Item)
  | [] => []
  | [x] => [(x, none)]
  | x :: y :: rest =>
    if isStatement name x && isProof name y then (x, some y) :: mergeProofs name rest else (x, none) :: mergeProofs name (y :: rest)

/-- `organize_content` on a list of which proofs have been merged: `_recursive_organize` (:335-410) never looks at the key `proof`. -/
def organizeMerged (name : Attrs → Str) (tokens : List Item) (n : Num) : Option (List Item × Num) :=
  organize ((mergeProofs name tokens).map (·.1)) n

/-- A token in which proofs have been merged, with what is under its key `proof`. -/
inductive MItem where
  | raw (s : Str)
  | lst (l : List MItem)
  | tok (a : Attrs) (title content : List MItem) (proof : Option MItem)

/-- The name in lower case, as `mathName`. -/
def MItem.name (name : Attrs → Str) : MItem → Option Str
  | .tok a _ _ _ => if a.type = .math_env then some ((name a).map Char.toLower) else none
  | _ => none

/-- `is_nonproof_math_env`, builder.py:93-99. -/
def MItem.isStatement (name : Attrs → Str) (x : MItem) : Bool :=
  match x.name name with
  | some n => n != "proof".toList
  | none => false

/-- `is_proof_env`, builder.py:102-108. -/
def MItem.isProof (name : Attrs → Str) (x : MItem) : Bool :=
  match x.name name with
  | some n => n == "proof".toList
  | none => false

/-- `current_token["proof"] = next_token`, :256. -/
def MItem.under : MItem → MItem → MItem
  | .tok a t c _, y => .tok a t c (some y)
  | x, _ => x

/-- `_merge_proof_environments`, :236-264, on tokens whose contents have been processed. -/
def mergeList (name : Attrs → Str) : List MItem → List MItem
  | [] => []
  | [x] => [x]
  | x :: y :: rest =>
    if x.isStatement name && y.isProof name then
      x.under y :: mergeList name rest
    else x :: mergeList name (y :: rest)

mutual
/-- One token in `recursive_process`, :266-301: title and content are processed first. The content of a tabular is a list of rows, which are lists, so that merging the
rows (which the code does not) changes nothing (`mergeList_rows`). Joining texts of the same style (:299-300), which comes after the merging in each list and only
concerns texts, is not part of this model (it is `procItem` in Model/Builder). -/
def mergeItem (name : Attrs → Str) : Item → MItem
  | .raw s => .raw s
  | .lst l => .lst (mergeList name (mergeItems name l))
  | .tok a t c => .tok a (mergeList name (mergeItems name t)) (mergeList name (mergeItems name c)) none
/-- The loop over a list. -/
def mergeItems (name : Attrs → Str) : List Item → List MItem
  | [] => []
  | x :: l => mergeItem name x :: mergeItems name l
end

/-- `_process_tokens` with `merge_proof_environments` on. -/
def mergeAll (name : Attrs → Str) (tokens : List Item) : List MItem := mergeList name (mergeItems name tokens)

end L2J.Prf
