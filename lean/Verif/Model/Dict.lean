import Verif.Model.PyStr
/-! Python dictionaries with string keys. -/
namespace L2J

/-- A Python `dict`: its entries in insertion order. -/
abbrev Dict (β : Type) := List (Str × β)

/-- `d[k] = v`: assigning to an existing key keeps its place. -/
def Dict.set {β} : Dict β → Str → β → Dict β
  | [], k, v => [(k, v)]
  | (k', v') :: d, k, v => if k' = k then (k, v) :: d else (k', v') :: Dict.set d k v

/-- `d.get(k)`. -/
def Dict.get? {β} : Dict β → Str → Option β
  | [], _ => none
  | (k', v) :: d, k => if k' = k then some v else Dict.get? d k

/-- `d.pop(k, None)`. -/
def Dict.pop {β} (d : Dict β) (k : Str) : Dict β := d.filter (fun e => e.1 ≠ k)

/-- `k in d`. -/
def Dict.has {β} (d : Dict β) (k : Str) : Bool := (Dict.get? d k).isSome

theorem Dict.get?_set {β} (d : Dict β) (k : Str) (v : β) (k' : Str) :
    Dict.get? (Dict.set d k v) k' = if k = k' then some v else Dict.get? d k' := by
  induction d with
  | nil => simp [Dict.set, Dict.get?]
  | cons e d ih =>
    obtain ⟨a, b⟩ := e
    simp only [Dict.set]
    by_cases h : a = k
    · subst h; simp only [if_true, Dict.get?]; by_cases h2 : a = k' <;> simp [h2]
    · simp only [if_neg h, Dict.get?, ih]
      by_cases h2 : a = k'
      · subst h2; simp [Ne.symm h]
      · simp [h2]

theorem Dict.get?_pop {β} (d : Dict β) (k k' : Str) :
    Dict.get? (Dict.pop d k) k' = if k = k' then none else Dict.get? d k' := by
  induction d with
  | nil => simp [Dict.pop, Dict.get?]
  | cons e d ih =>
    obtain ⟨a, b⟩ := e
    unfold Dict.pop at ih ⊢
    by_cases h : a = k
    · subst h
      simp only [List.filter_cons, ne_eq, not_true_eq_false, decide_false, Bool.false_eq_true, if_false, Dict.get?, ih]
      by_cases h2 : a = k' <;> simp [h2]
    · simp only [List.filter_cons, ne_eq, h, not_false_eq_true, decide_true, if_true, Dict.get?, ih]
      by_cases h2 : a = k'
      · subst h2; simp [Ne.symm h]
      · simp [h2]

theorem Dict.set_new {β} (d : Dict β) (k : Str) (v : β) (h : ∀ e ∈ d, e.1 ≠ k) : Dict.set d k v = d ++ [(k, v)] := by
  induction d with
  | nil => rfl
  | cons e d ih =>
    obtain ⟨a, b⟩ := e
    simp only [Dict.set]
    rw [if_neg (h (a, b) (by simp)), ih (fun e he => h e (by simp [he]))]
    rfl

end L2J
