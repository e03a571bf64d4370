import Verif.Spec.EnvToken
import Verif.Props.C03
import Verif.Props.C42
import Verif.Props.C53
/-! C55: the built-in environments. -/
namespace L2J.EnvT
open Spec

theorem get?_mem {β} (d : Dict β) (k : Str) (v : β) (h : Dict.get? d k = some v) : (k, v) ∈ d := by
  induction d with
  | nil => simp [Dict.get?] at h
  | cons e d ih =>
    obtain ⟨a, b⟩ := e
    simp only [Dict.get?] at h
    by_cases hk : a = k
    · rw [if_pos hk] at h; injection h with h; simp [hk, h]
    · rw [if_neg hk] at h; exact List.mem_cons_of_mem _ (ih h)

theorem get?_none {β} (d : Dict β) (k : Str) (h : ∀ e ∈ d, e.1 ≠ k) : Dict.get? d k = none := by
  cases hg : Dict.get? d k with
  | none => rfl
  | some v => exact absurd rfl (h _ (get?_mem d k v hg))

theorem rows_type : ∀ r ∈ theoremRows ++ otherRows, envType r.name.toList = r.type.toList := by decide +kernel

theorem rows_args : ∀ r ∈ otherRows, (Dict.get? envArgs r.name.toList).map (·.2) = if r.reqs = 0 ∧ r.name ≠ "table" ∧ r.name ≠ "figure" then none else some r.reqs := by
  decide +kernel

theorem rows_numbered : ∀ r ∈ otherRows, ∀ s : Bool, isNumbered s r.type.toList r.name.toList = decide (r.numbering = .always) ∧ r.numbering ≠ .unstarred ∧ r.type ≠ "math_env" := by
  decide +kernel

theorem thms_numbered : ∀ r ∈ theoremRows, numberedMath.contains r.name.toList = decide (r.numbering = .unstarred) ∧ r.numbering ≠ .always ∧ r.type = "math_env" ∧ r.reqs = 0 ∧
    lower r.name.toList = r.name.toList := by decide +kernel

theorem args_not_theorem : ∀ e ∈ envArgs, ∀ r ∈ theoremRows, lower e.1 ≠ r.name.toList := by decide +kernel

theorem args_known : ∀ e ∈ envArgs, ∃ q ∈ theoremRows ++ otherRows, lower q.name.toList = lower e.1 := by decide +kernel

theorem types_known : ∀ e ∈ envTypes, ∃ q ∈ theoremRows ++ otherRows, lower q.name.toList = e.1 := by decide +kernel

theorem mathless : ¬ ("environment".toList = "math_env".toList) := by decide

/-- The tables of the code say what the specification's rows say. -/
theorem described (r : EnvRow) (name : Str) (h : Describes r name) :
    envType name = r.type.toList ∧ (match Dict.get? envArgs name with | some a => a.2 | none => 0) = r.reqs ∧
    ∀ star : Bool, isNumbered star r.type.toList name = match r.numbering with | .never => false | .always => true | .unstarred => !star := by
  rcases h with ⟨hr, rfl⟩ | ⟨hr, hl⟩ | ⟨hno, h1, h2, h3⟩
  · refine ⟨rows_type r (List.mem_append_right _ hr), ?_, fun s => ?_⟩
    · have := rows_args r hr
      cases hg : Dict.get? envArgs r.name.toList with
      | none =>
        rw [hg] at this
        simp only [Option.map_none] at this
        split at this
        · rename_i h; exact h.1.symm
        · simp at this
      | some a =>
        rw [hg] at this
        simp only [Option.map_some] at this
        split at this
        · simp at this
        · injection this
    · obtain ⟨h1, h2, _⟩ := rows_numbered r hr s
      rw [h1]
      cases hn : r.numbering with
      | never => rfl
      | always => rfl
      | unstarred => exact absurd hn h2
  · obtain ⟨h1, h2, h3, h4, h5⟩ := thms_numbered r hr
    have ht : envType name = r.type.toList := by
      rw [← rows_type r (List.mem_append_left _ hr)]
      unfold envType
      rw [h5, hl]
    refine ⟨ht, ?_, fun s => ?_⟩
    · rw [h4]
      cases hg : Dict.get? envArgs name with
      | none => rfl
      | some a => exact absurd hl.symm (args_not_theorem _ (get?_mem _ _ _ hg) r hr)
    · unfold isNumbered
      rw [← hl, h1, h3]
      cases s with
      | false =>
        rw [if_pos ⟨rfl, rfl⟩]
        cases hn : r.numbering with
        | never => rfl
        | always => exact absurd hn h2
        | unstarred => rfl
      | true =>
        rw [if_neg (by simp)]
        have : (decide ("math_env".toList = "table".toList ∨ "math_env".toList = "figure".toList ∨ "math_env".toList = "algorithm".toList)) = false := by decide
        rw [this]
        cases hn : r.numbering with
        | never => rfl
        | always => exact absurd hn h2
        | unstarred => rfl
  · have ht : envType name = "environment".toList := by
      unfold envType
      rw [get?_none]
      · rfl
      · intro e he heq
        obtain ⟨q, hq, hl⟩ := types_known e he
        exact hno q hq (by rw [hl, heq])
    refine ⟨by rw [ht, h1], ?_, fun s => ?_⟩
    · rw [get?_none, h3]
      intro e he heq
      obtain ⟨q, hq, hl⟩ := args_known e he
      exact hno q hq (by rw [hl, heq])
    · rw [h1, h2]
      unfold isNumbered
      rw [if_neg (by rintro ⟨h, _⟩; exact mathless h)]
      have : (decide ("environment".toList = "table".toList ∨ "environment".toList = "figure".toList ∨ "environment".toList = "algorithm".toList)) = false := by decide
      rw [this]
      rfl

/-- No block where something else starts. -/
theorem extract_other (o c : Char) (s : Str) (h : (s.dropWhile isSpace).head? ≠ some o) (hos : isSpace o = false) :
    extractNestedContent s o c = none := by
  rw [extract_none_iff]
  rintro ⟨k, e, hs, hb⟩
  have hop := (liveAt_get hb.opener).1
  apply h
  have : s.dropWhile isSpace = s.drop k := by
    have h1 : s = s.take k ++ s.drop k := (List.take_append_drop k s).symm
    conv => lhs; rw [h1]
    have := (takeWhile_wrap_ws (s.take k) (s.drop k) ?_ ?_).2
    · exact this
    · intro x hx
      obtain ⟨j, hj, rfl⟩ := List.mem_iff_getElem.1 hx
      simp at hj
      obtain ⟨y, hy, hy2⟩ := hs.1 j (by omega)
      rw [List.getElem_take]
      rw [List.getElem?_eq_getElem (by omega)] at hy
      injection hy with hy
      rw [hy]; exact hy2
    · intro x hx
      rw [List.head?_drop, hop] at hx
      simp at hx
      subst hx
      exact hos
  rw [this, List.head?_drop, hop]

theorem args_one : ∀ e ∈ envArgs, e.2.1 ≤ 1 := by decide +kernel

theorem drop_lead (lead s : Str) (h : ∀ c ∈ lead, isSpace c = true) : (lead ++ s).dropWhile isSpace = s.dropWhile isSpace :=
  List.dropWhile_append_of_pos h

/-- The arguments in braces, blanks before them. -/
theorem args_spec (lead body : Str) (reqs : List (Str × Str)) (n o : Nat) (hlead : ∀ c ∈ lead, isSpace c = true)
    (hrq : WellWrapped '{' '}' reqs) (hlen : reqs.length ≤ n) (hmore : reqs.length < n → (body.dropWhile isSpace).head? ≠ some '{')
    (ho : 0 < o → reqs = [] → (body.dropWhile isSpace).head? ≠ some '[') :
    extractArgs (lead ++ (wrapAll '{' '}' reqs ++ body)) n o =
      ⟨reqs.map (·.2), [], if reqs = [] then 0 else (lead ++ wrapAll '{' '}' reqs).length⟩ := by
  have h1 : (if o > 0 then seqBlocks (lead ++ (wrapAll '{' '}' reqs ++ body)) '[' ']' (some o) else ([], 0)) = ([], 0) := by
    by_cases hp : o > 0
    · rw [if_pos hp]
      have := seqBlocks_wrap_more '[' ']' (by decide) (by decide) (by decide) [] o (lead ++ (wrapAll '{' '}' reqs ++ body)) (by intro e he; simp at he) (by
        rw [drop_lead _ _ hlead]
        cases reqs with
        | nil => exact ho hp rfl
        | cons e l =>
          obtain ⟨ws, a⟩ := e
          have hw := (hrq (ws, a) (by simp)).1
          simp only [wrapAll, List.append_assoc]
          rw [drop_lead _ _ hw]
          simp only [List.cons_append, List.dropWhile_cons]
          rw [show isSpace '{' = false by decide, if_neg (by simp)]
          simp)
      simpa [wrapAll] using this
    · rw [if_neg hp]
  have h2 : seqBlocks (lead ++ (wrapAll '{' '}' reqs ++ body)) '{' '}' (some n) =
      (reqs.map (·.2), if reqs = [] then 0 else (lead ++ wrapAll '{' '}' reqs).length) := by
    cases reqs with
    | nil =>
      rw [if_pos rfl]
      by_cases hn : 0 < n
      · have := seqBlocks_wrap_more '{' '}' (by decide) (by decide) (by decide) [] n (lead ++ body) (by intro e he; simp at he) (by
          rw [drop_lead _ _ hlead]; exact hmore hn)
        simpa [wrapAll] using this
      · have : n = 0 := by omega
        subst this
        rfl
    | cons e l =>
      obtain ⟨ws, a⟩ := e
      rw [if_neg (by simp)]
      have hww : WellWrapped '{' '}' ((lead ++ ws, a) :: l) := by
        intro e he
        simp at he
        rcases he with rfl | he
        · refine ⟨?_, (hrq (ws, a) (by simp)).2⟩
          intro c hc
          rcases List.mem_append.1 hc with hc | hc
          · exact hlead c hc
          · exact (hrq (ws, a) (by simp)).1 c hc
        · exact hrq e (by simp [he])
      have e1 : lead ++ (wrapAll '{' '}' ((ws, a) :: l) ++ body) = wrapAll '{' '}' ((lead ++ ws, a) :: l) ++ body := by simp [wrapAll]
      have e2 : (lead ++ wrapAll '{' '}' ((ws, a) :: l)) = wrapAll '{' '}' ((lead ++ ws, a) :: l) := by simp [wrapAll]
      rw [e1, e2]
      by_cases hn : ((ws, a) :: l).length < n
      · have := seqBlocks_wrap_more '{' '}' (by decide) (by decide) (by decide) ((lead ++ ws, a) :: l) (n - ((ws, a) :: l).length) body hww (hmore hn)
        rw [show ((lead ++ ws, a) :: l).length + (n - ((ws, a) :: l).length) = n by simp at hn ⊢; omega] at this
        rw [this]
        rfl
      · have : n = ((lead ++ ws, a) :: l).length := by simp at hn hlen ⊢; omega
        rw [this, seqBlocks_wrap '{' '}' (by decide) (by decide) (by decide) _ _ hww]
        rfl
  unfold extractArgs
  simp only [h1]
  by_cases hn : n > 0
  · rw [if_pos hn, if_neg (Nat.lt_irrefl 0), h2]
  · have : reqs = [] := List.length_eq_zero_iff.1 (by omega)
    subst this
    rw [if_neg hn]
    rfl

theorem args_drop (lead body : Str) (reqs : List (Str × Str)) :
    (lead ++ (wrapAll '{' '}' reqs ++ body)).drop (if reqs = [] then 0 else (lead ++ wrapAll '{' '}' reqs).length) =
      if reqs = [] then lead ++ body else body := by
  by_cases h : reqs = []
  · subst h; rw [if_pos rfl, if_pos rfl]; rfl
  · rw [if_neg h, if_neg h, ← List.append_assoc, List.drop_left]

theorem reqs_zero {reqs : List (Str × Str)} (h : reqs.length ≤ 0) : reqs = [] := List.length_eq_zero_iff.1 (by omega)

/-- `_handle_environment` on arguments and a body. -/
theorem baseToken_spec (thms floats : Dict Str) (r : EnvRow) (w : Str) (u : EnvInner) (hr : Describes r (goesBy (Dict.get? thms) w))
    (hf : u.Fits r.reqs) :
    baseToken thms floats w u.render = envWith (Dict.get? thms) (Dict.get? floats) r w u u.untrimmed := by
  unfold envWith EnvInner.untrimmed
  obtain ⟨hlead, hbr, hrq, hlen, hmore, hopt⟩ := hf
  obtain ⟨d1, d2, d3⟩ := described r _ hr
  have hnum : isNumbered (w.contains '*') r.type.toList (goesBy (Dict.get? thms) w) =
      (match r.numbering with | .never => false | .always => true | .unstarred => decide ('*' ∉ w)) := by
    rw [d3]
    cases r.numbering with
    | never => rfl
    | always => rfl
    | unstarred => simp
  have hmath : (r.type.toList = "math_env".toList) = (r.type = "math_env") := by
    apply propext
    constructor
    · intro h; exact String.ext h
    · intro h; rw [h]
  -- the bracket
  have hx : extractNestedContent u.render '[' ']' = u.bracket.map fun t => (t, u.lead.length + t.length + 2) := by
    unfold EnvInner.render EnvInner.opt
    cases hb : u.bracket with
    | some t =>
      have := hbr t (by simp [hb])
      have h := C01_round_trip u.lead t (wrapAll '{' '}' u.reqs ++ u.body) '[' ']' hlead (by decide) (by decide) (by decide) this.1 this.2
      simpa using h
    | none =>
      apply extract_other _ _ _ _ (by decide)
      rw [drop_lead _ _ hlead]
      cases hq : u.reqs with
      | nil => exact hopt hb hq
      | cons e l =>
        obtain ⟨ws, a⟩ := e
        have hw := (hrq (ws, a) (by simp [hq])).1
        simp only [wrapAll, List.append_assoc, List.nil_append]
        rw [drop_lead _ _ hw]
        simp only [List.cons_append, List.dropWhile_cons]
        rw [show isSpace '{' = false by decide, if_neg (by simp)]
        simp
  have hrest : ∀ t, u.bracket = some t → u.render.drop (u.lead.length + t.length + 2) = wrapAll '{' '}' u.reqs ++ u.body := by
    intro t ht
    unfold EnvInner.render EnvInner.opt
    rw [ht]
    simp only
    rw [← List.append_assoc, show u.lead.length + t.length + 2 = (u.lead ++ '[' :: (t ++ [']'])).length by simp; omega, List.drop_left]
  unfold baseToken
  simp only [hx]
  rw [show (Option.getD (Dict.get? thms (w.filter (· ≠ '*'))) (w.filter (· ≠ '*'))) = goesBy (Dict.get? thms) w from rfl]
  generalize hg : goesBy (Dict.get? thms) w = g at *
  rw [d1, hnum]
  have htitle : bracketTitle r.type.toList (u.bracket.map fun t => (t, u.lead.length + t.length + 2)) =
      (if r.type = "math_env" then u.bracket.filter (· ≠ []) else none) := by
    cases u.bracket with
    | none => simp [bracketTitle]
    | some t =>
      simp only [Option.map_some, bracketTitle, hmath, Option.filter_some]
      by_cases h1 : t = []
      · simp [h1]
      · by_cases h2 : r.type = "math_env" <;> simp [h1, h2]
  rw [htitle]
  cases ha : Dict.get? envArgs g with
  | none =>
    rw [ha] at d2
    have hq : u.reqs = [] := by rw [← d2] at hlen; exact reqs_zero hlen
    simp only [hq, List.map_nil]
    congr 1
    cases hb : u.bracket with
    | some t =>
      simp only [Option.map_some, bracketRest]
      rw [hrest t hb, hq]
      simp [wrapAll]
    | none =>
      simp only [Option.map_none, bracketRest]
      unfold EnvInner.render EnvInner.opt
      rw [hb, hq]
      simp [wrapAll]
  | some a =>
    obtain ⟨o, n⟩ := a
    rw [ha] at d2
    simp only at d2
    subst d2
    have ho := args_one _ (get?_mem _ _ _ ha)
    simp only at ho
    cases hb : u.bracket with
    | some t =>
      simp only [Option.map_some, bracketRest, Option.isSome_some, hrest t hb]
      have ho' : (if 0 < o ∧ True then o - 1 else o) = 0 := by
        by_cases h : 0 < o
        · rw [if_pos ⟨h, trivial⟩]; omega
        · rw [if_neg (fun x => h x.1)]; omega
      rw [ho']
      have := args_spec [] u.body u.reqs r.reqs 0 (by simp) hrq hlen hmore (by simp)
      simp only [List.nil_append] at this
      have hd := args_drop [] u.body u.reqs
      simp only [List.nil_append] at hd
      rw [this, hd]
      simp
      cases r.numbering <;> rfl
    | none =>
      simp only [Option.map_none, bracketRest, Option.isSome_none]
      have ho' : (if 0 < o ∧ false = true then o - 1 else o) = o := by rw [if_neg (by simp)]
      rw [ho']
      have hr2 : u.render = u.lead ++ (wrapAll '{' '}' u.reqs ++ u.body) := by
        unfold EnvInner.render EnvInner.opt; rw [hb]; rfl
      rw [hr2, args_spec u.lead u.body u.reqs r.reqs o hlead hrq hlen hmore (fun _ hq => hopt hb hq), args_drop]
      simp
      cases r.numbering <;> rfl

/-- Trimming what is written in an environment. -/
theorem strip_render (u : EnvInner) (hl : ∀ c ∈ u.lead, isSpace c = true) (hq : u.bracket = none → ∀ e ∈ u.reqs, ∀ c ∈ e.1, isSpace c = true) :
    ∃ v : EnvInner, strip u.render = v.render ∧ v.bracket = u.bracket ∧ v.reqs.map (·.2) = u.reqs.map (·.2) ∧
      (u.bracket ≠ none ∨ u.reqs = [] → v.reqs = u.reqs) ∧ v.body = u.trimmed ∧ v.lead = [] ∧
      (∀ e ∈ v.reqs, e ∈ u.reqs ∨ ∃ ws, (ws, e.2) ∈ u.reqs ∧ e.1 = []) := by
  have hleft : ∀ s : Str, strip (u.lead ++ s) = strip s := by
    intro s
    unfold strip lstrip
    rw [List.dropWhile_append_of_pos hl]
  have keep : ∀ a b : Str, (∀ c, a.head? = some c → isSpace c = false) → (∀ c, a.getLast? = some c → isSpace c = false) → a ≠ [] →
      strip (a ++ b) = a ++ rstrip b := by
    intro a b h1 h2 hne
    unfold strip lstrip
    cases a with
    | nil => exact absurd rfl hne
    | cons c a =>
      have := h1 c rfl
      rw [List.cons_append, List.dropWhile_cons, this, if_neg (by simp), ← List.cons_append]
      exact Envs.rstrip_append (c :: a) b h2
  have hlast : ∀ (ws a : Str) (l : List (Str × Str)) (b : Str), ∃ x, b ++ wrapAll '{' '}' ((ws, a) :: l) = x ++ ['}'] := by
    intro ws a l
    induction l generalizing ws a with
    | nil => intro b; exact ⟨b ++ (ws ++ '{' :: a), by simp [wrapAll]⟩
    | cons e l ih =>
      intro b
      obtain ⟨ws', a'⟩ := e
      obtain ⟨x, hx⟩ := ih ws' a' (b ++ (ws ++ '{' :: (a ++ ['}'])))
      exact ⟨x, by rw [← hx]; simp [wrapAll]⟩
  unfold EnvInner.render EnvInner.opt EnvInner.trimmed
  rw [hleft]
  cases hb : u.bracket with
  | some t =>
    refine ⟨⟨[], some t, u.reqs, rstrip u.body⟩, ?_, rfl, rfl, fun _ => rfl, by simp, rfl, fun e he => .inl he⟩
    simp only
    rw [← List.append_assoc, keep]
    · simp
    · intro c hc; simp at hc; subst hc; decide
    · intro c hc
      cases hr : u.reqs with
      | nil =>
        rw [hr] at hc
        simp only [wrapAll, List.append_nil] at hc
        rw [show '[' :: (t ++ [']']) = ('[' :: t) ++ [']'] by simp, List.getLast?_append] at hc
        simp at hc; subst hc; decide
      | cons e l =>
        obtain ⟨ws, a⟩ := e
        rw [hr] at hc
        obtain ⟨x, hx⟩ := hlast ws a l ('[' :: (t ++ [']']))
        rw [hx, List.getLast?_append] at hc
        simp at hc; subst hc; decide
    · simp
  | none =>
    cases hr : u.reqs with
    | nil =>
      refine ⟨⟨[], none, [], strip u.body⟩, ?_, rfl, rfl, fun _ => rfl, ?_, rfl, by simp⟩
      · simp [wrapAll]
      · simp
    | cons e l =>
      obtain ⟨ws, a⟩ := e
      refine ⟨⟨[], none, ([], a) :: l, rstrip u.body⟩, ?_, rfl, rfl, ?_, ?_, rfl, ?_⟩
      · have hws : ∀ c ∈ ws, isSpace c = true := hq hb (ws, a) (by simp [hr])
        have e1 : ([] : Str) ++ (wrapAll '{' '}' ((ws, a) :: l) ++ u.body) = ws ++ (wrapAll '{' '}' (([], a) :: l) ++ u.body) := by simp [wrapAll]
        have e2 : strip (ws ++ (wrapAll '{' '}' (([], a) :: l) ++ u.body)) = strip (wrapAll '{' '}' (([], a) :: l) ++ u.body) := by
          unfold strip lstrip
          rw [List.dropWhile_append_of_pos hws]
        simp only
        rw [e1, e2, keep]
        · simp
        · intro c hc; simp [wrapAll] at hc; subst hc; decide
        · intro c hc
          obtain ⟨x, hx⟩ := hlast [] a l []
          rw [List.nil_append] at hx
          rw [hx, List.getLast?_append] at hc
          simp at hc; subst hc; decide
        · simp [wrapAll]
      · simp
      · simp
      · intro e he
        simp at he
        rcases he with rfl | he
        · exact .inr ⟨ws, by simp, rfl⟩
        · exact .inl (by simp [he])

theorem head_more (x q : Str) (c : Char) (h : (x.dropWhile isSpace).head? = some c) : ((x ++ q).dropWhile isSpace).head? = some c := by
  rw [List.dropWhile_append]
  cases hx : x.dropWhile isSpace with
  | nil => rw [hx] at h; simp at h
  | cons a l => rw [hx] at h; simpa using h

theorem rstrip_split (s : Str) : ∃ q, s = rstrip s ++ q := by
  refine ⟨(s.reverse.takeWhile isSpace).reverse, ?_⟩
  unfold rstrip
  rw [← List.reverse_append, List.takeWhile_append_dropWhile, List.reverse_reverse]

theorem trimmed_head (u : EnvInner) (c : Char) (h : (u.trimmed.dropWhile isSpace).head? = some c) : (u.body.dropWhile isSpace).head? = some c := by
  unfold EnvInner.trimmed at h
  split at h
  · obtain ⟨p, q, hp, _, he⟩ := strip_decomp u.body
    rw [he, drop_lead _ _ hp]
    exact head_more _ _ _ h
  · obtain ⟨q, hq⟩ := rstrip_split u.body
    rw [hq]
    exact head_more _ _ _ h

/-- The token of what is written in an environment, trimmed. -/
theorem baseToken_strip (thms floats : Dict Str) (r : EnvRow) (w : Str) (u : EnvInner) (hr : Describes r (goesBy (Dict.get? thms) w))
    (hf : u.Fits r.reqs) :
    baseToken thms floats w (strip u.render) = envExpected (Dict.get? thms) (Dict.get? floats) r w u := by
  obtain ⟨hlead, hbr, hrq, hlen, hmore, hopt⟩ := hf
  obtain ⟨v, h1, h2, h3, h4, h5, h6, h7⟩ := strip_render u hlead (fun _ e he => (hrq e he).1)
  have hl : v.reqs.length = u.reqs.length := by
    have := congrArg List.length h3
    simpa using this
  rw [h1, baseToken_spec thms floats r w v hr]
  · unfold envExpected envWith EnvInner.untrimmed
    rw [h2, h3, h5, h6]
    congr 1
    by_cases h : u.bracket = none ∧ v.reqs = []
    · rw [if_pos h]; rfl
    · rw [if_neg h]
  · refine ⟨by rw [h6]; simp, by rw [h2]; exact hbr, ?_, by omega, ?_, ?_⟩
    · intro e he
      rcases h7 e he with h | ⟨ws, h, h'⟩
      · exact hrq e h
      · refine ⟨by rw [h']; simp, (hrq _ h).2⟩
    · intro h hc
      rw [h5] at hc
      exact hmore (by omega) (trimmed_head u _ hc)
    · intro h h' hc
      rw [h5] at hc
      refine hopt (by rw [← h2]; exact h) ?_ (trimmed_head u _ hc)
      apply List.length_eq_zero_iff.1
      rw [← hl, h']
      rfl

theorem matchBegin_hit (ws name r : Str) (hws : ∀ x ∈ ws, isSpace x = true) (h : '}' ∉ name) :
    Envs.matchBegin ("\\begin".toList ++ (ws ++ '{' :: (name ++ '}' :: r))) = some (name, 6 + (ws.length + name.length + 2)) := by
  unfold Envs.matchBegin
  rw [if_pos (show startsWith ("\\begin".toList ++ (ws ++ '{' :: (name ++ '}' :: r))) "\\begin".toList = true from rfl)]
  have : ("\\begin".toList ++ (ws ++ '{' :: (name ++ '}' :: r))).drop 6 = ws ++ '{' :: (name ++ '}' :: r) := rfl
  rw [this, Envs.braceGroup_hit ws name _ hws h]
  rfl

theorem delim_text (ws name x : Str) (kw : Str) : kw ++ ws ++ '{' :: (name ++ ['}']) ++ x = kw ++ (ws ++ '{' :: (name ++ '}' :: x)) := by
  simp only [List.append_assoc, List.cons_append, List.nil_append]

/-- `try_match_env` on a closed environment. -/
theorem tryMatch_env (name inner b e post : Str) (hname : '\\' ∉ name ∧ '}' ∉ name ∧ strip name = name) (hbody : EnvBody name inner)
    (hb : IsDelim "\\begin".toList name b) (he : IsDelim "\\end".toList name e) :
    tryMatchEnv (b ++ inner ++ e ++ post) = some (.ok name (strip inner) (b ++ inner ++ e).length) := by
  have hblk := C09_env_block name [] b inner e post hname.1 (by
    rintro x y z hxyz ⟨ws, _, rfl⟩
    simp at hxyz) hb hbody he
  simp only [List.nil_append] at hblk
  have hem : ∃ k, envMatch (b ++ inner ++ e ++ post) = some (.begin name k) := by
    obtain ⟨ws, hws, rfl⟩ := hb
    rw [show "\\begin".toList ++ ws ++ '{' :: (name ++ ['}']) ++ inner ++ e ++ post =
      "\\begin".toList ++ ws ++ '{' :: (name ++ ['}']) ++ (inner ++ e ++ post) by
        generalize "\\begin".toList = kw; simp only [List.append_assoc, List.cons_append, List.nil_append]]
    rw [delim_text]
    unfold envMatch
    rw [matchBegin_hit ws name _ hws hname.2.1]
    exact ⟨_, rfl⟩
  obtain ⟨k, hk⟩ := hem
  unfold tryMatchEnv
  rw [hk]
  simp only
  rw [hname.2.2, hblk]

theorem matchNew_begin (s : Str) : Envs.matchNew ("\\begin".toList ++ s) = none := rfl

theorem begin_shape (name b : Str) (hb : IsDelim "\\begin".toList name b) : ∃ r, b = "\\begin".toList ++ r := by
  obtain ⟨ws, _, rfl⟩ := hb
  exact ⟨ws ++ '{' :: (name ++ ['}']), by generalize "\\begin".toList = kw; simp⟩

/-- C55: an environment that is not user-defined gives one token, of the type of the environment and by its name (the title given with
`\newtheorem`), numbered or not, with the optional argument as title of a theorem, with its arguments in braces, and with the trimmed
body; exactly the environment is consumed. -/
theorem C55_environment (alpha : Char → Bool) (st : St) (r : EnvRow) (name b e post : Str) (u : EnvInner)
    (hname : '\\' ∉ name ∧ '}' ∉ name ∧ strip name = name ∧ name ≠ "comment".toList) (hnew : Dict.get? st.envs name = none)
    (hr : Describes r (goesBy (Dict.get? st.thms) name)) (hf : u.Fits r.reqs) (hbody : EnvBody name u.render)
    (hb : IsDelim "\\begin".toList name b) (he : IsDelim "\\end".toList name e) :
    handle alpha st (b ++ u.render ++ e ++ post) =
      .ok st.envs (some (envExpected (Dict.get? st.thms) (Dict.get? st.floats) r name u)) (b ++ u.render ++ e).length := by
  have ht := tryMatch_env name u.render b e post ⟨hname.1, hname.2.1, hname.2.2.1⟩ hbody hb he
  obtain ⟨x, hx⟩ := begin_shape name b hb
  unfold handle
  rw [show Envs.matchNew (b ++ u.render ++ e ++ post) = none by rw [hx]; simp only [List.append_assoc]; exact matchNew_begin _, ht]
  simp only
  rw [if_neg hname.2.2.2]
  unfold envToken
  rw [hnew]
  simp only
  rw [baseToken_strip _ _ r name u hr hf]

/-- C55: everything between `\begin{comment}` and `\end{comment}` is skipped. -/
theorem C55_comment (alpha : Char → Bool) (st : St) (b inner e post : Str) (hbody : EnvBody "comment".toList inner)
    (hb : IsDelim "\\begin".toList "comment".toList b) (he : IsDelim "\\end".toList "comment".toList e) :
    handle alpha st (b ++ inner ++ e ++ post) = .ok st.envs none (b ++ inner ++ e).length := by
  have ht := tryMatch_env "comment".toList inner b e post (by decide) hbody hb he
  obtain ⟨x, hx⟩ := begin_shape _ b hb
  unfold handle
  rw [show Envs.matchNew (b ++ inner ++ e ++ post) = none by rw [hx]; simp only [List.append_assoc]; exact matchNew_begin _, ht]
  simp

/-- The smaller model of user environments (C42) is this one on definitions and on `\\begin`. -/
theorem C55_agrees (alpha : Char → Bool) (st : St) (content : Str) (envs : Dict Envs.EnvDef) (tok : Option Envs.Token) (p : Nat)
    (h : Envs.handle alpha st.envs content = some (envs, tok, p)) :
    handle alpha st content = .ok envs (tok.map fun t => match t with
      | .user name inner => ⟨envType name, name, false, none, [], inner⟩
      | .base name inner => baseToken st.thms st.floats name inner) p := by
  unfold Envs.handle at h
  unfold handle
  cases hn : Envs.matchNew content with
  | some m =>
    rw [hn] at h
    simp only [Option.some.injEq, Prod.mk.injEq] at h
    obtain ⟨rfl, rfl, rfl⟩ := h
    rfl
  | none =>
    rw [hn] at h
    simp only at h ⊢
    cases hb : Envs.matchBegin content with
    | none => rw [hb] at h; cases h
    | some m =>
      rw [hb] at h
      simp only at h
      have ht : tryMatchEnv content = some (match findMatchingEnvBlock content (strip m.1) 0 with
          | some (_, e, inner) => .ok (strip m.1) inner e
          | none => .ok (strip m.1) [] m.2) := by
        unfold tryMatchEnv envMatch
        rw [hb]
        simp only
        cases findMatchingEnvBlock content (strip m.1) 0 with
        | none => rfl
        | some x => rfl
      rw [ht]
      cases hf : findMatchingEnvBlock content (strip m.1) 0 with
      | none =>
        rw [hf] at h
        simp only at h ⊢
        by_cases hc : strip m.1 = "comment".toList
        · rw [if_pos hc] at h ⊢
          simp only [Option.some.injEq, Prod.mk.injEq] at h
          obtain ⟨rfl, rfl, rfl⟩ := h
          rfl
        · rw [if_neg hc] at h ⊢
          unfold envToken
          cases hg : Dict.get? st.envs (strip m.1) with
          | none => rw [hg] at h; simp only [Option.some.injEq, Prod.mk.injEq] at h; obtain ⟨rfl, rfl, rfl⟩ := h; rfl
          | some d => rw [hg] at h; simp only [Option.some.injEq, Prod.mk.injEq] at h; obtain ⟨rfl, rfl, rfl⟩ := h; rfl
      | some x =>
        rw [hf] at h
        obtain ⟨_, e, inner⟩ := x
        simp only at h ⊢
        by_cases hc : strip m.1 = "comment".toList
        · rw [if_pos hc] at h ⊢
          simp only [Option.some.injEq, Prod.mk.injEq] at h
          obtain ⟨rfl, rfl, rfl⟩ := h
          rfl
        · rw [if_neg hc] at h ⊢
          unfold envToken
          cases hg : Dict.get? st.envs (strip m.1) with
          | none => rw [hg] at h; simp only [Option.some.injEq, Prod.mk.injEq] at h; obtain ⟨rfl, rfl, rfl⟩ := h; rfl
          | some d => rw [hg] at h; simp only [Option.some.injEq, Prod.mk.injEq] at h; obtain ⟨rfl, rfl, rfl⟩ := h; rfl

/-! Commands that open and close. -/

/-- A pattern for the command `w`. -/
def Sharp (ok : Option Char → Bool) (r : Re) (w : Str) : Prop :=
  ∀ rev rest, r.matchAt rev rest = if w.isPrefixOf rest && ok (rest.drop w.length).head? then some ⟨rev, rest, w.length, []⟩ else none

theorem Sharp.hit {ok r w} (h : Sharp ok r w) (rev v : Str) (hv : ok v.head? = true) : r.matchAt rev (w ++ v) = some ⟨rev, w ++ v, w.length, []⟩ := by
  rw [h, List.drop_left, hv, if_pos]
  simp [List.isPrefixOf_iff_prefix]

theorem Sharp.inv {ok r w} (h : Sharp ok r w) (rev rest : Str) (m : Match) (hm : r.matchAt rev rest = some m) :
    StartsCommand ok w rest ∧ m = ⟨rev, rest, w.length, []⟩ := by
  rw [h] at hm
  split at hm
  · rename_i hc
    rw [Bool.and_eq_true, List.isPrefixOf_iff_prefix] at hc
    obtain ⟨⟨v, rfl⟩, hv⟩ := hc
    rw [List.drop_left] at hv
    injection hm with hm
    exact ⟨⟨v, rfl, hv⟩, hm.symm⟩
  · cases hm

theorem Sharp.nonEmpty {ok r w} (h : Sharp ok r w) (hw : w ≠ []) : NonEmptyRe r := by
  intro rev rest m hm
  obtain ⟨⟨v, rfl, _⟩, rfl⟩ := h.inv _ _ _ hm
  simp
  exact List.length_pos_iff.2 hw

theorem sharp_lit (w : Str) : Sharp (fun _ => true) (.lit w) w := by
  intro rev rest
  rw [Eqn.lit_match]
  simp

theorem sharp_word (w : Str) : Sharp noWord (wordRe w) w := by
  intro rev rest
  rw [Re.matchAt_eq]
  unfold wordRe
  conv => lhs; unfold Re.run
  rw [Re.run_lit]
  by_cases h : w.isPrefixOf rest = true
  · rw [if_pos h, h]
    simp only [List.flatMap_cons, List.flatMap_nil, List.append_nil, Bool.true_and, Re.run]
    rw [List.isPrefixOf_iff_prefix] at h
    obtain ⟨v, rfl⟩ := h
    simp only [List.drop_left]
    cases v with
    | nil => simp [noWord]
    | cons x v =>
      by_cases hx : isWord x = true
      · simp [hx, noWord]
      · simp [hx, noWord]
  · rw [if_neg h]
    simp [h]

theorem mayFollow_append {ok : Option Char → Bool} (h1 : ok (some '\\') = true) (s x : Str) (h : MayFollow ok s) (hx : x.head? = some '\\') :
    ok (s ++ x).head? = true := by
  cases s with
  | nil => rw [List.nil_append, hx]; exact h1
  | cons c s => exact h c rfl

/-- Nothing starts in a text that is free of a command and is followed by a backslash. -/
theorem free_skip {ok r} {w' : Str} (h : Sharp ok r ('\\' :: w')) (hw : '\\' ∉ w') (h0 : ok none = true) (t R : Str) (ht : CommandFree ok ('\\' :: w') t)
    (hR : R.head? = some '\\') (rev u v : Str) (e : t = u ++ v) (hv : v ≠ []) : r.matchAt rev (v ++ R) = none := by
  cases hm : r.matchAt rev (v ++ R) with
  | none => rfl
  | some m =>
    obtain ⟨⟨x, hx, ho⟩, _⟩ := h.inv _ _ _ hm
    exfalso
    rcases List.append_eq_append_iff.1 hx with ⟨a, ha, hb⟩ | ⟨a, ha, hb⟩
    · -- the command reaches to the end of v or beyond
      cases a with
      | nil =>
        exact ht u v e ⟨[], by simpa using ha.symm, h0⟩
      | cons y a =>
        rw [hb] at hR
        simp at hR
        subst hR
        cases v with
        | nil => exact hv rfl
        | cons z v =>
          simp at ha
          exact hw (by rw [ha.2]; simp)
    · refine ht u v e ⟨a, ha, ?_⟩
      cases a with
      | nil => exact h0
      | cons y a => rw [hb] at ho; simpa using ho

section
variable {ok : Option Char → Bool} {b e : Re} {o' c' : Str}

/-- Walking over a text with matching commands leaves the depth unchanged. -/
theorem group_closes (hb : Sharp ok b ('\\' :: o')) (he : Sharp ok e ('\\' :: c')) (ho : '\\' ∉ o') (hc : '\\' ∉ c') (h0 : ok none = true)
    (h1 : ok (some '\\') = true) (hne : ∀ v, ¬ StartsCommand ok ('\\' :: o') ('\\' :: c' ++ v)) {body : Str} (hbody : GroupBody ok ('\\' :: o') ('\\' :: c') body) :
    ∀ (P R text : Str) (d x y : Nat), text = P ++ body ++ R → R.head? = some '\\' → 1 ≤ d →
    (finders b e text).Closes (P ++ body).length d x y → (finders b e text).Closes P.length d x y := by
  have plainStep : ∀ (t P R text : Str), CommandFree ok ('\\' :: o') t → CommandFree ok ('\\' :: c') t →
      text = P ++ t ++ R → R.head? = some '\\' → ∀ d x y,
      (finders b e text).Closes (P ++ t).length d x y → (finders b e text).Closes P.length d x y := by
    intro t P R text f1 f2 ht hR d x y hcl
    subst ht
    refine Closes_congr ?_ ?_ hcl
    · exact searchPos_skip _ P t R fun u v e hv => free_skip hb ho h0 t R f1 hR _ u v e hv
    · exact searchPos_skip _ P t R fun u v e hv => free_skip he hc h0 t R f2 hR _ u v e hv
  induction hbody with
  | plain t f1 f2 => intro P R text d x y ht hR _ hcl; exact plainStep t P R text f1 f2 ht hR d x y hcl
  | group t body rest f1 f2 _ m1 _ m2 ihb ihr =>
    intro P R text d x y ht hR hd hcl
    have hbe := he.nonEmpty (by simp)
    have hbb := hb.nonEmpty (by simp)
    have s4 := ihr (P ++ t ++ '\\' :: o' ++ body ++ '\\' :: c') R text d x y (by simp [ht]) hR hd (by simpa using hcl)
    have s3 : (finders b e text).Closes (P ++ t ++ '\\' :: o' ++ body).length (d + 1) x y := by
      refine .close _ d x y (P ++ t ++ '\\' :: o' ++ body).length (P ++ t ++ '\\' :: o' ++ body ++ '\\' :: c').length hd ⟨?_, ?_⟩ s4
      · have := searchPos_here e (P ++ t ++ '\\' :: o' ++ body) ('\\' :: c' ++ (rest ++ R)) _ (he.hit _ _ (mayFollow_append h1 rest R m2 hR))
        show e.searchPos text _ = _
        rw [show text = (P ++ t ++ '\\' :: o' ++ body) ++ ('\\' :: c' ++ (rest ++ R)) by simp [ht], this]
        simp
        try omega
      · intro a' b' h
        refine searchPos_gt b hbb (P ++ t ++ '\\' :: o' ++ body) ('\\' :: c' ++ (rest ++ R)) ?_ ?_ (b := b')
        · cases hm : b.matchAt (P ++ t ++ '\\' :: o' ++ body).reverse ('\\' :: c' ++ (rest ++ R)) with
          | none => rfl
          | some m => exact absurd (hb.inv _ _ _ hm).1 (hne _)
        · rw [show (P ++ t ++ '\\' :: o' ++ body) ++ ('\\' :: c' ++ (rest ++ R)) = text by simp [ht]]
          exact h
    have s2 := ihb (P ++ t ++ '\\' :: o') ('\\' :: c' ++ (rest ++ R)) text (d + 1) x y (by simp [ht]) rfl (by omega) (by simpa using s3)
    have s1 : (finders b e text).Closes (P ++ t).length d x y := by
      refine .opens _ d x y (P ++ t).length (P ++ t ++ '\\' :: o').length hd ⟨?_, ?_⟩ s2
      · have := searchPos_here b (P ++ t) ('\\' :: o' ++ (body ++ ('\\' :: c' ++ (rest ++ R)))) _ (hb.hit _ _ (mayFollow_append h1 body _ m1 rfl))
        show b.searchPos text _ = _
        rw [show text = (P ++ t) ++ ('\\' :: o' ++ (body ++ ('\\' :: c' ++ (rest ++ R)))) by simp [ht], this]
        simp
        try omega
      · intro a' b' h
        exact (searchPos_bounds _ hbe text _ _ _ (by simp [ht]) h).1
    exact plainStep t P ('\\' :: o' ++ (body ++ ('\\' :: c' ++ (rest ++ R)))) text f1 f2 (by simp [ht]) rfl d x y s1

/-- `extract_nested_content_pattern` on a group that stands at the start. -/
theorem extract_group (hb : Sharp ok b ('\\' :: o')) (he : Sharp ok e ('\\' :: c')) (ho : '\\' ∉ o') (hc : '\\' ∉ c') (h0 : ok none = true)
    (h1 : ok (some '\\') = true) (hne : ∀ v, ¬ StartsCommand ok ('\\' :: o') ('\\' :: c' ++ v)) {body : Str} (hbody : GroupBody ok ('\\' :: o') ('\\' :: c') body)
    (hm : MayFollow ok body) (post : Str) (hp : MayFollow ok post) :
    extractNestedPattern ('\\' :: o' ++ body ++ '\\' :: c' ++ post) b e = some (0, ('\\' :: o' ++ body ++ '\\' :: c').length, body) := by
  have hbe := he.nonEmpty (by simp)
  have hbb := hb.nonEmpty (by simp)
  have hpost : ok post.head? = true := by
    cases post with
    | nil => exact h0
    | cons x post => exact hp x rfl
  have hcl : (finders b e ('\\' :: o' ++ body ++ '\\' :: c' ++ post)).Closes ('\\' :: o' ++ body).length 1 ('\\' :: o' ++ body).length
      ('\\' :: o' ++ body ++ '\\' :: c').length := by
    refine .last _ _ _ ⟨?_, ?_⟩
    · have := searchPos_here e ('\\' :: o' ++ body) ('\\' :: c' ++ post) _ (he.hit _ _ hpost)
      show e.searchPos _ _ = _
      rw [show '\\' :: o' ++ body ++ '\\' :: c' ++ post = ('\\' :: o' ++ body) ++ ('\\' :: c' ++ post) by simp, this]
      simp
      try omega
    · intro a' b' h
      refine searchPos_gt b hbb ('\\' :: o' ++ body) ('\\' :: c' ++ post) ?_ ?_ (b := b')
      · cases hm : b.matchAt ('\\' :: o' ++ body).reverse ('\\' :: c' ++ post) with
        | none => rfl
        | some m => exact absurd (hb.inv _ _ _ hm).1 (hne _)
      · rw [show ('\\' :: o' ++ body) ++ ('\\' :: c' ++ post) = '\\' :: o' ++ body ++ '\\' :: c' ++ post by simp]
        exact h
  have hcl2 := group_closes hb he ho hc h0 h1 hne hbody ('\\' :: o') ('\\' :: c' ++ post) ('\\' :: o' ++ body ++ '\\' :: c' ++ post) 1
    ('\\' :: o' ++ body).length ('\\' :: o' ++ body ++ '\\' :: c').length (by simp) rfl (by omega) hcl
  have hopen : b.searchPos ('\\' :: o' ++ body ++ '\\' :: c' ++ post) 0 = some (0, ('\\' :: o').length) := by
    have h := searchPos_here b [] ('\\' :: o' ++ (body ++ ('\\' :: c' ++ post))) _ (hb.hit _ _ (mayFollow_append h1 body _ hm rfl))
    rw [show '\\' :: o' ++ body ++ '\\' :: c' ++ post = [] ++ ('\\' :: o' ++ (body ++ ('\\' :: c' ++ post))) by simp]
    rw [show ([] : Str).length = 0 from rfl] at h
    rw [h]
    simp
  exact (C09_pattern_iff _ b e hbb hbe 0 ('\\' :: o' ++ body ++ '\\' :: c').length body).2
    ⟨_, _, hopen, hcl2, by
      rw [show '\\' :: o' ++ body ++ '\\' :: c' ++ post = ('\\' :: o' ++ body) ++ ('\\' :: c' ++ post) by simp]
      unfold slice
      rw [List.take_left, List.drop_left]⟩
end

/-- No pair starts with a command whose `\end…` does not follow. -/
theorem matchPair_none (n rest : Str) (hw : ∀ x ∈ n, isWord x = true)
    (hno : ¬ Contains rest ("\\end".toList ++ n)) : Eqn.matchPair ('\\' :: (n ++ rest)) = none := by
  have hp : ∀ x ∈ n, Eqn.pairChar x = true := fun x hx => by unfold Eqn.pairChar; rw [hw x hx]; rfl
  unfold Eqn.matchPair
  simp only
  rw [List.takeWhile_append_of_pos hp, List.dropWhile_append_of_pos hp]
  generalize ha : rest.takeWhile Eqn.pairChar = a
  generalize hb : rest.dropWhile Eqn.pairChar = b
  have hab : rest = a ++ b := by rw [← ha, ← hb, List.takeWhile_append_dropWhile]
  have key : ∀ k, k ≤ (n ++ a).length → Eqn.pairPrefix (n ++ a) b k = none := by
    intro k
    induction k with
    | zero => intro _; rfl
    | succ k ih =>
      intro hk
      unfold Eqn.pairPrefix
      simp only
      rw [ih (by omega), if_neg]
      intro hc
      rw [Bool.and_eq_true] at hc
      obtain ⟨h1, h2⟩ := hc
      by_cases hlt : k + 1 < n.length
      · -- inside the word there is no boundary
        have e1 : (n ++ a).take (k + 1) = n.take (k + 1) := List.take_append_of_le_length (by omega)
        have e2 : ((n ++ a).drop (k + 1) ++ b).head? = some n[k + 1] := by
          rw [List.drop_append_of_le_length (by omega), List.head?_append, List.head?_append, List.head?_drop, List.getElem?_eq_getElem hlt]
          rfl
        have e3 : (n.take (k + 1)).getLast? = some n[k] := by
          rw [List.getLast?_eq_getElem?, List.length_take, Nat.min_eq_left (by omega), List.getElem?_take]
          simp
        rw [e1, e2, e3] at h1
        unfold Eqn.boundary at h1
        simp [hw _ (List.getElem_mem (by omega : k < n.length)), hw _ (List.getElem_mem hlt)] at h1
      · rw [findSub_contains _ (by simp)] at h2
        obtain ⟨x, y, hxy⟩ := h2
        apply hno
        have e1 : (n ++ a).take (k + 1) = n ++ a.take (k + 1 - n.length) := by
          rw [List.take_append, List.take_of_length_le (by omega)]
        have e2 : (n ++ a).drop (k + 1) = a.drop (k + 1 - n.length) := by
          rw [List.drop_append, List.drop_of_length_le (by omega), List.nil_append]
        rw [e1, e2] at hxy
        refine ⟨a.take (k + 1 - n.length) ++ x, a.take (k + 1 - n.length) ++ y, ?_⟩
        have : rest = a.take (k + 1 - n.length) ++ (a.drop (k + 1 - n.length) ++ b) := by
          rw [← List.append_assoc, List.take_append_drop, hab]
        rw [this, hxy]
        simp [List.append_assoc]
  exact key _ (Nat.le_refl _)

theorem groupMatch_hit (k : Bool) (v : Str) (hv : noWord v.head? = true) : groupMatch ((groupCommands k).1 ++ v) = some k := by
  unfold groupMatch
  cases k with
  | false =>
    have := (sharp_word "\\begingroup".toList).hit [] v hv
    rw [show (groupCommands false).1 = "\\begingroup".toList from rfl, this]
    rfl
  | true =>
    have := (sharp_word "\\bgroup".toList).hit [] v hv
    have h2 : (wordRe "\\begingroup".toList).matchAt [] ("\\bgroup".toList ++ v) = none := by
      rw [sharp_word]; rfl
    rw [show (groupCommands true).1 = "\\bgroup".toList from rfl, h2, this]
    rfl

theorem tryMatchGroup_hit (k : Bool) (body post : Str) (hbody : GroupBody noWord (groupCommands k).1 (groupCommands k).2 body)
    (hm : MayFollow noWord body) (hp : MayFollow noWord post) :
    tryMatchGroup ((groupCommands k).1 ++ (body ++ (groupCommands k).2 ++ post)) = some (body, ((groupCommands k).1 ++ body ++ (groupCommands k).2).length) := by
  have hfol : noWord (body ++ (groupCommands k).2 ++ post).head? = true := by
    rw [List.append_assoc]
    exact mayFollow_append rfl body _ hm (by cases k <;> rfl)
  have hx : extractNestedPattern ((groupCommands k).1 ++ body ++ (groupCommands k).2 ++ post) (wordRe (groupCommands k).1) (wordRe (groupCommands k).2) =
      some (0, ((groupCommands k).1 ++ body ++ (groupCommands k).2).length, body) := by
    cases k with
    | false =>
      refine extract_group (ok := noWord) (o' := "begingroup".toList) (c' := "endgroup".toList) (sharp_word _) (sharp_word _) (by decide) (by decide) rfl rfl ?_ hbody hm post hp
      rintro v ⟨x, hx, _⟩
      simp at hx
    | true =>
      refine extract_group (ok := noWord) (o' := "bgroup".toList) (c' := "egroup".toList) (sharp_word _) (sharp_word _) (by decide) (by decide) rfl rfl ?_ hbody hm post hp
      rintro v ⟨x, hx, _⟩
      simp at hx
  have hg := groupMatch_hit k (body ++ (groupCommands k).2 ++ post) hfol
  rw [show (groupCommands k).1 ++ body ++ (groupCommands k).2 ++ post = (groupCommands k).1 ++ (body ++ (groupCommands k).2 ++ post) by
    simp only [List.append_assoc]] at hx
  unfold tryMatchGroup
  rw [hg]
  cases k with
  | false => simp only [Bool.false_eq_true, if_false]; rw [show (groupCommands false) = ("\\begingroup".toList, "\\endgroup".toList) from rfl] at hx ⊢; rw [hx]; rfl
  | true => simp only [if_true]; rw [show (groupCommands true) = ("\\bgroup".toList, "\\egroup".toList) from rfl] at hx ⊢; rw [hx]; rfl

theorem group_noBegin (k : Bool) (s : Str) : Envs.matchBegin ((groupCommands k).1 ++ s) = none := by cases k <;> rfl

/-- C55: a group gives one token with everything between its two commands; groups of the same kind may be nested in it. -/
theorem C55_group (alpha : Char → Bool) (st : St) (k : Bool) (body post : Str)
    (hbody : GroupBody noWord (groupCommands k).1 (groupCommands k).2 body) (hm : MayFollow noWord body) (hp : MayFollow noWord post)
    (hno : ¬ Contains (body ++ (groupCommands k).2 ++ post) ("\\end".toList ++ (groupCommands k).1.drop 1)) :
    handle alpha st ((groupCommands k).1 ++ body ++ (groupCommands k).2 ++ post) =
      .ok st.envs (some (groupToken body)) ((groupCommands k).1 ++ body ++ (groupCommands k).2).length := by
  have hpair : Eqn.matchPair ((groupCommands k).1 ++ (body ++ (groupCommands k).2 ++ post)) = none := by
    have := matchPair_none ((groupCommands k).1.drop 1) _ (by cases k <;> decide) hno
    have e : (groupCommands k).1 = '\\' :: (groupCommands k).1.drop 1 := by cases k <;> rfl
    rw [e]
    exact this
  rw [show (groupCommands k).1 ++ body ++ (groupCommands k).2 ++ post = (groupCommands k).1 ++ (body ++ (groupCommands k).2 ++ post) by
    simp only [List.append_assoc]]
  have hnew : Envs.matchNew ((groupCommands k).1 ++ (body ++ (groupCommands k).2 ++ post)) = none := by cases k <;> rfl
  have ht : tryMatchEnv ((groupCommands k).1 ++ (body ++ (groupCommands k).2 ++ post)) = none := by
    unfold tryMatchEnv envMatch
    rw [group_noBegin, hpair]
  unfold handle
  rw [hnew, ht]
  simp only
  rw [tryMatchGroup_hit k body post hbody hm hp]

theorem matchPair_hit (n rest : Str) (hn : n ≠ []) (hw : ∀ x ∈ n, isWord x = true) (hr : ∀ x ∈ rest.head?, isWord x = false ∧ x ≠ '@')
    (hc : Contains rest ("\\end".toList ++ n)) : Eqn.matchPair ('\\' :: (n ++ rest)) = some n := by
  have hp : ∀ x ∈ n, Eqn.pairChar x = true := fun x hx => by unfold Eqn.pairChar; rw [hw x hx]; rfl
  have hh : ∀ x ∈ rest.head?, Eqn.pairChar x = false := by
    intro x hx
    have := hr x hx
    simp [Eqn.pairChar, this.1, this.2]
  unfold Eqn.matchPair
  simp only
  rw [List.takeWhile_append_of_pos hp, List.dropWhile_append_of_pos hp]
  have e1 : rest.takeWhile Eqn.pairChar = [] := by
    cases rest with
    | nil => rfl
    | cons x rest => simp [hh x rfl]
  have e2 : rest.dropWhile Eqn.pairChar = rest := by
    cases rest with
    | nil => rfl
    | cons x rest => simp [hh x rfl]
  rw [e1, e2, List.append_nil]
  obtain ⟨m, hm⟩ : ∃ m, n.length = m + 1 := ⟨n.length - 1, by have := List.length_pos_iff.2 hn; omega⟩
  rw [hm]
  unfold Eqn.pairPrefix
  rw [← hm, List.take_length, List.drop_length, List.nil_append]
  simp only
  rw [if_pos]
  rw [Bool.and_eq_true, findSub_contains _ (by simp)]
  refine ⟨?_, hc⟩
  obtain ⟨x, y, rfl⟩ := (List.eq_nil_or_concat n).resolve_left hn
  have hy := hw y (by simp)
  unfold Eqn.boundary
  cases rest with
  | nil => simp [hy]
  | cons z rest => have := (hr z rfl).1; simp [hy, this]

theorem prefix_word (kw n rest : Str) (hk : ∀ x ∈ kw, isWord x = true) (hr : ∀ x ∈ rest.head?, isWord x = false) (h : kw <+: n ++ rest) : kw <+: n := by
  obtain ⟨t, ht⟩ := h
  rcases List.append_eq_append_iff.1 ht with ⟨a, h1, h2⟩ | ⟨a, h1, h2⟩
  · exact ⟨a, h1.symm⟩
  · cases a with
    | nil => exact ⟨[], by simpa using h1⟩
    | cons x a =>
      have h3 := hk x (by rw [h1]; simp)
      have h4 := hr x (by rw [h2]; rfl)
      rw [h3] at h4
      cases h4

theorem startsWith_false {s p : Str} (h : ¬ p <+: s) : startsWith s p = false := by
  cases hs : startsWith s p with
  | false => rfl
  | true => exact absurd (List.isPrefixOf_iff_prefix.1 hs) h

/-- C55: an environment written `\name … \endname` gives the same token as `\begin{name} … \end{name}`, except that the body is not
trimmed. -/
theorem C55_pair (alpha : Char → Bool) (st : St) (r : EnvRow) (n post : Str) (u : EnvInner) (hn : n ≠ []) (hw : ∀ x ∈ n, isWord x = true)
    (hkw : ∀ k ∈ ["begin", "newenvironment", "renewenvironment", "provideenvironment"], ¬ k.toList <+: n) (hcom : n ≠ "comment".toList)
    (hpre : ¬ n <+: "end".toList ++ n) (hnew : Dict.get? st.envs n = none) (hr : Describes r (goesBy (Dict.get? st.thms) n)) (hf : u.Fits r.reqs)
    (hhead : ∀ x ∈ u.render.head?, isWord x = false ∧ x ≠ '@') (hbody : GroupBody (fun _ => true) ('\\' :: n) ("\\end".toList ++ n) u.render) :
    handle alpha st ('\\' :: n ++ u.render ++ ("\\end".toList ++ n) ++ post) =
      .ok st.envs (some (envWith (Dict.get? st.thms) (Dict.get? st.floats) r n u u.untrimmed)) ('\\' :: n ++ u.render ++ ("\\end".toList ++ n)).length := by
  have hnb : '\\' ∉ n := fun h => by have := hw _ h; revert this; decide
  have hx : extractNestedPattern ('\\' :: n ++ u.render ++ ("\\end".toList ++ n) ++ post) (.lit ('\\' :: n)) (.lit ("\\end".toList ++ n)) =
      some (0, ('\\' :: n ++ u.render ++ ("\\end".toList ++ n)).length, u.render) := by
    refine extract_group (ok := fun _ => true) (o' := n) (c' := "end".toList ++ n) (sharp_lit _) (sharp_lit _) hnb (by simp [hnb]) rfl rfl ?_ hbody
      (fun _ _ => rfl) post (fun _ _ => rfl)
    rintro v ⟨x, hx, _⟩
    simp only [List.cons_append, List.cons.injEq, true_and] at hx
    apply hpre
    have h1 : n <+: ("end".toList ++ n) ++ v := ⟨x, hx.symm⟩
    exact List.prefix_of_prefix_length_le h1 (List.prefix_append _ _) (by simp; omega)
  have hrest : ∀ x ∈ (u.render ++ ("\\end".toList ++ n) ++ post).head?, isWord x = false ∧ x ≠ '@' := by
    intro x hx
    cases hu : u.render with
    | nil => rw [hu] at hx; simp at hx; subst hx; decide
    | cons y l => rw [hu] at hx hhead; simp at hx; subst hx; exact hhead y rfl
  have etext : '\\' :: n ++ u.render ++ ("\\end".toList ++ n) ++ post = '\\' :: (n ++ (u.render ++ ("\\end".toList ++ n) ++ post)) := by
    simp only [List.append_assoc, List.cons_append]
  have hword : ∀ k ∈ ["begin", "newenvironment", "renewenvironment", "provideenvironment"], ∀ x ∈ k.toList, isWord x = true := by decide +kernel
  have hno : ∀ k ∈ ["begin", "newenvironment", "renewenvironment", "provideenvironment"],
      startsWith ('\\' :: (n ++ (u.render ++ ("\\end".toList ++ n) ++ post))) ('\\' :: k.toList) = false := by
    intro k hk
    apply startsWith_false
    intro h
    rw [List.cons_prefix_cons] at h
    exact hkw k hk (prefix_word _ _ _ (hword k hk) (fun x hx => (hrest x hx).1) h.2)
  have hm := matchPair_hit n (u.render ++ ("\\end".toList ++ n) ++ post) hn hw hrest ⟨u.render, post, by simp only [List.append_assoc]⟩
  have hnewm : Envs.matchNew ('\\' :: (n ++ (u.render ++ ("\\end".toList ++ n) ++ post))) = none := by
    unfold Envs.matchNew Envs.newKeywords
    have h1 := hno "newenvironment" (by simp)
    have h2 := hno "renewenvironment" (by simp)
    have h3 := hno "provideenvironment" (by simp)
    have e1 : ('\\' :: "newenvironment".toList) = "\\newenvironment".toList := rfl
    have e2 : ('\\' :: "renewenvironment".toList) = "\\renewenvironment".toList := rfl
    have e3 : ('\\' :: "provideenvironment".toList) = "\\provideenvironment".toList := rfl
    rw [e1] at h1; rw [e2] at h2; rw [e3] at h3
    rw [List.find?_cons, h1, List.find?_cons, h2, List.find?_cons, h3]
    rfl
  have hbeg : Envs.matchBegin ('\\' :: (n ++ (u.render ++ ("\\end".toList ++ n) ++ post))) = none := by
    unfold Envs.matchBegin
    have h1 := hno "begin" (by simp)
    have e1 : ('\\' :: "begin".toList) = "\\begin".toList := rfl
    rw [e1] at h1
    rw [h1]
    rfl
  have hnb2 : startsWith n "begin".toList = false := startsWith_false (hkw "begin" (by simp))
  have hfl : n ≠ "@float".toList := by
    rintro rfl
    have := hw '@' (by decide)
    revert this; decide
  rw [etext] at hx ⊢
  have ht : tryMatchEnv ('\\' :: (n ++ (u.render ++ ("\\end".toList ++ n) ++ post))) =
      some (.ok n u.render ('\\' :: n ++ u.render ++ ("\\end".toList ++ n)).length) := by
    unfold tryMatchEnv envMatch
    rw [hbeg, hm]
    simp only [hnb2, hx]
    rw [if_neg (by simp), if_neg hfl]
  unfold handle
  rw [hnewm, ht]
  simp only
  rw [if_neg hcom]
  unfold envToken
  rw [hnew]
  simp only
  rw [baseToken_spec _ _ r n u hr hf]

/-! Theorems named by `\newtheorem`. -/

theorem optLen (o : Option Str) (r : Str) (ho : ∀ c ∈ o, ']' ∉ c) (hr : o = none → r.head? ≠ some '[') :
    bracketLen (TheoremDef.opt o ++ r) = (TheoremDef.opt o).length := by
  cases o with
  | none =>
    simp only [TheoremDef.opt, List.nil_append]
    cases r with
    | nil => rfl
    | cons x r =>
      unfold bracketLen
      split
      · rename_i e; have := hr rfl; simp at e this; exact absurd e.1 this
      · rfl
  | some c =>
    have hc := ho c rfl
    have e : (c ++ ']' :: r).takeWhile (· ≠ ']') = c := by
      rw [List.takeWhile_append_of_pos]
      · simp
      · intro x hx; simp; rintro rfl; exact hc hx
    have e' : TheoremDef.opt (some c) ++ r = '[' :: (c ++ ']' :: r) := by simp [TheoremDef.opt]
    rw [e']
    unfold bracketLen
    simp only [e, List.drop_left]
    simp [TheoremDef.opt]

theorem brace_direct (n r : Str) (h : '}' ∉ n) : Envs.braceGroup ('{' :: (n ++ '}' :: r)) = some (n, n.length + 2) := by
  have := Envs.braceGroup_hit [] n r (by simp) h
  simpa using this

theorem drop_brace (n r : Str) : (n ++ '}' :: r).drop (n.length + 2 - 1) = r := by
  rw [show n.length + 2 - 1 = (n ++ ['}']).length by simp, show n ++ '}' :: r = (n ++ ['}']) ++ r by simp, List.drop_left]

theorem newtheorem_read (d : TheoremDef) (hd : d.Ok) (post : Str) (hp : d.within = none → post.head? ≠ some '[') :
    newtheorem (d.render ++ post) = some (d.name, d.title, d.render.length) := by
  obtain ⟨h0, h1, h2, h3, h4⟩ := hd
  have etext : d.render ++ post = "\\newtheorem".toList ++ ((if d.star then ['*'] else []) ++ ('{' :: (d.name ++ '}' :: (TheoremDef.opt d.counter ++
      ('{' :: (d.title ++ '}' :: (TheoremDef.opt d.within ++ post))))))) := by
    unfold TheoremDef.render
    generalize "\\newtheorem".toList = kw
    simp only [List.append_assoc, List.cons_append]
  have elen : d.render.length = 11 + (if d.star then 1 else 0) + (d.name.length + 2) + (TheoremDef.opt d.counter).length + (d.title.length + 2) +
      (TheoremDef.opt d.within).length := by
    unfold TheoremDef.render
    rw [List.length_append, show "\\newtheorem".toList.length = 11 from rfl]
    cases d.star <;> simp <;> omega
  rw [etext, elen]
  generalize hr : '{' :: (d.name ++ '}' :: (TheoremDef.opt d.counter ++ ('{' :: (d.title ++ '}' :: (TheoremDef.opt d.within ++ post))))) = r
  unfold newtheorem
  rw [if_pos (show startsWith ("\\newtheorem".toList ++ ((if d.star then ['*'] else []) ++ r)) "\\newtheorem".toList = true from rfl)]
  rw [show ("\\newtheorem".toList ++ ((if d.star then ['*'] else []) ++ r)).drop 11 = (if d.star then ['*'] else []) ++ r from rfl]
  have hst : (if startsWith ((if d.star then ['*'] else []) ++ r) ['*'] then 1 else 0) = (if d.star then 1 else 0) := by
    cases d.star with
    | true => rfl
    | false => rw [← hr]; rfl
  have hdr : ((if d.star then ['*'] else []) ++ r).drop (if d.star then 1 else 0) = r := by cases d.star <;> rfl
  simp only [hst, hdr]
  rw [← hr]
  simp only [brace_direct _ _ h1, drop_brace]
  have ho := optLen d.counter ('{' :: (d.title ++ '}' :: (TheoremDef.opt d.within ++ post))) h3 (by simp)
  rw [ho]
  simp only [List.drop_left]
  simp only [brace_direct _ _ h2, drop_brace]
  rw [optLen d.within post h4 hp]

/-- The titles known after some declarations, each followed by anything. -/
def titlesAfter (texts : List Str) : Dict Str := texts.foldl learnTheorem []

/-- C55: after any declarations every name goes by the title given to it last. -/
theorem C55_titles (h : List (TheoremDef × Str)) (hok : ∀ e ∈ h, e.1.Ok ∧ (e.1.within = none → e.2.head? ≠ some '[')) (name : Str) :
    Dict.get? (titlesAfter (h.map fun e => e.1.render ++ e.2)) name = titleOf (h.map (·.1)) name := by
  have key : ∀ (h pre : List (TheoremDef × Str)) (d : Dict Str), (∀ e ∈ h, e.1.Ok ∧ (e.1.within = none → e.2.head? ≠ some '[')) →
      Dict.get? d name = titleOf (pre.map (·.1)) name →
      Dict.get? ((h.map fun e => e.1.render ++ e.2).foldl learnTheorem d) name = titleOf ((pre ++ h).map (·.1)) name := by
    intro h
    induction h with
    | nil => intro pre d _ hd; simpa using hd
    | cons e h ih =>
      intro pre d hok hd
      obtain ⟨t, r⟩ := e
      have ht := hok (t, r) (by simp)
      simp only [List.map_cons, List.foldl_cons]
      have hl : learnTheorem d (t.render ++ r) = Dict.set d t.name t.title := by
        unfold learnTheorem
        rw [newtheorem_read t ht.1 r ht.2]
        simp only
        rw [if_neg ht.1.1]
      rw [hl]
      have := ih (pre ++ [(t, r)]) (Dict.set d t.name t.title) (fun e he => hok e (by simp [he])) (by
        rw [Dict.get?_set, List.map_append]
        unfold titleOf
        rw [List.filter_append]
        by_cases hn : t.name = name
        · simp [hn]
        · rw [if_neg hn, hd]
          have : List.filter (fun d => decide (d.name = name)) (List.map (fun x => x.fst) [(t, r)]) = [] := by simp [hn]
          rw [this, List.append_nil]
          rfl)
      rw [this]
      simp
  exact key h [] [] hok rfl

/-! Examples. -/

/-- What `handle` shows. -/
def shown : Res → Option (Option BTok × Nat)
  | .ok _ t p => some (t, p)
  | .raises => none

def st0 : St := ⟨[], [("thm".toList, "Theorem".toList)], []⟩

/-- The hypotheses of `C55_environment` are met: a theorem named by `\newtheorem{thm}{Theorem}` with a title. -/
example : Describes ⟨"theorem", "math_env", .unstarred, 0⟩ (goesBy (Dict.get? st0.thms) "thm".toList) := .inr (.inl ⟨by decide +kernel, by decide +kernel⟩)
example : shown (handle (fun _ => true) st0 "\\begin{thm} [Foo] all [b].\n\\end {thm} x".toList) =
    some (some ⟨"math_env".toList, "Theorem".toList, true, some "Foo".toList, [], " all [b].".toList⟩, 37) := by decide +kernel
example : shown (handle (fun _ => true) st0 "\\begin{wrapfigure}[12]{r} {5cm} pic\\end{wrapfigure}".toList) =
    some (some ⟨"figure".toList, "wrapfigure".toList, true, none, ["r".toList, "5cm".toList], " pic".toList⟩, 51) := by decide +kernel
example : shown (handle (fun _ => true) st0 "\\list{a}{b} c \\endlist x".toList) =
    some (some ⟨"list".toList, "list".toList, false, none, ["a".toList, "b".toList], " c ".toList⟩, 22) := by decide +kernel
example : shown (handle (fun _ => true) st0 "\\begingroup a \\begingroup b\\endgroup\\endgroup x".toList) =
    some (some ⟨"group".toList, "group".toList, false, none, [], " a \\begingroup b\\endgroup".toList⟩, 45) := by decide +kernel

theorem wrappable_plain (o c : Char) (a : Str) (h1 : checkDelimiterBalance a o c = true) (h2 : escapedAt a a.length = false) : Wrappable o c a :=
  ⟨(C03_balance_iff a o c).1 h1, h2⟩

/-- The same with all hypotheses of `C55_environment` discharged. -/
example (post : Str) : handle (fun _ => true) st0 ("\\begin{thm}".toList ++ (EnvInner.mk [' '] (some "Foo".toList) [] " all [b].\n".toList).render ++
    "\\end {thm}".toList ++ post) =
    .ok [] (some ⟨"math_env".toList, "Theorem".toList, true, some "Foo".toList, [], " all [b].".toList⟩) 37 := by
  have hb : '\\' ∉ (EnvInner.mk [' '] (some "Foo".toList) [] " all [b].\n".toList).render := by decide +kernel
  have h := C55_environment (fun _ => true) st0 ⟨"theorem", "math_env", .unstarred, 0⟩ "thm".toList "\\begin{thm}".toList "\\end {thm}".toList post
    (EnvInner.mk [' '] (some "Foo".toList) [] " all [b].\n".toList) (by decide +kernel) rfl (.inr (.inl ⟨by decide +kernel, by decide +kernel⟩))
    ⟨by decide +kernel, (fun t ht => by cases ht; exact wrappable_plain _ _ _ (by decide +kernel) (by decide +kernel)), (fun e he => by cases he),
      Nat.le_refl 0, fun h => absurd h (by decide), fun h => by cases h⟩
    (.plain _ (noDelim_of_no_backslash _ _ _ hb) (noDelim_of_no_backslash _ _ _ hb)) ⟨[], by simp, by decide +kernel⟩ ⟨[' '], by decide, by decide +kernel⟩
  rw [h]
  have e1 : envExpected (Dict.get? st0.thms) (Dict.get? st0.floats) ⟨"theorem", "math_env", .unstarred, 0⟩ "thm".toList
      (EnvInner.mk [' '] (some "Foo".toList) [] " all [b].\n".toList) =
      ⟨"math_env".toList, "Theorem".toList, true, some "Foo".toList, [], " all [b].".toList⟩ := by decide +kernel
  rw [e1]
  rfl

example : newtheorem "\\newtheorem*{thm}[c]{Thm}[sec]x".toList = some ("thm".toList, "Thm".toList, 30) := by decide +kernel

/-! What does not hold. -/

/-- C55 fails for arguments beyond those the tables know: a second optional argument, or one after an argument in braces, ends up in the
text, together with the arguments behind it. -/
theorem C55_violated_arguments :
    shown (handle (fun _ => true) st0 "\\begin{minipage}[t][3cm]{5cm}x\\end{minipage}".toList) =
      some (some ⟨"group".toList, "minipage".toList, false, none, [], "[3cm]{5cm}x".toList⟩, 44) ∧
    shown (handle (fun _ => true) st0 "\\begin{wrapfigure}{r}[34pt]{5cm}x\\end{wrapfigure}".toList) =
      some (some ⟨"figure".toList, "wrapfigure".toList, true, none, ["r".toList], "[34pt]{5cm}x".toList⟩, 49) := by
  constructor <;> decide +kernel

/-- C55 fails for environments without an optional argument: text in brackets at the start of a quotation is lost. -/
theorem C55_violated_bracket : shown (handle (fun _ => true) st0 "\\begin{quote}[We] agree\\end{quote}".toList) =
    some (some ⟨"quote".toList, "quote".toList, false, none, [], " agree".toList⟩, 34) := by decide +kernel

/-- C55 fails for theorems with a title of more than one word, which are not seen as theorems: neither numbered nor titled. -/
theorem C55_violated_title :
    shown (handle (fun _ => true) ⟨[], titlesAfter ["\\newtheorem{mt}{Main Theorem}".toList], []⟩ "\\begin{mt}[Foo] a\\end{mt}".toList) =
      some (some ⟨"environment".toList, "Main Theorem".toList, false, none, [], " a".toList⟩, 25) := by decide +kernel

/-- C55 fails for unnumbered theorems: `\newtheorem*` makes a numbered one. -/
theorem C55_violated_unnumbered :
    shown (handle (fun _ => true) ⟨[], titlesAfter ["\\newtheorem*{rem}{Remark}".toList], []⟩ "\\begin{rem} a\\end{rem}".toList) =
      some (some ⟨"math_env".toList, "Remark".toList, true, none, [], "a".toList⟩, 22) := by decide +kernel

/-- C55 fails for `\list … \endlist` with another command that starts with `\list` in it: the whole text is lost. -/
theorem C55_violated_pair : shown (handle (fun _ => true) st0 "\\list{a}{b} text \\listparindent=1pt more \\endlist".toList) =
    some (some ⟨"list".toList, "list".toList, false, none, [], []⟩, 49) := by decide +kernel

/-- C55 fails for titles with brackets that do not match, such as half-open intervals: the title stays in the text. -/
theorem C55_violated_interval : shown (handle (fun _ => true) st0 "\\begin{thm}[On $[0,1)$] a\\end{thm}".toList) =
    some (some ⟨"math_env".toList, "Theorem".toList, true, none, [], "[On $[0,1)$] a".toList⟩, 34) := by decide +kernel

/-- C55: a command that starts with `\begin` and has its `\endbegin…` makes the parser fail. -/
theorem C55_violated_begin : shown (handle (fun _ => true) st0 "\\beginsupplement a \\endbeginsupplement".toList) = none := by decide +kernel

/-- C55 fails for blanks within the braces: the environment is not closed, its content empty. -/
theorem C55_violated_blank : shown (handle (fun _ => true) st0 "\\begin{ quote } a \\end{ quote }".toList) =
    some (some ⟨"quote".toList, "quote".toList, false, none, [], []⟩, 15) := by decide +kernel

end L2J.EnvT
