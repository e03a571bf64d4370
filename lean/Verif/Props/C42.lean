import Verif.Spec.Environment
import Verif.Lemmas.Wrapped
import Verif.Props.C08
import Verif.Props.C09
/-! C42: user environments. -/
namespace L2J.Envs
open Spec

theorem substitutes (alpha : Char → Bool) (code : Str) (args : List Str) :
    Substitutes code args (substituteArgs alpha code (args.map some) false) := by
  obtain ⟨ts, hr, _⟩ := C08_reading code
  refine ⟨ts, hr, ?_, ?_⟩
  · intro h
    exact C08_identity alpha code _ false ts hr (h.imp (by rintro rfl; rfl) id)
  · intro k ha hk hz
    exact C08_substitute_partial alpha code _ ts k (by simpa using ha) hr hk hz

theorem takeWhile_upto (n r : Str) (h : '}' ∉ n) : (n ++ '}' :: r).takeWhile (· ≠ '}') = n := by
  induction n with
  | nil => simp
  | cons c n ih =>
    have hc : c ≠ '}' := fun e => h (by simp [e])
    have := ih (fun h' => h (by simp [h']))
    simp [hc] at this ⊢
    exact this

theorem braceGroup_hit (ws n r : Str) (hws : ∀ x ∈ ws, isSpace x = true) (h : '}' ∉ n) :
    braceGroup (ws ++ '{' :: (n ++ '}' :: r)) = some (n, ws.length + n.length + 2) := by
  obtain ⟨h1, h2⟩ := takeWhile_wrap_ws ws ('{' :: (n ++ '}' :: r)) hws (by simp; decide)
  unfold braceGroup
  rw [h2]
  simp only [h1, takeWhile_upto n r h, List.drop_left]
  simp

theorem newKeywords_find (d : EnvDefine) (r : Str) :
    newKeywords.find? (fun k => startsWith (d.kw ++ r) k) = some (d.kw.take (d.kw.length - (if d.star then 1 else 0))) ∧
    d.kw = d.kw.take (d.kw.length - (if d.star then 1 else 0)) ++ (if d.star then ['*'] else []) := by
  obtain ⟨k, s, n, a, b, e⟩ := d
  match k, s with
  | 0, true => exact ⟨rfl, rfl⟩
  | 0, false => exact ⟨rfl, rfl⟩
  | 1, true => exact ⟨rfl, rfl⟩
  | 1, false => exact ⟨rfl, rfl⟩
  | 2, true => exact ⟨rfl, rfl⟩
  | 2, false => exact ⟨rfl, rfl⟩

theorem matchNew_hit (d : EnvDefine) (hd : '}' ∉ d.name) (r : Str) :
    matchNew (d.kw ++ '{' :: (d.name ++ '}' :: r)) = some (d.name, d.kw.length + d.name.length + 2) := by
  obtain ⟨h1, h2⟩ := newKeywords_find d ('{' :: (d.name ++ '}' :: r))
  have hg := braceGroup_hit [] d.name r (by simp) hd
  simp only [List.nil_append, List.length_nil, Nat.zero_add] at hg
  generalize d.kw.take (d.kw.length - (if d.star then 1 else 0)) = k at h1 h2
  unfold matchNew
  rw [h1]
  simp only
  rw [h2]
  cases d.star with
  | true =>
    simp only [if_true, List.append_assoc, List.drop_left]
    have : startsWith (['*'] ++ '{' :: (d.name ++ '}' :: r)) ['*'] = true := rfl
    simp only [this, if_true]
    have e : (['*'] ++ '{' :: (d.name ++ '}' :: r)).drop 1 = '{' :: (d.name ++ '}' :: r) := rfl
    rw [e, hg]
    simp
    omega
  | false =>
    simp only [if_neg Bool.false_ne_true, List.append_nil, List.drop_left]
    have : startsWith ('{' :: (d.name ++ '}' :: r)) ['*'] = false := rfl
    simp only [this]
    simp only [if_neg Bool.false_ne_true, List.drop_zero, hg]
    simp
    omega

theorem wrapAll_ge (o c : Char) (l : List (Str × Str)) : l.length ≤ (wrapAll o c l).length := by
  induction l with
  | nil => simp
  | cons e l ih => obtain ⟨ws, a⟩ := e; simp [wrapAll]; omega

/-- All blocks in brackets, however many. -/
theorem seqBlocks_all (o c : Char) (hos : isSpace o = false) (ho : o ≠ '\\') (hoc : o ≠ c) (l : List (Str × Str)) (rest : Str)
    (h : WellWrapped o c l) (hr : (rest.dropWhile isSpace).head? ≠ some o) :
    seqBlocks (wrapAll o c l ++ rest) o c none = (l.map (·.2), (wrapAll o c l).length) := by
  have hle := wrapAll_ge o c l
  have e : (wrapAll o c l ++ rest).length = l.length + ((wrapAll o c l ++ rest).length - l.length) := by
    rw [List.length_append]; omega
  have : seqBlocks (wrapAll o c l ++ rest) o c none = seqBlocks (wrapAll o c l ++ rest) o c (some (wrapAll o c l ++ rest).length) := rfl
  rw [this, e]
  exact seqBlocks_wrap_more o c hos ho hoc l _ rest h hr

theorem digit_nospace (c : Char) (h : isDigit c = true) : isSpace c = false := by
  unfold isDigit at h
  simp [Char.le_def, UInt32.le_iff_toNat_le] at h
  unfold isSpace
  have e : c.toNat = c.val.toNat := rfl
  simp
  omega

theorem strip_nospace (s : Str) (h : ∀ c ∈ s, isSpace c = false) : strip s = s := by
  have hd : ∀ s : Str, (∀ c ∈ s, isSpace c = false) → s.dropWhile isSpace = s := by
    intro s h
    cases s with
    | nil => rfl
    | cons c s => simp [h c (by simp)]
  unfold strip rstrip lstrip
  rw [hd s h, hd _ (by simpa using h), List.reverse_reverse]

theorem argSpec_brackets (d : EnvDefine) (hd : d.Ok) : argSpec (d.brackets.map (·.2)) = (d.count, d.defaults) := by
  obtain ⟨_, h2, _⟩ := hd
  unfold EnvDefine.brackets EnvDefine.count EnvDefine.defaults
  cases ha : d.args with
  | none => rfl
  | some a =>
    obtain ⟨n, ds⟩ := a
    obtain ⟨h3, h4, _⟩ := h2 n ds ha
    simp only [argSpec, List.map_cons, List.map_map]
    rw [strip_nospace n (fun c hc => digit_nospace c (h4 c hc))]
    have : (!n.isEmpty && n.all isDigit) = true := by simp [h3]; exact h4
    rw [this, if_pos rfl]
    rfl

/-- A written definition is stored. -/
theorem handle_define (alpha : Char → Bool) (envs : Dict EnvDef) (d : EnvDefine) (hd : d.Ok) (r : Str) :
    handle alpha envs (d.render ++ r) =
      some (Dict.set envs d.name ⟨d.beginCode, d.endCode, d.count, d.defaults⟩, none, d.render.length) := by
  have hspec := argSpec_brackets d hd
  obtain ⟨h1, h2, h3, h4⟩ := hd
  have hbr : WellWrapped '[' ']' d.brackets := by
    unfold EnvDefine.brackets
    cases ha : d.args with
    | none => intro e he; simp at he
    | some a =>
      obtain ⟨n, ds⟩ := a
      obtain ⟨h5, h6, h7⟩ := h2 n ds ha
      intro e he
      simp at he
      rcases he with rfl | ⟨x, hx, rfl⟩
      · refine ⟨by simp, ?_⟩
        have hlev : ∀ j, level n '[' ']' j = 0 := by
          intro j
          induction j with
          | zero => rfl
          | succ j ih =>
            simp only [level, ih]
            have k : ∀ x : Char, isDigit x = false → liveAt n x j = false := by
              intro x hx
              unfold liveAt
              cases hj : n[j]? with
              | none => rfl
              | some c =>
                have hc := h6 c (List.mem_of_getElem? hj)
                have : c ≠ x := by rintro rfl; rw [hx] at hc; exact absurd hc Bool.false_ne_true
                simp [this]
            simp [k '[' (by decide), k ']' (by decide)]
        refine ⟨⟨fun j _ => by rw [hlev]; exact Int.le_refl 0, hlev _⟩, ?_⟩
        cases hn : n.length with
        | zero => rfl
        | succ k =>
          unfold escapedAt
          cases hj : n[k]? with
          | none => rfl
          | some c =>
            have hc := h6 c (List.mem_of_getElem? hj)
            have : c ≠ '\\' := by rintro rfl; exact absurd hc (by decide)
            simp [this]
      · exact ⟨by simp, h7 x hx⟩
  generalize hcodes : wrapAll '{' '}' [([], d.beginCode), ([], d.endCode)] = codes
  have hrender : d.render ++ r = d.kw ++ '{' :: (d.name ++ '}' :: (wrapAll '[' ']' d.brackets ++ (codes ++ r))) := by
    unfold EnvDefine.render
    rw [hcodes]
    simp only [List.append_assoc, List.cons_append]
  have hlen : d.render.length = d.kw.length + d.name.length + 2 + (wrapAll '[' ']' d.brackets).length + codes.length := by
    unfold EnvDefine.render
    rw [hcodes]
    simp only [List.length_append, List.length_cons]
    omega
  rw [hrender, hlen]
  unfold handle
  rw [matchNew_hit d h1]
  simp only
  unfold handleNew
  have hd1 : (d.kw ++ '{' :: (d.name ++ '}' :: (wrapAll '[' ']' d.brackets ++ (codes ++ r)))).drop (d.kw.length + d.name.length + 2) =
      wrapAll '[' ']' d.brackets ++ (codes ++ r) := by
    rw [show d.kw ++ '{' :: (d.name ++ '}' :: (wrapAll '[' ']' d.brackets ++ (codes ++ r))) =
      (d.kw ++ '{' :: (d.name ++ ['}'])) ++ (wrapAll '[' ']' d.brackets ++ (codes ++ r)) by simp]
    rw [show d.kw.length + d.name.length + 2 = (d.kw ++ '{' :: (d.name ++ ['}'])).length by simp; omega]
    exact List.drop_left
  have s1 := seqBlocks_all '[' ']' (by decide) (by decide) (by decide) d.brackets (codes ++ r) hbr (by
    rw [← hcodes]
    simp only [wrapAll, List.nil_append, List.cons_append]
    rw [List.dropWhile_cons, if_neg (by decide)]
    simp)
  have hd2 : (d.kw ++ '{' :: (d.name ++ '}' :: (wrapAll '[' ']' d.brackets ++ (codes ++ r)))).drop
      (d.kw.length + d.name.length + 2 + (wrapAll '[' ']' d.brackets).length) = codes ++ r := by
    rw [← List.drop_drop, hd1, List.drop_left]
  have s2 := seqBlocks_wrap '{' '}' (by decide) (by decide) (by decide) [([], d.beginCode), ([], d.endCode)] r (by
    intro e he; simp at he; rcases he with rfl | rfl
    · exact ⟨by simp, h3⟩
    · exact ⟨by simp, h4⟩)
  rw [hcodes] at s2
  simp only [List.length_cons, List.length_nil, Nat.zero_add, List.map_cons, List.map_nil] at s2
  simp only [hd1, s1, hd2, s2, hspec]

/-- The texts of some definitions, each followed by anything. -/
def written (h : List (EnvDefine × Str)) : List Str := h.map fun e => e.1.render ++ e.2

theorem latestEnv_snoc (n : Str) (ds : List EnvDefine) (d : EnvDefine) :
    latestEnv n (ds ++ [d]) = if d.name = n then some d else latestEnv n ds := by
  unfold latestEnv
  rw [List.filter_append]
  by_cases h : d.name = n
  · rw [if_pos h]; simp [h]
  · rw [if_neg h]
    have : List.filter (fun d => decide (d.name = n)) [d] = [] := by simp [h]
    rw [this, List.append_nil]

/-- C42: after any history of definitions the latest one of each name is the one in force. -/
theorem C42_latest (alpha : Char → Bool) (h : List (EnvDefine × Str)) (hok : ∀ e ∈ h, e.1.Ok) (name : Str) :
    Dict.get? (envsAfter alpha [] (written h)) name =
      (latestEnv name (h.map (·.1))).map fun d => ⟨d.beginCode, d.endCode, d.count, d.defaults⟩ := by
  have key : ∀ (h pre : List (EnvDefine × Str)) (envs : Dict EnvDef), (∀ e ∈ h, e.1.Ok) →
      Dict.get? envs name = (latestEnv name (pre.map (·.1))).map (fun d => (⟨d.beginCode, d.endCode, d.count, d.defaults⟩ : EnvDef)) →
      Dict.get? (envsAfter alpha envs (written h)) name =
        (latestEnv name ((pre ++ h).map (·.1))).map fun d => (⟨d.beginCode, d.endCode, d.count, d.defaults⟩ : EnvDef) := by
    intro h
    induction h with
    | nil => intro pre envs _ hl; simpa [envsAfter, written] using hl
    | cons e h ih =>
      intro pre envs hok hl
      obtain ⟨d, r⟩ := e
      simp only [written, envsAfter, List.map_cons, List.foldl_cons]
      rw [handle_define alpha envs d (hok (d, r) (by simp)) r]
      have := ih (pre ++ [(d, r)]) (Dict.set envs d.name ⟨d.beginCode, d.endCode, d.count, d.defaults⟩) (fun e he => hok e (by simp [he])) (by
        rw [Dict.get?_set, List.map_append]
        simp only [List.map_cons, List.map_nil]
        rw [latestEnv_snoc]
        by_cases hn : d.name = name
        · simp [hn]
        · rw [if_neg hn, if_neg hn, hl])
      rw [List.append_assoc] at this
      exact this
  exact key h [] [] hok rfl

theorem takeOpts_given : ∀ (opts ds : List Str) (rest : Str), opts.length ≤ ds.length → (∀ a ∈ opts, Wrappable '[' ']' a) →
    takeOpts ds (wrapAll '[' ']' (opts.map ([], ·)) ++ rest) =
      (opts.map some ++ (takeOpts (ds.drop opts.length) rest).1, (takeOpts (ds.drop opts.length) rest).2) := by
  intro opts
  induction opts with
  | nil => intro ds rest _ _; simp [wrapAll]
  | cons a opts ih =>
    intro ds rest hl hw
    cases ds with
    | nil => simp at hl
    | cons d ds =>
      have h := hw a (by simp)
      have e : wrapAll '[' ']' ((a :: opts).map ([], ·)) ++ rest = '[' :: (a ++ ']' :: (wrapAll '[' ']' (opts.map ([], ·)) ++ rest)) := by
        simp [wrapAll]
      rw [e]
      have hx := C01_round_trip [] a (wrapAll '[' ']' (opts.map ([], ·)) ++ rest) '[' ']' (by simp) (by decide) (by decide) (by decide) h.1 h.2
      simp only [List.nil_append, List.length_nil, Nat.zero_add] at hx
      conv => lhs; unfold takeOpts
      rw [if_pos (show startsWith ('[' :: (a ++ ']' :: (wrapAll '[' ']' (opts.map ([], ·)) ++ rest))) ['['] = true from rfl)]
      simp only [hx]
      have hd : ('[' :: (a ++ ']' :: (wrapAll '[' ']' (opts.map ([], ·)) ++ rest))).drop (a.length + 2) =
          wrapAll '[' ']' (opts.map ([], ·)) ++ rest := by
        rw [show '[' :: (a ++ ']' :: (wrapAll '[' ']' (opts.map ([], ·)) ++ rest)) = ('[' :: (a ++ [']'])) ++ (wrapAll '[' ']' (opts.map ([], ·)) ++ rest) by simp]
        rw [show a.length + 2 = ('[' :: (a ++ [']'])).length by simp]
        exact List.drop_left
      rw [hd, ih ds rest (by simpa using hl) (fun a ha => hw a (by simp [ha]))]
      simp

theorem takeOpts_missing : ∀ (ds : List Str) (rest : Str), (ds ≠ [] → rest.head? ≠ some '[') → takeOpts ds rest = (ds.map some, rest) := by
  intro ds
  induction ds with
  | nil => intro rest _; rfl
  | cons d ds ih =>
    intro rest h
    have hh := h (by simp)
    unfold takeOpts
    have : startsWith rest ['['] = false := by
      cases rest with
      | nil => rfl
      | cons c rest =>
        simp at hh
        have : ('[' == c) = false := by simpa using fun e => hh e.symm
        simp [startsWith, List.isPrefixOf, this]
    rw [this, if_neg Bool.false_ne_true, ih rest (fun _ => hh)]
    rfl

theorem takeReqs_given : ∀ (reqs : List Str) (n : Nat) (rest : Str), (∀ a ∈ reqs, Wrappable '{' '}' a) →
    takeReqs (reqs.length + n) (wrapAll '{' '}' (reqs.map ([], ·)) ++ rest) =
      (reqs.map some ++ (takeReqs n rest).1, (takeReqs n rest).2) := by
  intro reqs
  induction reqs with
  | nil => intro n rest _; simp [wrapAll]
  | cons a reqs ih =>
    intro n rest hw
    have h := hw a (by simp)
    have e : wrapAll '{' '}' ((a :: reqs).map ([], ·)) ++ rest = '{' :: (a ++ '}' :: (wrapAll '{' '}' (reqs.map ([], ·)) ++ rest)) := by
      simp [wrapAll]
    rw [e, show (a :: reqs).length + n = (reqs.length + n) + 1 by simp; omega]
    have hx := C01_round_trip [] a (wrapAll '{' '}' (reqs.map ([], ·)) ++ rest) '{' '}' (by simp) (by decide) (by decide) (by decide) h.1 h.2
    simp only [List.nil_append, List.length_nil, Nat.zero_add] at hx
    conv => lhs; unfold takeReqs
    rw [if_pos (show startsWith ('{' :: (a ++ '}' :: (wrapAll '{' '}' (reqs.map ([], ·)) ++ rest))) ['{'] = true from rfl)]
    simp only [hx]
    have hd : ('{' :: (a ++ '}' :: (wrapAll '{' '}' (reqs.map ([], ·)) ++ rest))).drop (a.length + 2) =
        wrapAll '{' '}' (reqs.map ([], ·)) ++ rest := by
      rw [show '{' :: (a ++ '}' :: (wrapAll '{' '}' (reqs.map ([], ·)) ++ rest)) = ('{' :: (a ++ ['}'])) ++ (wrapAll '{' '}' (reqs.map ([], ·)) ++ rest) by simp]
      rw [show a.length + 2 = ('{' :: (a ++ ['}'])).length by simp]
      exact List.drop_left
    rw [hd, ih n rest (fun a ha => hw a (by simp [ha]))]
    simp

theorem takeReqs_missing : ∀ (n : Nat) (rest : Str), (0 < n → rest.head? ≠ some '{') → takeReqs n rest = (List.replicate n (some []), rest) := by
  intro n
  induction n with
  | zero => intro rest _; rfl
  | succ n ih =>
    intro rest h
    have hh := h (by omega)
    unfold takeReqs
    have : startsWith rest ['{'] = false := by
      cases rest with
      | nil => rfl
      | cons c rest =>
        simp at hh
        have : ('{' == c) = false := by simpa using fun e => hh e.symm
        simp [startsWith, List.isPrefixOf, this]
    rw [this, if_neg Bool.false_ne_true, ih rest (fun _ => hh)]
    rfl

theorem rstrip_append (a b : Str) (h : ∀ c, a.getLast? = some c → isSpace c = false) : rstrip (a ++ b) = a ++ rstrip b := by
  unfold rstrip
  rw [List.reverse_append]
  have key : ∀ (x y : Str), (∀ c ∈ y.head?, isSpace c = false) → (x ++ y).dropWhile isSpace = x.dropWhile isSpace ++ y := by
    intro x y hy
    induction x with
    | nil =>
      cases y with
      | nil => rfl
      | cons c y => have := hy c (by simp); simp [this]
    | cons c x ih => 
      simp only [List.cons_append, List.dropWhile_cons]
      split
      · exact ih
      · rfl
  rw [key _ _ (by intro c hc; rw [List.head?_reverse] at hc; exact h c hc)]
  simp

theorem wrapAll_ends (o c : Char) (l : List Str) (hl : l ≠ []) :
    (wrapAll o c (l.map (([] : Str), ·))).head? = some o ∧ (wrapAll o c (l.map (([] : Str), ·))).getLast? = some c := by
  induction l with
  | nil => exact absurd rfl hl
  | cons a l ih =>
    refine ⟨by simp [wrapAll], ?_⟩
    cases l with
    | nil =>
      simp only [List.map_cons, List.map_nil, wrapAll, List.nil_append]
      rw [List.getLast?_cons, List.getLast?_append]
      simp
    | cons b l =>
      have := (ih (by simp)).2
      simp only [List.map_cons, wrapAll, List.nil_append] at this ⊢
      rw [List.getLast?_cons, List.getLast?_append, List.getLast?_cons, this]
      rfl

/-- What is left after trimming the inner text. -/
theorem strip_inner (u : EnvUse) : strip u.inner =
    wrapAll '[' ']' (u.opts.map ([], ·)) ++ (wrapAll '{' '}' (u.reqs.map ([], ·)) ++ u.trimmed) := by
  unfold EnvUse.inner EnvUse.trimmed
  by_cases hno : u.opts = [] ∧ u.reqs = []
  · rw [if_pos hno]; simp [hno.1, hno.2, wrapAll]
  · rw [if_neg hno]
    have hne : wrapAll '[' ']' (u.opts.map ([], ·)) ++ wrapAll '{' '}' (u.reqs.map ([], ·)) ≠ [] := by
      intro h
      rw [List.append_eq_nil_iff] at h
      by_cases ho : u.opts = []
      · have := (wrapAll_ends '{' '}' u.reqs (fun hr => hno ⟨ho, hr⟩)).1
        rw [h.2] at this; simp at this
      · have := (wrapAll_ends '[' ']' u.opts ho).1
        rw [h.1] at this; simp at this
    rw [← List.append_assoc, ← List.append_assoc]
    have hhead : ∀ c, (wrapAll '[' ']' (u.opts.map ([], ·)) ++ wrapAll '{' '}' (u.reqs.map ([], ·))).head? = some c → isSpace c = false := by
      intro c hc
      by_cases ho : u.opts = []
      · have := (wrapAll_ends '{' '}' u.reqs (fun hr => hno ⟨ho, hr⟩)).1
        simp only [ho, List.map_nil, wrapAll, List.nil_append, this] at hc
        simp at hc; subst hc; decide
      · have := (wrapAll_ends '[' ']' u.opts ho).1
        rw [List.head?_append, this] at hc
        simp at hc; subst hc; decide
    have hlast : ∀ c, (wrapAll '[' ']' (u.opts.map ([], ·)) ++ wrapAll '{' '}' (u.reqs.map ([], ·))).getLast? = some c → isSpace c = false := by
      intro c hc
      by_cases hr : u.reqs = []
      · have := (wrapAll_ends '[' ']' u.opts (fun ho => hno ⟨ho, hr⟩)).2
        simp only [hr, List.map_nil, wrapAll, List.append_nil, this] at hc
        simp at hc; subst hc; decide
      · have := (wrapAll_ends '{' '}' u.reqs hr).2
        rw [List.getLast?_append, this] at hc
        simp at hc; subst hc; decide
    unfold strip
    have hl : lstrip ((wrapAll '[' ']' (u.opts.map ([], ·)) ++ wrapAll '{' '}' (u.reqs.map ([], ·))) ++ u.body) =
        (wrapAll '[' ']' (u.opts.map ([], ·)) ++ wrapAll '{' '}' (u.reqs.map ([], ·))) ++ u.body := by
      unfold lstrip
      generalize wrapAll '[' ']' (u.opts.map ([], ·)) ++ wrapAll '{' '}' (u.reqs.map ([], ·)) = A at hne hhead
      cases A with
      | nil => exact absurd rfl hne
      | cons c A => have := hhead c (by simp); simp [this]
    rw [hl, rstrip_append _ _ hlast]

/-- C42 (expansion): the begin code, the trimmed body and the end code, with the arguments in both codes. -/
theorem expand_spec (alpha : Char → Bool) (envs : Dict EnvDef) (d : EnvDefine) (u : EnvUse) (hu : u.Fits d)
    (hget : Dict.get? envs d.name = some ⟨d.beginCode, d.endCode, d.count, d.defaults⟩) :
    ∃ b e, Substitutes d.beginCode (u.arguments d) b ∧ Substitutes d.endCode (u.arguments d) e ∧
      expand alpha envs d.name (strip u.inner) = b ++ ['\n'] ++ u.trimmed ++ ['\n'] ++ e := by
  refine ⟨_, _, substitutes alpha _ _, substitutes alpha _ _, ?_⟩
  obtain ⟨h1, h2, h3, h4, h5, h6⟩ := hu
  unfold expand
  rw [hget]
  simp only
  rw [strip_inner, takeOpts_given u.opts d.defaults _ h1 h3]
  have hmiss : takeOpts (d.defaults.drop u.opts.length) (wrapAll '{' '}' (u.reqs.map ([], ·)) ++ u.trimmed) =
      ((d.defaults.drop u.opts.length).map some, wrapAll '{' '}' (u.reqs.map ([], ·)) ++ u.trimmed) := by
    apply takeOpts_missing
    intro hne
    have hlt : u.opts.length < d.defaults.length := by
      rw [Ne, List.drop_eq_nil_iff] at hne; omega
    by_cases hr : u.reqs = []
    · simpa [hr, wrapAll] using h5 hlt hr
    · rw [List.head?_append, (wrapAll_ends '{' '}' u.reqs hr).1]
      simp
  rw [hmiss]
  simp only
  have hreq := takeReqs_given u.reqs (d.count - d.defaults.length - u.reqs.length) u.trimmed h4
  rw [show u.reqs.length + (d.count - d.defaults.length - u.reqs.length) = d.count - d.defaults.length by omega] at hreq
  rw [hreq, takeReqs_missing _ _ (by intro hp; exact h6 (by omega))]
  have hargs : (u.opts.map some ++ (d.defaults.drop u.opts.length).map some) ++
      (u.reqs.map some ++ List.replicate (d.count - d.defaults.length - u.reqs.length) (some [])) = (u.arguments d).map some := by
    simp [EnvUse.arguments]
  simp only [hargs]
  simp

theorem matchNew_begin (r : Str) : matchNew ("\\begin".toList ++ r) = none := rfl

/-- C42: after any history of definitions, an environment whose latest definition is `d` becomes the begin code, the body and
the end code of `d` in that order, the parameters in both codes standing for the arguments given, the declared defaults of the
optional ones not given, and nothing for other missing ones; exactly the environment is consumed. The body is trimmed and a
line break is put between the parts. -/
theorem C42_expand_partial (alpha : Char → Bool) (h : List (EnvDefine × Str)) (hok : ∀ e ∈ h, e.1.Ok) (d : EnvDefine)
    (hd : latestEnv d.name (h.map (·.1)) = some d) (hname : '\\' ∉ d.name ∧ '}' ∉ d.name ∧ strip d.name = d.name ∧ d.name ≠ "comment".toList)
    (u : EnvUse) (hu : u.Fits d) (hbody : EnvBody d.name u.inner) (b e post : Str)
    (hb : IsDelim "\\begin".toList d.name b) (he : IsDelim "\\end".toList d.name e) :
    ∃ bc ec, Substitutes d.beginCode (u.arguments d) bc ∧ Substitutes d.endCode (u.arguments d) ec ∧
      handle alpha (envsAfter alpha [] (written h)) (b ++ u.inner ++ e ++ post) =
        some (envsAfter alpha [] (written h), some (.user d.name (bc ++ ['\n'] ++ u.trimmed ++ ['\n'] ++ ec)), (b ++ u.inner ++ e).length) := by
  have hget := C42_latest alpha h hok d.name
  rw [hd] at hget
  generalize envsAfter alpha [] (written h) = envs at hget ⊢
  obtain ⟨bc, ec, hbc, hec, hx⟩ := expand_spec alpha envs d u hu hget
  refine ⟨bc, ec, hbc, hec, ?_⟩
  have hblk := C09_env_block d.name [] b u.inner e post hname.1 (by
    rintro x y z hxyz ⟨ws, _, rfl⟩
    simp at hxyz) hb hbody he
  simp only [List.nil_append] at hblk
  obtain ⟨ws, hws, rfl⟩ := hb
  have htext : "\\begin".toList ++ ws ++ '{' :: (d.name ++ ['}']) ++ u.inner ++ e ++ post =
      "\\begin".toList ++ (ws ++ '{' :: (d.name ++ '}' :: (u.inner ++ e ++ post))) := by
    generalize "\\begin".toList = kw
    simp only [List.append_assoc, List.cons_append, List.nil_append]
  have hm : matchBegin ("\\begin".toList ++ (ws ++ '{' :: (d.name ++ '}' :: (u.inner ++ e ++ post)))) =
      some (d.name, 6 + (ws.length + d.name.length + 2)) := by
    unfold matchBegin
    rw [if_pos (show startsWith ("\\begin".toList ++ (ws ++ '{' :: (d.name ++ '}' :: (u.inner ++ e ++ post)))) "\\begin".toList = true from rfl)]
    have : ("\\begin".toList ++ (ws ++ '{' :: (d.name ++ '}' :: (u.inner ++ e ++ post)))).drop 6 = ws ++ '{' :: (d.name ++ '}' :: (u.inner ++ e ++ post)) := rfl
    rw [this, braceGroup_hit ws d.name _ hws hname.2.1]
    rfl
  unfold handle
  rw [htext] at hblk ⊢
  rw [matchNew_begin, hm]
  simp only [hname.2.2.1, hblk]
  rw [if_neg hname.2.2.2, hget]
  simp only [Option.map_some, hx]

/-- C42: an environment that is not user-defined is left to the built-in ones with its inner text unchanged but for blanks at
its ends. -/
theorem C42_other_untouched (alpha : Char → Bool) (envs : Dict EnvDef) (name inner b e post : Str) (hget : Dict.get? envs name = none)
    (hname : '\\' ∉ name ∧ '}' ∉ name ∧ strip name = name ∧ name ≠ "comment".toList) (hbody : EnvBody name inner)
    (hb : IsDelim "\\begin".toList name b) (he : IsDelim "\\end".toList name e) :
    handle alpha envs (b ++ inner ++ e ++ post) = some (envs, some (.base name (strip inner)), (b ++ inner ++ e).length) ∧
    expand alpha envs name inner = inner := by
  refine ⟨?_, by unfold expand; rw [hget]⟩
  have hblk := C09_env_block name [] b inner e post hname.1 (by
    rintro x y z hxyz ⟨ws, _, rfl⟩
    simp at hxyz) hb hbody he
  simp only [List.nil_append] at hblk
  obtain ⟨ws, hws, rfl⟩ := hb
  have htext : "\\begin".toList ++ ws ++ '{' :: (name ++ ['}']) ++ inner ++ e ++ post =
      "\\begin".toList ++ (ws ++ '{' :: (name ++ '}' :: (inner ++ e ++ post))) := by
    generalize "\\begin".toList = kw
    simp only [List.append_assoc, List.cons_append, List.nil_append]
  have hm : matchBegin ("\\begin".toList ++ (ws ++ '{' :: (name ++ '}' :: (inner ++ e ++ post)))) =
      some (name, 6 + (ws.length + name.length + 2)) := by
    unfold matchBegin
    rw [if_pos (show startsWith ("\\begin".toList ++ (ws ++ '{' :: (name ++ '}' :: (inner ++ e ++ post)))) "\\begin".toList = true from rfl)]
    have : ("\\begin".toList ++ (ws ++ '{' :: (name ++ '}' :: (inner ++ e ++ post)))).drop 6 = ws ++ '{' :: (name ++ '}' :: (inner ++ e ++ post)) := rfl
    rw [this, braceGroup_hit ws name _ hws hname.2.1]
    rfl
  unfold handle
  rw [htext] at hblk ⊢
  rw [matchNew_begin, hm]
  simp only [hname.2.2.1, hblk]
  rw [if_neg hname.2.2.2, hget]

/-- C42 violated: a blank before an argument, which TeX skips, makes the argument part of the body. -/
theorem C42_violated_blank (alpha : Char → Bool) (envs : Dict EnvDef) (name : Str) (d : EnvDef) (hget : Dict.get? envs name = some d)
    (hn : d.numArgs = 2) (ho : d.optArgs = []) (x y z : Str) (hx : Wrappable '{' '}' x) :
    expand alpha envs name ('{' :: (x ++ '}' :: ' ' :: '{' :: (y ++ '}' :: z))) =
      substituteArgs alpha d.beginDef [some x, some []] false ++ '\n' :: (' ' :: '{' :: (y ++ '}' :: z) ++
        '\n' :: substituteArgs alpha d.endDef [some x, some []] false) := by
  have h1 := takeReqs_given [x] 1 (' ' :: '{' :: (y ++ '}' :: z)) (by intro a ha; simp at ha; subst ha; exact hx)
  rw [takeReqs_missing 1 (' ' :: '{' :: (y ++ '}' :: z)) (by intro _; simp)] at h1
  simp only [List.length_cons, List.length_nil, List.map_cons, List.map_nil, wrapAll, List.nil_append, List.cons_append, List.append_assoc] at h1
  unfold expand
  rw [hget]
  simp only [hn, ho, takeOpts, List.length_nil, Nat.sub_zero]
  rw [show (2 : Nat) = 0 + 1 + 1 from rfl, h1]
  rfl

/-! A definition with a default and a required argument, used with and without the optional one. -/
example : (handle (fun _ => false) (envsAfter (fun _ => false) [] ["\\newenvironment{box}[2][red]{<#1:#2>}{</#1>} x".toList])
    "\\begin{box}{T}body\\end{box} rest".toList).map (·.2) =
    some (some (.user "box".toList "<red:T>\nbody\n</red>".toList), 27) := by decide +kernel
example : (handle (fun _ => false) (envsAfter (fun _ => false) [] ["\\newenvironment{box}[2][red]{<#1:#2>}{</#1>} x".toList])
    "\\begin{box}[blue]{T}body\\end{box} rest".toList).map (·.2.1) =
    some (some (.user "box".toList "<blue:T>\nbody\n</blue>".toList)) := by decide +kernel
example : EnvUse.arguments ⟨[], ["T".toList], "body".toList⟩ ⟨0, false, "box".toList, some ("2".toList, ["red".toList]), [], []⟩ =
    ["red".toList, "T".toList] := by decide +kernel

end L2J.Envs
