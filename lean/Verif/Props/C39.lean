import Verif.Spec.KeyVal
import Verif.Lemmas.Wrapped
/-! C39: key-value families. -/
namespace L2J.KeyVal
open Spec

/-- The definition of a key in a family. -/
def lookup (defs : Defs) (family key : Str) : Option KeyDef := (Dict.get? defs family).bind fun fam => Dict.get? fam key

theorem lookup_define (defs : Defs) (f k : Str) (d : KeyDef) (f' k' : Str) :
    lookup (define defs f k d) f' k' = if f = f' ∧ k = k' then some d else lookup defs f' k' := by
  unfold lookup define
  rw [Dict.get?_set]
  by_cases hf : f = f'
  · subst hf
    simp only [if_true, Option.bind_some, Dict.get?_set, true_and]
    by_cases hk : k = k'
    · simp [hk]
    · simp only [hk, if_false]
      cases Dict.get? defs f <;> simp [Dict.get?]
  · simp [hf]

theorem matchKw_hit (kw r : Str) (h : ∀ c ∈ r.head?, isSpace c = false) : matchKw kw (kw ++ r) = some kw.length := by
  unfold matchKw startsWith
  rw [if_pos (by simp), List.drop_left]
  cases r with
  | nil => simp
  | cons c r => have := h c (by simp); simp [this]

theorem render_eq (f k : Str) (d : Option Str) (c : Str) : (KeyDefine.mk f k d c).render =
    "\\define@key".toList ++ (wrapAll '{' '}' [([], f), ([], k)] ++
      (match d with | none => [] | some x => wrapAll '[' ']' [([], x)]) ++ wrapAll '{' '}' [([], c)]) := rfl

/-- A written definition is stored. -/
theorem handle_define (alpha : Char → Bool) (defs : Defs) (d : KeyDefine) (hd : d.Ok) (r : Str) :
    handle alpha defs (d.render ++ r) =
      (define defs d.family d.key ⟨d.default, d.code⟩, some (.definition d.family d.key), d.render.length) := by
  obtain ⟨f, k, dflt, code⟩ := d
  obtain ⟨h1, h2, h3, h4⟩ := hd
  simp only at h1 h2 h3 h4
  have hfk : WellWrapped '{' '}' [([], f), ([], k)] := by
    intro e he; simp at he; rcases he with rfl | rfl
    · exact ⟨by simp, h1⟩
    · exact ⟨by simp, h2⟩
  have hcode : WellWrapped '{' '}' [([], code)] := by
    intro e he; simp at he; subst he; exact ⟨by simp, h4⟩
  -- the text after the keyword
  generalize hopt : (match dflt with | none => ([] : Str) | some x => wrapAll '[' ']' [([], x)]) = opt
  have htext : (KeyDefine.mk f k dflt code).render ++ r =
      "\\define@key".toList ++ (wrapAll '{' '}' [([], f), ([], k)] ++ (opt ++ (wrapAll '{' '}' [([], code)] ++ r))) := by
    rw [render_eq, hopt]
    generalize "\\define@key".toList = kw
    simp only [List.append_assoc]
  have hlen : (KeyDefine.mk f k dflt code).render.length =
      "\\define@key".toList.length + (wrapAll '{' '}' [([], f), ([], k)]).length + opt.length + (wrapAll '{' '}' [([], code)]).length := by
    rw [render_eq, hopt]
    generalize "\\define@key".toList = kw
    simp only [List.length_append]
    omega
  rw [htext]
  have hm := matchKw_hit "\\define@key".toList (wrapAll '{' '}' [([], f), ([], k)] ++ (opt ++ (wrapAll '{' '}' [([], code)] ++ r)))
    (by intro c hc; simp [wrapAll] at hc; subst hc; decide)
  unfold handle
  simp only [hm]
  have s1 := seqBlocks_wrap '{' '}' (by decide) (by decide) (by decide) [([], f), ([], k)] (opt ++ (wrapAll '{' '}' [([], code)] ++ r)) hfk
  have s3 := seqBlocks_wrap '{' '}' (by decide) (by decide) (by decide) [([], code)] r hcode
  simp only [List.length_cons, List.length_nil, Nat.zero_add, List.map_cons, List.map_nil] at s1 s3
  have s2 : seqBlocks (opt ++ (wrapAll '{' '}' [([], code)] ++ r)) '[' ']' (some 1) = (dflt.toList, if dflt.toList.isEmpty then 0 else opt.length) := by
    cases dflt with
    | none =>
      simp only at hopt
      subst hopt
      have := seqBlocks_wrap_more '[' ']' (by decide) (by decide) (by decide) [] 1 (wrapAll '{' '}' [([], code)] ++ r)
        (by intro e he; simp at he) (by
          simp only [wrapAll, List.nil_append, List.cons_append]
          rw [List.dropWhile_cons, if_neg (by decide)]
          simp)
      simpa [wrapAll] using this
    | some x =>
      simp only at hopt
      subst hopt
      have := seqBlocks_wrap '[' ']' (by decide) (by decide) (by decide) [([], x)] (wrapAll '{' '}' [([], code)] ++ r)
        (by intro e he; simp at he; subst he; exact ⟨by simp, h3 x rfl⟩)
      simpa using this
  have hskip : (opt ++ (wrapAll '{' '}' [([], code)] ++ r)).drop (if dflt.toList.isEmpty then 0 else (if dflt.toList.isEmpty then 0 else opt.length)) =
      wrapAll '{' '}' [([], code)] ++ r := by
    cases dflt with
    | none => simp only at hopt; subst hopt; simp
    | some x => simp
  unfold handleDefine
  simp only [List.drop_left, s1, s2, hskip, s3]
  rw [hlen]
  have hhead : dflt.toList.head? = dflt := by cases dflt <;> rfl
  have hl2 : (if dflt.toList.isEmpty then 0 else (if dflt.toList.isEmpty then 0 else opt.length)) = opt.length := by
    cases dflt with
    | none => simp only at hopt; subst hopt; simp
    | some x => simp
  rw [hhead, hl2]
  rfl

/-- The texts of some definitions, each followed by anything. -/
def written (h : List (KeyDefine × Str)) : List Str := h.map fun e => e.1.render ++ e.2

theorem latest_snoc (f k : Str) (ds : List KeyDefine) (d : KeyDefine) :
    latest f k (ds ++ [d]) = if d.family = f ∧ d.key = k then some d else latest f k ds := by
  unfold latest
  rw [List.filter_append]
  by_cases h : d.family = f ∧ d.key = k
  · rw [if_pos h]; simp [h]
  · rw [if_neg h]
    have : List.filter (fun d => decide (d.family = f ∧ d.key = k)) [d] = [] := by simp [h]
    rw [this, List.append_nil]

/-- C39: after any history of definitions the latest one of each key in each family is the one in force. -/
theorem C39_latest (alpha : Char → Bool) (h : List (KeyDefine × Str)) (hok : ∀ e ∈ h, e.1.Ok) (family key : Str) :
    (Dict.get? (defsAfter alpha [] (written h)) family).bind (fun fam => Dict.get? fam key) =
      (latest family key (h.map (·.1))).map fun d => ⟨d.default, d.code⟩ := by
  have key' : ∀ (h pre : List (KeyDefine × Str)) (defs : Defs), (∀ e ∈ h, e.1.Ok) →
      lookup defs family key = (latest family key (pre.map (·.1))).map (fun d => (⟨d.default, d.code⟩ : KeyDef)) →
      lookup (defsAfter alpha defs (written h)) family key =
        (latest family key ((pre ++ h).map (·.1))).map fun d => (⟨d.default, d.code⟩ : KeyDef) := by
    intro h
    induction h with
    | nil => intro pre defs _ hl; simpa [defsAfter, written] using hl
    | cons e h ih =>
      intro pre defs hok hl
      obtain ⟨d, r⟩ := e
      simp only [written, defsAfter, List.map_cons, List.foldl_cons]
      rw [handle_define alpha defs d (hok (d, r) (by simp)) r]
      have := ih (pre ++ [(d, r)]) (define defs d.family d.key ⟨d.default, d.code⟩) (fun e he => hok e (by simp [he])) (by
        rw [lookup_define, List.map_append]
        simp only [List.map_cons, List.map_nil]
        rw [latest_snoc]
        by_cases hfk : d.family = family ∧ d.key = key
        · simp [hfk]
        · rw [if_neg hfk, if_neg hfk, hl])
      rw [List.append_assoc] at this
      exact this
  exact key' h [] [] hok rfl

theorem takeWhile_key (k r : Str) (h : ∀ c ∈ k, keyChar c = true) (hr : ∀ c ∈ r.head?, keyChar c = false) :
    (k ++ r).takeWhile keyChar = k := by
  induction k with
  | nil => cases r with
    | nil => rfl
    | cons c r => have := hr c (by simp); simp [this]
  | cons c k ih => simp [h c (by simp), ih (fun c hc => h c (by simp [hc]))]

theorem takeWhile_val (v r : Str) (h : ',' ∉ v) (hr : ∀ c ∈ r.head?, c = ',') :
    (v ++ r).takeWhile (· ≠ ',') = v := by
  induction v with
  | nil => cases r with
    | nil => rfl
    | cons c r => have := hr c (by simp); simp [this]
  | cons c v ih =>
    have hc : c ≠ ',' := fun e => h (by simp [e])
    have := ih (fun h' => h (by simp [h']))
    simp [hc] at this ⊢
    exact this

theorem keyValues_comma (fuel : Nat) (s : Str) : keyValues (fuel + 1) (',' :: s) = keyValues fuel s := by
  conv => lhs; unfold keyValues
  exact if_neg (by decide)

/-- One setting is read. -/
theorem keyValues_one (fuel : Nat) (e : Str × Option Str) (he : SettingOk e) (r : Str) (hr : ∀ c ∈ r.head?, c = ',') :
    keyValues (fuel + 1) ((match e.2 with | none => e.1 | some v => e.1 ++ '=' :: v) ++ r) = e :: keyValues fuel r := by
  obtain ⟨k, v⟩ := e
  obtain ⟨h1, h2, h3⟩ := he
  simp only at h1 h2 h3
  have hk : ∀ c ∈ k, keyChar c = true := by
    intro c hc
    obtain ⟨a, b, d⟩ := h2 c hc
    simp [keyChar, a, b, d]
  cases k with
  | nil => exact absurd rfl h1
  | cons c k =>
    cases v with
    | none =>
      have ht := takeWhile_key (c :: k) r hk (by intro x hx; rw [hr x hx]; decide)
      simp only [List.cons_append] at ht ⊢
      conv => lhs; unfold keyValues
      simp only [hk c (by simp), if_true, ht]
      have hd : (c :: (k ++ r)).drop (c :: k).length = r := List.drop_left (l₁ := c :: k)
      rw [hd]
      cases r with
      | nil => rfl
      | cons x r =>
        have hx := hr x (by simp)
        subst hx
        rfl
    | some v =>
      obtain ⟨hv1, hv2⟩ := h3 v rfl
      have ht := takeWhile_key (c :: k) ('=' :: (v ++ r)) hk (by intro x hx; simp at hx; subst hx; decide)
      simp only [List.cons_append, List.append_assoc] at ht ⊢
      conv => lhs; unfold keyValues
      simp only [hk c (by simp), if_true, ht]
      have hd : (c :: (k ++ '=' :: (v ++ r))).drop (c :: k).length = '=' :: (v ++ r) := List.drop_left (l₁ := c :: k)
      rw [hd]
      simp only [takeWhile_val v r hv2 hr]
      rw [if_neg (by simpa using hv1), List.drop_left]

theorem keyValues_render : ∀ (l : List (Str × Option Str)) (fuel : Nat), (∀ e ∈ l, SettingOk e) → (renderSettings l).length < fuel →
    keyValues fuel (renderSettings l) = l := by
  intro l
  induction l with
  | nil =>
    intro fuel _ hf
    cases fuel with
    | zero => simp at hf
    | succ n => rfl
  | cons e l ih =>
    intro fuel hok hf
    obtain ⟨n, rfl⟩ : ∃ n, fuel = n + 1 := ⟨fuel - 1, by omega⟩
    have he := hok e (by simp)
    cases l with
    | nil =>
      have h1 := keyValues_one n e he [] (by simp)
      have h2 : keyValues n ([] : Str) = [] := by cases n <;> rfl
      rw [List.append_nil, h2] at h1
      obtain ⟨k, v⟩ := e
      cases v <;> exact h1
    | cons e2 l =>
      have htxt : renderSettings (e :: e2 :: l) = (match e.2 with | none => e.1 | some v => e.1 ++ '=' :: v) ++ (',' :: renderSettings (e2 :: l)) := by
        obtain ⟨k, v⟩ := e
        cases v <;> simp [renderSettings]
      have hlen : (renderSettings (e2 :: l)).length + 1 < n := by
        rw [htxt] at hf
        obtain ⟨k, v⟩ := e
        have hk : 0 < k.length := List.length_pos_iff.2 he.1
        cases v <;> simp at hf hk ⊢ <;> omega
      rw [htxt, keyValues_one n e he _ (by simp)]
      obtain ⟨m, rfl⟩ : ∃ m, n = m + 1 := ⟨n - 1, by omega⟩
      rw [keyValues_comma, ih m (fun e h => hok e (by simp [h])) (by omega)]

theorem codeblocks_eq (alpha : Char → Bool) (fam : Dict KeyDef) (kvs : List (Str × Str)) (hnd : (kvs.map (·.1)).Nodup) :
    codeblocks alpha fam kvs = kvs.filterMap fun kv => (Dict.get? fam kv.1).bind fun d =>
      if d.code = [] then none else some (kv.1, substituteArgs alpha d.code [some kv.2] false) := by
  unfold codeblocks
  have key : ∀ (kvs : List (Str × Str)) (out : Dict Str), (kvs.map (·.1)).Nodup → (∀ kv ∈ kvs, ∀ e ∈ out, e.1 ≠ kv.1) →
      kvs.foldl (fun out kv =>
        match Dict.get? fam kv.1 with
        | none => out
        | some d => if d.code.isEmpty then out else Dict.set out kv.1 (substituteArgs alpha d.code [some kv.2] false)) out =
      out ++ kvs.filterMap fun kv => (Dict.get? fam kv.1).bind fun d =>
        if d.code = [] then none else some (kv.1, substituteArgs alpha d.code [some kv.2] false) := by
    intro kvs
    induction kvs with
    | nil => intro out _ _; simp
    | cons kv kvs ih =>
      intro out hnd hdis
      simp only [List.map_cons, List.nodup_cons] at hnd
      rw [List.foldl_cons, List.filterMap_cons]
      have hrest : ∀ kv ∈ kvs, ∀ e ∈ out, e.1 ≠ kv.1 := fun kv' h e he => hdis kv' (by simp [h]) e he
      cases hg : Dict.get? fam kv.1 with
      | none => simp only [Option.bind_none]; exact ih out hnd.2 hrest
      | some d =>
        simp only [Option.bind_some]
        by_cases hc : d.code = []
        · rw [if_pos (by simp [hc]), if_pos hc]
          exact ih out hnd.2 hrest
        · rw [if_neg (by simpa using hc), if_neg hc]
          rw [Dict.set_new _ _ _ (hdis kv (by simp)), ih _ hnd.2]
          · simp
          · intro kv' h e he
            simp at he
            rcases he with he | rfl
            · exact hrest kv' h e he
            · intro heq
              simp only at heq
              exact hnd.1 (by rw [heq]; exact List.mem_map_of_mem h)
  have := key kvs [] hnd (by simp)
  rw [List.nil_append] at this
  exact this

/-- C39: `\setkeys{family}{k1=v1,k2,…}` (distinct keys) triggers, in order, for every key defined in that family the code
of its latest definition with the given value; the value of a key without one is "true". -/
theorem C39_setting_partial (alpha : Char → Bool) (h : List (KeyDefine × Str)) (hok : ∀ e ∈ h, e.1.Ok) (family : Str)
    (kvs : List (Str × Option Str)) (hkv : ∀ e ∈ kvs, SettingOk e) (hnd : (kvs.map (·.1)).Nodup)
    (hf : Wrappable '{' '}' family) (hw : Wrappable '{' '}' (renderSettings kvs)) (rest : Str) :
    handle alpha (defsAfter alpha [] (written h)) ("\\setkeys".toList ++ (wrapAll '{' '}' [([], family), ([], renderSettings kvs)] ++ rest)) =
      (defsAfter alpha [] (written h),
       some (.setting (kvs.filterMap fun kv => (latest family kv.1 (h.map (·.1))).bind fun d =>
         if d.code = [] then none
         else some (kv.1, substituteArgs alpha d.code [some (match kv.2 with | some v => strip v | none => "true".toList)] false))),
       ("\\setkeys".toList ++ wrapAll '{' '}' [([], family), ([], renderSettings kvs)]).length) := by
  have hl := C39_latest alpha h hok family
  generalize defsAfter alpha [] (written h) = defs at hl ⊢
  have hm := matchKw_hit "\\setkeys".toList (wrapAll '{' '}' [([], family), ([], renderSettings kvs)] ++ rest)
    (by intro c hc; simp [wrapAll] at hc; subst hc; decide)
  have hno : matchKw "\\define@key".toList ("\\setkeys".toList ++ (wrapAll '{' '}' [([], family), ([], renderSettings kvs)] ++ rest)) = none := by
    unfold matchKw startsWith
    rw [if_neg]
    intro hp
    rw [List.isPrefixOf_iff_prefix] at hp
    have h1 : "\\define@key".toList.take 2 <+: "\\setkeys".toList ++ (wrapAll '{' '}' [([], family), ([], renderSettings kvs)] ++ rest) :=
      (List.take_prefix _ _).trans hp
    obtain ⟨t, ht⟩ := h1
    exact absurd (List.cons.inj (List.cons.inj ht).2).1 (by decide)
  unfold handle
  simp only [hno, hm]
  have s1 := seqBlocks_wrap '{' '}' (by decide) (by decide) (by decide) [([], family), ([], renderSettings kvs)] rest (by
    intro e he; simp at he; rcases he with rfl | rfl
    · exact ⟨by simp, hf⟩
    · exact ⟨by simp, hw⟩)
  simp only [List.length_cons, List.length_nil, Nat.zero_add, List.map_cons, List.map_nil] at s1
  unfold handleSet
  simp only [List.drop_left, s1]
  rw [keyValues_render kvs _ hkv (by omega)]
  have hlen : ("\\setkeys".toList ++ wrapAll '{' '}' [([], family), ([], renderSettings kvs)]).length =
      "\\setkeys".toList.length + (wrapAll '{' '}' [([], family), ([], renderSettings kvs)]).length := List.length_append
  rw [hlen]
  have hval : ∀ o : Option Str, valueOf o = (match o with | some v => strip v | none => "true".toList) := by
    intro o; cases o <;> rfl
  have hfun : ∀ (fam : Str → Option KeyDef), (∀ k, fam k = (latest family k (h.map (·.1))).map fun d => ⟨d.default, d.code⟩) →
      (kvs.map fun e => (e.1, valueOf e.2)).filterMap (fun kv => (fam kv.1).bind fun d =>
        if d.code = [] then none else some (kv.1, substituteArgs alpha d.code [some kv.2] false)) =
      kvs.filterMap fun kv => (latest family kv.1 (h.map (·.1))).bind fun d =>
         if d.code = [] then none
         else some (kv.1, substituteArgs alpha d.code [some (match kv.2 with | some v => strip v | none => "true".toList)] false) := by
    intro fam hfam
    rw [List.filterMap_map]
    congr 1
    funext kv
    simp only [Function.comp, hfam, hval]
    cases latest family kv.1 (h.map (·.1)) <;> rfl
  cases hg : Dict.get? defs family with
  | none =>
    simp only [Option.map_some]
    have := hfun (fun _ => none) (fun k => by have := hl k; rw [hg] at this; simpa using this)
    rw [← this]
    simp
  | some fam =>
    simp only [Option.map_some]
    rw [codeblocks_eq alpha fam _ (by simpa [Function.comp_def] using hnd)]
    rw [hfun (fun k => Dict.get? fam k) (fun k => by have := hl k; rw [hg] at this; simpa using this)]

/-- C39: what replaces the `\setkeys`: the code of each of the keys on a line. -/
theorem C39_code_partial (alpha : Char → Bool) (h : List (KeyDefine × Str)) (hok : ∀ e ∈ h, e.1.Ok) (family : Str)
    (kvs : List (Str × Option Str)) (hkv : ∀ e ∈ kvs, SettingOk e) (hnd : (kvs.map (·.1)).Nodup)
    (hf : Wrappable '{' '}' family) (hw : Wrappable '{' '}' (renderSettings kvs)) (rest : Str) :
    expansion (handle alpha (defsAfter alpha [] (written h))
        ("\\setkeys".toList ++ (wrapAll '{' '}' [([], family), ([], renderSettings kvs)] ++ rest))).2.1 =
      kvs.flatMap fun kv => match latest family kv.1 (h.map (·.1)) with
        | none => []
        | some d => if d.code = [] then [] else
          substituteArgs alpha d.code [some (match kv.2 with | some v => strip v | none => "true".toList)] false ++ "\n".toList := by
  rw [C39_setting_partial alpha h hok family kvs hkv hnd hf hw rest]
  unfold expansion
  simp only
  clear hkv hnd hw
  induction kvs with
  | nil => rfl
  | cons kv kvs ih =>
    rw [List.flatMap_cons, ← ih, List.filterMap_cons]
    cases hl : latest family kv.1 (h.map (·.1)) with
    | none => simp
    | some d =>
      by_cases hc : d.code = []
      · simp [hc]
      · simp [hc]

/-- C39 violated: the declared default of a key is not used, a key without value gets "true". -/
theorem C39_violated_default (alpha : Char → Bool) :
    let defs := (handle alpha [] "\\define@key{f}{k}[red]{#1}".toList).1
    (lookup defs "f".toList "k".toList).map (·.default) = some (some "red".toList) ∧
    ∃ p, handle alpha defs "\\setkeys{f}{k}".toList = (defs, some (.setting [("k".toList, "true".toList)]), p) := by
  have h : (handle alpha [] "\\define@key{f}{k}[red]{#1}".toList).1 = [("f".toList, [("k".toList, ⟨some "red".toList, "#1".toList⟩)])] := by
    rfl
  simp only [h]
  exact ⟨by decide, 14, rfl⟩

/-- C39 violated: blanks around the equals sign. `width = 3` sets `width` to "true" and then `3` to "true". -/
theorem C39_violated_spaces :
    (keyValues 20 "width = 3".toList).map (fun e => (e.1, valueOf e.2)) = [("width".toList, "true".toList), ("3".toList, "true".toList)] := by
  decide

/-- C39 violated: a value with a comma in braces is cut. -/
theorem C39_violated_braced_comma :
    (keyValues 20 "a={1,2}".toList).map (fun e => (e.1, valueOf e.2)) = [("a".toList, "{1".toList), ("2}".toList, "true".toList)] := by
  decide

/-- C39 violated: of two settings of one key in a list only the last one has an effect. -/
theorem C39_violated_repeated (alpha : Char → Bool) (fam : Dict KeyDef) (k : Str) (v1 v2 : Str) :
    (codeblocks alpha fam [(k, v1), (k, v2)]).length ≤ 1 := by
  unfold codeblocks
  simp only [List.foldl_cons, List.foldl_nil]
  cases hg : Dict.get? fam k with
  | none => simp
  | some d =>
    simp only
    split <;> simp [Dict.set]

/-! A history of definitions and a setting. -/
example : handle (fun _ => false) (defsAfter (fun _ => false) [] ["\\define@key{f}{a}{A#1}".toList, "\\define@key{g}{a}{G#1}".toList, "\\define@key{f}{a}{B#1}x".toList])
      "\\setkeys{f}{b=2,a=1} rest".toList |>.2.1 = some (.setting [("a".toList, "B1".toList)]) := by
  decide +kernel
example : SettingOk ("a".toList, some "1".toList) := by
  refine ⟨by decide, ?_, ?_⟩
  · decide
  · intro v hv; injection hv with hv; subst hv; decide

end L2J.KeyVal
