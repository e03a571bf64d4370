import Verif.Props.C70a
/-! C70: bibliographies compiled by biblatex. -/
namespace L2J.Bbl
open Cmds Defn BibI L2J.Spec

/-! Dictionaries. -/

theorem dictSet_mem {d : List (Str × Str)} {k v : Str} : ∀ {e : Str × Str}, e ∈ dictSet d k v → e ∈ d ∨ e = (k, v) := by
  induction d with
  | nil => intro e he; right; simpa [dictSet] using he
  | cons x d ih =>
    intro e he
    obtain ⟨a, b⟩ := x
    unfold dictSet at he
    split at he
    · rcases List.mem_cons.1 he with h | h
      · exact .inr h
      · exact .inl (by simp [h])
    · rcases List.mem_cons.1 he with h | h
      · exact .inl (by simp [h])
      · rcases ih h with h | h
        · exact .inl (by simp [h])
        · exact .inr h

theorem dictSet_keys (d : List (Str × Str)) (k v : Str) : (dictSet d k v).map (·.1) = if k ∈ d.map (·.1) then d.map (·.1) else d.map (·.1) ++ [k] := by
  induction d with
  | nil => simp [dictSet]
  | cons x d ih =>
    obtain ⟨a, b⟩ := x
    unfold dictSet
    by_cases h : a = k
    · subst h; simp
    · rw [if_neg h]
      simp only [List.map_cons, ih, List.mem_cons]
      by_cases h2 : k ∈ d.map (·.1)
      · rw [if_pos h2, if_pos (.inr h2)]
      · rw [if_neg h2, if_neg (fun hh => hh.elim (fun e => h e.symm) h2)]
        rfl

theorem dictSet_nodup {d : List (Str × Str)} {k v : Str} (h : (d.map (·.1)).Nodup) : ((dictSet d k v).map (·.1)).Nodup := by
  rw [dictSet_keys]
  by_cases h2 : k ∈ d.map (·.1)
  · rw [if_pos h2]; exact h
  · rw [if_neg h2]
    rw [List.nodup_append]
    refine ⟨h, by simp, ?_⟩
    intro a ha b hb
    simp at hb
    subst hb
    rintro rfl
    exact h2 ha

theorem get_mem {d : List (Str × Str)} (h : (d.map (·.1)).Nodup) {k v : Str} : dictGet d k = some v ↔ (k, v) ∈ d := by
  induction d with
  | nil => simp [dictGet]
  | cons x d ih =>
    obtain ⟨a, b⟩ := x
    simp only [List.map_cons, List.nodup_cons] at h
    unfold dictGet
    by_cases hk : a = k
    · subst hk
      rw [if_pos rfl]
      simp only [Option.some.injEq, List.mem_cons, Prod.mk.injEq, true_and]
      constructor
      · rintro rfl; exact .inl rfl
      · rintro (rfl | hm)
        · rfl
        · exact absurd (List.mem_map.2 ⟨_, hm, rfl⟩) h.1
    · rw [if_neg hk, ih h.2]
      simp only [List.mem_cons, Prod.mk.injEq]
      constructor
      · exact .inr
      · rintro (⟨rfl, _⟩ | hm)
        · exact absurd rfl hk
        · exact hm

theorem last_mem {d : List (Str × Str)} (h : (d.map (·.1)).Nodup) (hl : ∀ e ∈ d, lower e.1 = e.1) {k v : Str} : lastValue d k = some v ↔ (k, v) ∈ d := by
  unfold lastValue
  rw [Option.map_eq_some_iff]
  constructor
  · rintro ⟨⟨a, b⟩, hf, rfl⟩
    have hm := List.mem_of_find?_eq_some hf
    have hp := List.find?_some hf
    rw [List.mem_reverse] at hm
    simp only [decide_eq_true_eq] at hp
    rw [hl _ hm] at hp
    simp only at hp
    subst hp
    exact hm
  · intro hm
    cases hf : d.reverse.find? fun f => lower f.1 = k with
    | none =>
      rw [List.find?_eq_none] at hf
      have := hf (k, v) (by simpa using hm)
      simp only [decide_eq_true_eq] at this
      exact absurd (hl _ hm) this
    | some e =>
      obtain ⟨a, b⟩ := e
      have hm' := List.mem_of_find?_eq_some hf
      have hp := List.find?_some hf
      rw [List.mem_reverse] at hm'
      simp only [decide_eq_true_eq] at hp
      rw [hl _ hm'] at hp
      simp only at hp
      subst hp
      have h1 := (get_mem h).2 hm
      have h2 := (get_mem h).2 hm'
      rw [h1] at h2
      exact ⟨_, rfl, (Option.some.inj h2).symm⟩

theorem order_nodup : fieldOrder.Nodup := by decide

theorem order_names : "key".toList ∉ fieldOrder ∧ "type".toList ∉ fieldOrder := by decide

/-- The fields are written in another order, without the key and the type. -/
theorem ordered_mem {d : List (Str × Str)} (h : (d.map (·.1)).Nodup) {e : Str × Str} : e ∈ ordered d ↔ e ∈ d ∧ e.1 ≠ "key".toList ∧ e.1 ≠ "type".toList := by
  obtain ⟨k, v⟩ := e
  unfold ordered
  rw [List.mem_append, List.mem_filterMap, List.mem_filter]
  simp only [Bool.not_eq_true', Bool.or_eq_false_iff, beq_eq_false_iff_ne, ne_eq]
  constructor
  · rintro (⟨f, hf, hm⟩ | ⟨hm, ⟨h1, h2⟩, _⟩)
    · rw [Option.map_eq_some_iff] at hm
      obtain ⟨w, hw, he⟩ := hm
      simp only [Prod.mk.injEq] at he
      obtain ⟨rfl, rfl⟩ := he
      refine ⟨(get_mem h).1 hw, ?_, ?_⟩
      · rintro rfl; exact order_names.1 hf
      · rintro rfl; exact order_names.2 hf
    · exact ⟨hm, h1, h2⟩
  · rintro ⟨hm, h1, h2⟩
    by_cases hk : k ∈ fieldOrder
    · exact .inl ⟨k, hk, by rw [(get_mem h).2 hm]; rfl⟩
    · exact .inr ⟨hm, ⟨h1, h2⟩, by simpa using hk⟩

theorem ordered_nodup {d : List (Str × Str)} (h : (d.map (·.1)).Nodup) : ((ordered d).map (·.1)).Nodup := by
  unfold ordered
  rw [List.map_append, List.nodup_append]
  have h1 : ∀ l : List Str, ((l.filterMap fun f => (dictGet d f).map fun v => (f, v)).map (·.1)).Sublist l := by
    intro l
    induction l with
    | nil => simp
    | cons f l ih =>
      rw [List.filterMap_cons]
      cases dictGet d f with
      | none => exact ih.cons _
      | some v => exact ih.cons_cons _
  refine ⟨(h1 _).nodup order_nodup, ((List.filter_sublist (l := d)).map _).nodup h, ?_⟩
  intro a ha b hb
  have ha' := (h1 _).subset ha
  obtain ⟨e, he, rfl⟩ := List.mem_map.1 hb
  rw [List.mem_filter] at he
  rintro rfl
  have := he.2
  simp [ha'] at this

/-! What is kept of an entry. -/

theorem dictGet_read (fs : List (Str × Str)) (k : Str) : ∀ d, dictGet (fs.foldl addRead d) k = ((fs.reverse.find? fun f => keptAs (strip f.1) = some k).map fun f => strip f.2).or (dictGet d k) := by
  induction fs with
  | nil => intro d; simp
  | cons f fs ih =>
    intro d
    rw [List.foldl_cons, ih, List.reverse_cons, List.find?_append]
    cases hf : fs.reverse.find? fun f => keptAs (strip f.1) = some k with
    | some e => simp
    | none =>
      simp only [Option.map_none, Option.none_or]
      unfold addRead
      cases hk : keptAs (strip f.1) with
      | none => simp [hk]
      | some k' =>
        simp only [dictGet_set]
        by_cases h : k' = k
        · subst h; simp [hk]
        · rw [if_neg h]
          simp [hk, h]

theorem nodup_read (fs : List (Str × Str)) : ∀ d : List (Str × Str), (d.map (·.1)).Nodup → ((fs.foldl addRead d).map (·.1)).Nodup := by
  induction fs with
  | nil => intro d h; exact h
  | cons f fs ih =>
    intro d h
    rw [List.foldl_cons]
    refine ih _ ?_
    unfold addRead
    cases keptAs (strip f.1) with
    | none => exact h
    | some k => exact dictSet_nodup h

theorem mem_read (fs : List (Str × Str)) : ∀ (d : List (Str × Str)) (e), e ∈ fs.foldl addRead d → e ∈ d ∨ ∃ f ∈ fs, keptAs (strip f.1) = some e.1 ∧ e.2 = strip f.2 := by
  induction fs with
  | nil => intro d e h; exact .inl h
  | cons f fs ih =>
    intro d e h
    rw [List.foldl_cons] at h
    rcases ih _ e h with h | ⟨f', hf, h1, h2⟩
    · unfold addRead at h
      cases hk : keptAs (strip f.1) with
      | none => rw [hk] at h; exact .inl h
      | some k =>
        rw [hk] at h
        rcases dictSet_mem h with h | rfl
        · exact .inl h
        · exact .inr ⟨f, by simp, hk, rfl⟩
    · exact .inr ⟨f', by simp [hf], h1, h2⟩

theorem dict_nodup (c : BblEntry) : ((dictOf c).map (·.1)).Nodup := by
  have h0 : (([("key".toList, strip c.key), ("type".toList, strip c.type)] : List (Str × Str)).map (·.1)).Nodup := by
    show ["key".toList, "type".toList].Nodup
    decide
  unfold dictOf
  have h1 : ∀ d : List (Str × Str), (d.map (·.1)).Nodup → ((match c.eprint with | some x => dictSet d "eprint".toList x | none => d : List (Str × Str)).map (·.1)).Nodup := by
    intro d h
    cases c.eprint with
    | none => exact h
    | some x => exact dictSet_nodup h
  refine h1 _ (nodup_read _ _ ?_)
  by_cases ha : c.authors = []
  · rw [if_pos ha]; exact h0
  · rw [if_neg ha]; exact dictSet_nodup h0

theorem kept_cases {k k' : Str} (h : keptAs k = some k') : k' = k ∨ k' = "journal".toList := by
  unfold keptAs at h
  split at h
  · cases h
  · split at h
    · exact .inr (Option.some.inj h).symm
    · exact .inl (Option.some.inj h).symm

theorem field_none {c : BblEntry} {k : Str} (h : ∀ f ∈ c.fields, strip f.1 ≠ k) (hk : k ≠ "journal".toList) : c.field k = none := by
  unfold BblEntry.field
  rw [Option.map_eq_none_iff, List.find?_eq_none]
  intro f hf hp
  simp only [decide_eq_true_eq] at hp
  rcases kept_cases hp with e | e
  · exact h f (by simpa using hf) e.symm
  · exact hk e

theorem said {c : BblEntry} (hp : c.Plain) : ∀ k, k ∉ ["key".toList, "type".toList] →
    dictGet (dictOf c) k = if k = "author".toList ∧ c.authors ≠ [] then some (joinWith " and ".toList (c.authors.map authorName)) else c.says k := by
  intro k hk
  have hauth : c.field "author".toList = none := field_none (fun f hf he => (hp.names f hf).2.2 (by rw [he]; simp)) (by decide)
  have h0 : dictGet [("key".toList, strip c.key), ("type".toList, strip c.type)] k = none := by
    simp only [List.mem_cons, List.not_mem_nil, or_false, not_or] at hk
    unfold dictGet
    rw [if_neg (fun h => hk.1 h.symm)]
    unfold dictGet
    rw [if_neg (fun h => hk.2 h.symm)]
    rfl
  have hd : ∀ a : Option Str, dictGet (c.fields.foldl addRead (if c.authors = [] then [("key".toList, strip c.key), ("type".toList, strip c.type)]
      else dictSet [("key".toList, strip c.key), ("type".toList, strip c.type)] "author".toList (joinWith " and ".toList (c.authors.map authorName)))) k =
      if k = "author".toList ∧ c.authors ≠ [] then some (joinWith " and ".toList (c.authors.map authorName)) else c.field k := by
    intro _
    rw [dictGet_read]
    show (c.field k).or _ = _
    by_cases ha : c.authors = []
    · rw [if_pos ha, h0, if_neg (by simp [ha])]; simp
    · rw [if_neg ha, dictGet_set, h0]
      by_cases hk2 : k = "author".toList
      · subst hk2
        rw [if_pos rfl, if_pos ⟨rfl, ha⟩, hauth]; rfl
      · rw [if_neg (fun h => hk2 h.symm), if_neg (fun h => hk2 h.1)]; simp
  have hd := hd none
  unfold BblEntry.says dictOf
  simp only
  have hne : "eprint".toList ≠ "author".toList := by decide
  cases he : c.eprint with
  | none =>
    simp only
    rw [hd]
    by_cases hk2 : k = "author".toList ∧ c.authors ≠ []
    · rw [if_pos hk2, if_pos hk2]
    · rw [if_neg hk2, if_neg hk2, if_neg hk2, if_neg (by simp)]
  | some x =>
    simp only
    rw [dictGet_set, hd]
    by_cases hk3 : k = "eprint".toList
    · subst hk3
      rw [if_pos rfl, if_neg (fun h => hne h.1), if_neg (fun h => hne h.1), if_pos ⟨rfl, by simp⟩]
    · rw [if_neg (fun h => hk3 h.symm)]
      by_cases hk2 : k = "author".toList ∧ c.authors ≠ []
      · rw [if_pos hk2, if_pos hk2]
      · rw [if_neg hk2, if_neg hk2, if_neg hk2, if_neg (fun h => hk3 h.1)]

/-! What is written of an entry, and read again. -/

/-- An entry that can be read again. -/
structure GoodLine (f : Str × Str) : Prop where
  name : IsName f.1
  low : lower f.1 = f.1
  bal : BalE f.2
  noAt : '@' ∉ f.2

theorem line_eq (f : Str × Str) : line f = "  ".toList ++ (f.1 ++ ([' '] ++ '=' :: ([' '] ++ '{' :: (f.2 ++ '}' :: [','])))) := by
  unfold line
  simp

theorem line_bal {f : Str × Str} (h : GoodLine f) : BalE (line f ++ ['\n']) := by
  have h1 : BalE ("  ".toList ++ f.1 ++ " = ".toList) := balE_plain (by
    intro c hc
    simp only [List.mem_append] at hc
    rcases hc with (hc | hc) | hc
    · have : ∀ c ∈ "  ".toList, c ≠ '{' ∧ c ≠ '}' ∧ c ≠ '\\' := by decide
      exact this c hc
    · have := isWord_plain (h.name.2 c hc); exact ⟨this.1, this.2.1, this.2.2.1⟩
    · have : ∀ c ∈ " = ".toList, c ≠ '{' ∧ c ≠ '}' ∧ c ≠ '\\' := by decide
      exact this c hc)
  have h2 : BalE ",\n".toList := balE_plain (by decide)
  have := (h1.append h.bal.wrap).append h2
  rw [line_eq]
  simpa using this

theorem lines_bal {l : List (Str × Str)} (h : ∀ f ∈ l, GoodLine f) : BalE (l.flatMap fun f => line f ++ ['\n']) := by
  induction l with
  | nil => exact balE_plain (by simp)
  | cons f l ih =>
    rw [List.flatMap_cons]
    exact (line_bal (h f (by simp))).append (ih fun x hx => h x (by simp [hx]))

theorem lines_noAt {l : List (Str × Str)} (h : ∀ f ∈ l, GoodLine f) : '@' ∉ l.flatMap fun f => line f ++ ['\n'] := by
  intro hm
  obtain ⟨f, hf, hm⟩ := List.mem_flatMap.1 hm
  have hg := h f hf
  unfold line at hm
  simp only [List.mem_append] at hm
  rcases hm with ((((hm | hm) | hm) | hm) | hm) | hm
  · revert hm; decide
  · exact (isWord_plain (hg.name.2 _ hm)).2.2.2.2 rfl
  · revert hm; decide
  · exact hg.noAt hm
  · revert hm; decide
  · revert hm; decide

theorem lines_text {l : List (Str × Str)} (h : ∀ f ∈ l, GoodLine f) : ∀ sep, IsSep sep →
    FieldText (sep ++ l.flatMap fun f => line f ++ ['\n']) (l.map fun f => (f.1, strip f.2)) := by
  induction l with
  | nil => intro sep hs; simpa using FieldText.done sep hs
  | cons f l ih =>
    intro sep hs
    have hf := h f (by simp)
    have hb : IsBlank [' '] := by intro c hc; simp at hc; subst hc; decide
    have := FieldText.braced (sep ++ "  ".toList) f.1 [' '] [' '] f.2 _ _ (by
      intro c hc
      rcases List.mem_append.1 hc with hc | hc
      · exact hs c hc
      · have : ∀ c ∈ "  ".toList, isSpace c = true ∨ c = ',' := by decide
        exact this c hc) hf.name hb hb hf.bal.1 hf.bal.2 (ih (fun x hx => h x (by simp [hx])) ",\n".toList (by unfold IsSep; decide))
    rw [List.flatMap_cons, line_eq]
    simpa using this

theorem sep_sub {a b : Str} (h : IsSep b) (hs : ∀ c ∈ a, c ∈ b) : IsSep a := fun c hc => h c (hs c hc)

theorem lstrip_sep (sep x : Str) (hx : ∃ c t, x = c :: t ∧ isSpace c = false) : ∃ sep', lstrip (sep ++ x) = sep' ++ x ∧ ∀ c ∈ sep', c ∈ sep := by
  induction sep with
  | nil =>
    obtain ⟨c, t, rfl, hc⟩ := hx
    refine ⟨[], ?_, by simp⟩
    show List.dropWhile isSpace (c :: t) = _
    rw [List.dropWhile_cons_of_neg (by simp [hc])]
    rfl
  | cons a sep ih =>
    obtain ⟨s', h1, h2⟩ := ih
    cases ha : isSpace a with
    | true =>
      refine ⟨s', ?_, fun c hc => by simp [h2 c hc]⟩
      rw [← h1]
      show List.dropWhile isSpace (a :: (sep ++ x)) = _
      rw [List.dropWhile_cons_of_pos ha]
      rfl
    | false =>
      refine ⟨a :: sep, ?_, fun c hc => hc⟩
      show List.dropWhile isSpace (a :: (sep ++ x)) = _
      rw [List.dropWhile_cons_of_neg (by simp [ha])]
      rfl

theorem name_first {n r : Str} (h : IsName n) : ∃ c t, n ++ r = c :: t ∧ isSpace c = false := by
  obtain ⟨h1, h2⟩ := h
  cases n with
  | nil => exact absurd rfl h1
  | cons c n =>
    refine ⟨c, n ++ r, rfl, ?_⟩
    cases hs : isSpace c with
    | false => rfl
    | true => have := space_not_word c hs; rw [h2 c (by simp)] at this; cases this

theorem text_lstrip {s : Str} {fs} (h : FieldText s fs) : FieldText (lstrip s) fs := by
  cases h with
  | done _ hs => exact .done _ (sep_sub hs fun c hc => (List.dropWhile_sublist _).subset hc)
  | braced sep name ws1 ws2 v rest fs h1 h2 h3 h4 h5 h6 h7 =>
    obtain ⟨sep', he, hs⟩ := lstrip_sep sep _ (name_first (r := ws1 ++ '=' :: (ws2 ++ '{' :: (v ++ '}' :: rest))) h2)
    rw [he]
    exact .braced _ _ _ _ _ _ _ (sep_sub h1 hs) h2 h3 h4 h5 h6 h7
  | quoted sep name ws1 ws2 q rest fs h1 h2 h3 h4 h5 h6 =>
    obtain ⟨sep', he, hs⟩ := lstrip_sep sep _ (name_first (r := ws1 ++ '=' :: (ws2 ++ '"' :: (q ++ '"' :: rest))) h2)
    rw [he]
    exact .quoted _ _ _ _ _ _ _ (sep_sub h1 hs) h2 h3 h4 h5 h6

theorem after_strip {c : Char} (hc : isSpace c = false) (a l : Str) : rstrip (a ++ c :: l) = a ++ c :: rstrip l := by
  rw [rstrip_append_nonspace a (c :: l) ⟨c, by simp, hc⟩]
  congr 1
  cases hl : l.all isSpace with
  | true =>
    have : rstrip l = [] := by
      have := Content.rstrip_right (b := l) (fun x hx => List.all_eq_true.1 hl x hx) []
      rw [List.nil_append] at this
      rw [this]
      rfl
    rw [this]
    have := Content.rstrip_right (b := l) (fun x hx => List.all_eq_true.1 hl x hx) [c]
    rw [List.singleton_append] at this
    rw [this]
    unfold rstrip
    simp [hc]
  | false =>
    have : ∃ d ∈ l, isSpace d = false := by simpa using hl
    exact rstrip_append_nonspace [c] l this

theorem text_rstrip {s : Str} {fs} (h : FieldText s fs) : FieldText (rstrip s) fs := by
  induction h with
  | done sep hs =>
    obtain ⟨ws, _, he⟩ := rstrip_eq sep
    refine .done _ (sep_sub hs fun c hc => ?_)
    rw [he]
    simp [hc]
  | braced sep name ws1 ws2 v rest fs h1 h2 h3 h4 h5 h6 _ ih =>
    have e : sep ++ (name ++ (ws1 ++ '=' :: (ws2 ++ '{' :: (v ++ '}' :: rest)))) = (sep ++ (name ++ (ws1 ++ '=' :: (ws2 ++ '{' :: v)))) ++ '}' :: rest := by simp
    rw [e, after_strip (by decide)]
    have := FieldText.braced _ _ _ _ _ _ _ h1 h2 h3 h4 h5 h6 ih
    simpa using this
  | quoted sep name ws1 ws2 q rest fs h1 h2 h3 h4 h5 _ ih =>
    have e : sep ++ (name ++ (ws1 ++ '=' :: (ws2 ++ '"' :: (q ++ '"' :: rest)))) = (sep ++ (name ++ (ws1 ++ '=' :: (ws2 ++ '"' :: q)))) ++ '"' :: rest := by simp
    rw [e, after_strip (by decide)]
    have := FieldText.quoted _ _ _ _ _ _ _ h1 h2 h3 h4 h5 ih
    simpa using this

theorem text_strip {s : Str} {fs} (h : FieldText s fs) : FieldText (strip s) fs := text_rstrip (text_lstrip h)

theorem regular_lines (h : Str) (l : List (Str × Str)) : joinWith ['\n'] (h :: (l.map line ++ [['}']])) = h ++ '\n' :: ((l.flatMap fun f => line f ++ ['\n']) ++ ['}']) := by
  induction l generalizing h with
  | nil => simp [joinWith]
  | cons f l ih =>
    have := ih (line f)
    rw [List.map_cons, List.cons_append]
    have e : ∀ (a b : Str) (m : List Str), joinWith ['\n'] (a :: b :: m) = a ++ ['\n'] ++ joinWith ['\n'] (b :: m) := fun _ _ _ => rfl
    rw [e, this, List.flatMap_cons]
    simp

/-- What is read of a text written for an entry. -/
theorem parse_one {ty content junk U : Str} {e : BibEntry} (h1 : IsName ty) (h2 : '@' ∉ content) (h3 : '@' ∉ junk) (h4 : L2J.parseEntry ty ('{' :: (content ++ '}' :: (junk ++ U))) = some (some e)) :
    parseEntries (entryStarts 0 ('@' :: (ty ++ '{' :: (content ++ '}' :: (junk ++ U))))) = (parseEntries (entryStarts 0 U)).map (e :: ·) := by
  have hty : '@' ∉ ty := fun hm => (isWord_plain (h1.2 _ hm)).2.2.2.2 rfl
  have ht := takeWhile_append (p := isWord) ty ('{' :: (content ++ '}' :: (junk ++ U))) h1.2 (by intro c hc; simp at hc; subst hc; decide)
  have hm : matchEntry ('@' :: (ty ++ '{' :: (content ++ '}' :: (junk ++ U)))) = some (ty, ty.length + 2) := by
    unfold matchEntry
    have hne : ty.isEmpty = false := by rw [List.isEmpty_eq_false_iff]; exact h1.1
    have hsp : isSpace '{' = false := by decide
    simp only [ht.1, List.drop_left, hne, Bool.false_eq_true, if_false, List.takeWhile_cons, hsp, List.length_nil,
      List.drop_zero, List.head?_cons, if_true, Nat.add_zero]
  rw [entryStarts, hm]
  simp only []
  have hdrop : ('@' :: (ty ++ '{' :: (content ++ '}' :: (junk ++ U)))).drop (ty.length + 2 - 1) = '{' :: (content ++ '}' :: (junk ++ U)) := by
    rw [show ty.length + 2 - 1 = ty.length + 1 by omega, List.drop_succ_cons, List.drop_left]
  have hrest : entryStarts (ty.length + 2 - 1) (ty ++ '{' :: (content ++ '}' :: (junk ++ U))) = entryStarts 0 U := by
    have : ty ++ '{' :: (content ++ '}' :: (junk ++ U)) = (ty ++ '{' :: (content ++ '}' :: junk)) ++ U := by simp
    rw [this]
    refine entryStarts_noAt _ _ ?_ _ (by simp)
    simp only [List.mem_append, List.mem_cons, not_or]
    exact ⟨hty, by decide, h2, by decide, h3⟩
  rw [hdrop, hrest, parseEntries, h4]

/-! The entries of the bibliography. -/

theorem names_kept {c : BblEntry} (hp : c.Plain) : ∀ f ∈ c.fields, ∀ k, keptAs (strip f.1) = some k → IsName k ∧ lower k = k ∧ k ∉ ["key".toList, "type".toList, "author".toList] := by
  intro f hf k hk
  rcases kept_cases hk with rfl | rfl
  · exact hp.names f hf
  · exact ⟨by unfold IsName; decide, by decide, by decide⟩

/-- What an entry says about authors and its eprint number, as it is written. -/
structure Written (c : BblEntry) : Prop where
  authors : ∀ a ∈ c.authors, BalE a.1
  eprint : ∀ x ∈ c.eprint, strip x = x

theorem authors_bal {t : Str} {as} (h : AuthorsText t as) : ∀ a ∈ as, BalE a.1 := by
  induction h with
  | nil => simp
  | cons a hash block post family given as _ _ h1 _ _ _ _ ih =>
    intro x hx
    rcases List.mem_cons.1 hx with rfl | hx
    · obtain ⟨_, _, _, _, _, hw⟩ := h1
      exact hw
    · exact ih x hx

theorem written_of {c : BblEntry} {s : Str} (w : WrittenEntry c s) : Written c := by
  constructor
  · rcases w.authors with ⟨_, he⟩ | ⟨_, _, _, _, _, _, _, _, _, ht⟩
    · rw [he]; simp
    · exact authors_bal ht
  · rcases w.eprint with ⟨_, he⟩ | ⟨_, _, _, _, _, _, _, _, _, _, _, _, h5, _, hx⟩
    · rw [he]; simp
    · rw [hx]
      intro y hy
      cases hy
      exact h5

theorem author_bal {c : BblEntry} (w : Written c) (hp : c.Plain) : BalE (joinWith " and ".toList (c.authors.map authorName)) ∧ '@' ∉ joinWith " and ".toList (c.authors.map authorName) := by
  have one : ∀ a ∈ c.authors, BalE (authorName a) ∧ '@' ∉ authorName a := by
    intro a ha
    obtain ⟨h1, h2⟩ := hp.authors a ha
    have ht : ∀ x ∈ a.2.take 1, x ∉ "{}\\@".toList := by
      intro x hx
      cases hg : a.2 with
      | nil => rw [hg] at hx; simp at hx
      | cons b g =>
        rw [hg] at hx h2
        simp at hx
        subst hx
        exact h2 _ rfl
    have hb1 : BalE ", ".toList := balE_plain (by decide)
    have hb2 : BalE (a.2.take 1 ++ ['.']) := balE_plain (by
      intro x hx
      rcases List.mem_append.1 hx with hx | hx
      · have := ht x hx
        refine ⟨?_, ?_, ?_⟩ <;> (rintro rfl; exact this (by decide))
      · simp at hx; subst hx; decide)
    unfold authorName
    constructor
    · have := ((w.authors a ha).append hb1).append hb2
      simpa using this
    · simp only [List.mem_append, not_or]
      refine ⟨⟨⟨h1, by decide⟩, fun hm => ht _ hm (by decide)⟩, by decide⟩
  have hand : BalE " and ".toList := balE_plain (by decide)
  have key : ∀ l : List Str, (∀ x ∈ l, BalE x ∧ '@' ∉ x) → BalE (joinWith " and ".toList l) ∧ '@' ∉ joinWith " and ".toList l := by
    intro l
    induction l with
    | nil => intro _; exact ⟨balE_plain (by simp [joinWith]), by simp [joinWith]⟩
    | cons x l ih =>
      intro h
      have ih := ih fun y hy => h y (by simp [hy])
      cases l with
      | nil => exact h x (by simp)
      | cons y l =>
        have e : joinWith " and ".toList (x :: y :: l) = x ++ " and ".toList ++ joinWith " and ".toList (y :: l) := rfl
        rw [e]
        refine ⟨((h x (by simp)).1.append hand).append ih.1, ?_⟩
        simp only [List.mem_append, not_or]
        exact ⟨⟨(h x (by simp)).2, by decide⟩, ih.2⟩
  refine key _ fun x hx => ?_
  obtain ⟨a, ha, rfl⟩ := List.mem_map.1 hx
  exact one a ha

theorem strip_keep {v : Str} (h : '@' ∉ v) : '@' ∉ strip v := by
  obtain ⟨a, b, he, _, _⟩ := Content.strip_split v
  intro hm
  exact h (by rw [he]; simp [hm])

theorem dict_lines {c : BblEntry} (w : Written c) (hp : c.Plain) : ∀ f ∈ ordered (dictOf c), GoodLine f := by
  intro f hf
  obtain ⟨hm, h1, h2⟩ := (ordered_mem (dict_nodup c)).1 hf
  have base : ∀ e ∈ [("key".toList, strip c.key), ("type".toList, strip c.type)], e.1 = "key".toList ∨ e.1 = "type".toList := by
    intro e he
    rcases List.mem_cons.1 he with rfl | he
    · exact .inl rfl
    · rcases List.mem_cons.1 he with rfl | he
      · exact .inr rfl
      · cases he
  have hd : ∀ e ∈ c.fields.foldl addRead (if c.authors = [] then [("key".toList, strip c.key), ("type".toList, strip c.type)]
      else dictSet [("key".toList, strip c.key), ("type".toList, strip c.type)] "author".toList (joinWith " and ".toList (c.authors.map authorName))),
      e.1 = "key".toList ∨ e.1 = "type".toList ∨ GoodLine e := by
    intro e he
    rcases mem_read _ _ _ he with he | ⟨g, hg, hk, hv⟩
    · by_cases ha : c.authors = []
      · rw [if_pos ha] at he
        rcases base e he with h | h
        · exact .inl h
        · exact .inr (.inl h)
      · rw [if_neg ha] at he
        rcases dictSet_mem he with he | rfl
        · rcases base e he with h | h
          · exact .inl h
          · exact .inr (.inl h)
        · exact .inr (.inr ⟨(by unfold IsName; decide : IsName "author".toList), (by decide : lower "author".toList = "author".toList), (author_bal w hp).1, (author_bal w hp).2⟩)
    · obtain ⟨n1, n2, n3⟩ := names_kept hp g hg _ hk
      obtain ⟨v1, v2⟩ := hp.values g hg
      exact .inr (.inr ⟨n1, n2, by rw [hv]; exact v1, by rw [hv]; exact strip_keep v2⟩)
  have hall : f.1 = "key".toList ∨ f.1 = "type".toList ∨ GoodLine f := by
    unfold dictOf at hm
    simp only at hm
    cases he : c.eprint with
    | none => rw [he] at hm; exact hd f hm
    | some x =>
      rw [he] at hm
      rcases dictSet_mem hm with hm | rfl
      · exact hd f hm
      · obtain ⟨v1, v2⟩ := hp.eprint x he
        exact .inr (.inr ⟨(by unfold IsName; decide : IsName "eprint".toList), (by decide : lower "eprint".toList = "eprint".toList), v1, v2⟩)
  rcases hall with h | h | h
  · exact absurd h h1
  · exact absurd h h2
  · exact h

theorem key_kept {c : BblEntry} (hp : c.Plain) : dictGet (dictOf c) "key".toList = some (strip c.key) ∧ dictGet (dictOf c) "type".toList = some (strip c.type) := by
  have h : ∀ k ∈ ["key".toList, "type".toList], dictGet (dictOf c) k = dictGet [("key".toList, strip c.key), ("type".toList, strip c.type)] k := by
    intro k hk
    have ha : "author".toList ≠ k := by rintro rfl; revert hk; decide
    have he : "eprint".toList ≠ k := by rintro rfl; revert hk; decide
    have hf : ((c.fields.reverse.find? fun f => keptAs (strip f.1) = some k).map fun f => strip f.2) = none := by
      rw [Option.map_eq_none_iff, List.find?_eq_none]
      intro f hf hh
      simp only [decide_eq_true_eq] at hh
      have := (names_kept hp f (by simpa using hf) k hh).2.2
      exact this (by
        rcases List.mem_cons.1 hk with rfl | hk
        · simp
        · rcases List.mem_cons.1 hk with rfl | hk
          · simp
          · cases hk)
    have hd : dictGet (c.fields.foldl addRead (if c.authors = [] then [("key".toList, strip c.key), ("type".toList, strip c.type)]
      else dictSet [("key".toList, strip c.key), ("type".toList, strip c.type)] "author".toList (joinWith " and ".toList (c.authors.map authorName)))) k =
        dictGet [("key".toList, strip c.key), ("type".toList, strip c.type)] k := by
      rw [dictGet_read, hf, Option.none_or]
      by_cases hau : c.authors = []
      · rw [if_pos hau]
      · rw [if_neg hau, dictGet_set, if_neg ha]
    unfold dictOf
    simp only
    cases c.eprint with
    | none => exact hd
    | some x =>
      simp only
      rw [dictGet_set, if_neg he]
      exact hd
  exact ⟨h _ (by simp), h _ (by simp)⟩

theorem strip_plain {k : Str} (h : PlainKey k) : PlainKey (strip k) := by
  obtain ⟨a, b, he, _, _⟩ := Content.strip_split k
  intro c hc
  exact h c (by rw [he]; simp [hc])

theorem strip_isName {t : Str} (h : IsName t) : strip t = t := by
  have hs : ∀ c ∈ t, isSpace c = false := fun c hc => by
    cases hs : isSpace c with
    | false => rfl
    | true => have := space_not_word c hs; rw [h.2 c hc] at this; cases this
  have := strip_core [] [] t (by simp) (by simp) (fun c hc => hs c (List.mem_of_head? hc)) (fun c hc => hs c (List.mem_of_getLast? hc))
  simpa using this

/-- What stands between the braces of an entry. -/
def inside (c : BblEntry) : Str := strip c.key ++ ',' :: '\n' :: (ordered (dictOf c)).flatMap fun f => line f ++ ['\n']

theorem regular_eq {c : BblEntry} (hp : c.Plain) : regular (dictOf c) = '@' :: (c.type ++ '{' :: (inside c ++ ['}'])) := by
  unfold regular inside
  rw [(key_kept hp).1, (key_kept hp).2, regular_lines]
  simp only [Option.getD_some, strip_isName hp.type]
  simp

/-- The entry that is read of an entry. -/
def entryOf (c : BblEntry) : BibEntry := ⟨lower c.type, strip c.key, ((ordered (dictOf c)).map fun f => (f.1, strip f.2)).foldl addField []⟩

theorem entry_parsed {c : BblEntry} (w : Written c) (hp : c.Plain) (tail : Str) : L2J.parseEntry c.type ('{' :: (inside c ++ '}' :: tail)) = some (some (entryOf c)) := by
  have hg := dict_lines w hp
  have hk := strip_plain hp.key
  have hbal : BalE (inside c) := by
    have h1 : BalE (strip c.key ++ ",\n".toList) := balE_plain (by
      intro x hx
      rcases List.mem_append.1 hx with hx | hx
      · have := hk x hx; exact ⟨this.1, this.2.1, this.2.2.1⟩
      · have : ∀ c ∈ ",\n".toList, c ≠ '{' ∧ c ≠ '}' ∧ c ≠ '\\' := by decide
        exact this x hx)
    have := h1.append (lines_bal hg)
    unfold inside
    simpa using this
  have hx := C01_round_trip [] _ tail '{' '}' (by simp) (by decide) (by decide) (by decide) hbal.1 hbal.2
  simp only [List.nil_append] at hx
  have hcomma : ',' ∉ strip c.key := fun hm => (hk _ hm).2.2.2.1 rfl
  unfold L2J.parseEntry
  rw [hx]
  have hi : inside c = strip c.key ++ ',' :: ('\n' :: (ordered (dictOf c)).flatMap fun f => line f ++ ['\n']) := rfl
  simp only []
  rw [hi, findSub_comma _ _ hcomma]
  simp only [List.take_left]
  have hdrop : List.drop ((strip c.key).length + 1) (strip c.key ++ ',' :: ('\n' :: (ordered (dictOf c)).flatMap fun f => line f ++ ['\n'])) = ['\n'] ++ (ordered (dictOf c)).flatMap fun f => line f ++ ['\n'] := by
    rw [show strip c.key ++ ',' :: ('\n' :: (ordered (dictOf c)).flatMap fun f => line f ++ ['\n']) = (strip c.key ++ [',']) ++ (['\n'] ++ (ordered (dictOf c)).flatMap fun f => line f ++ ['\n']) by simp,
      show (strip c.key).length + 1 = (strip c.key ++ [',']).length by simp, List.drop_left]
  rw [hdrop]
  have ht := text_strip (lines_text hg ['\n'] (by unfold IsSep; decide))
  have := (loop_fields ht ((strip (['\n'] ++ (ordered (dictOf c)).flatMap fun f => line f ++ ['\n'])).length + 1) []).1 (by simp)
  rw [this]
  simp only [strip_strip]
  rfl

theorem inside_noAt {c : BblEntry} (w : Written c) (hp : c.Plain) : '@' ∉ inside c := by
  unfold inside
  simp only [List.mem_append, List.mem_cons, not_or]
  exact ⟨fun hm => (strip_plain hp.key _ hm).2.2.2.2 rfl, by decide, by decide, lines_noAt (dict_lines w hp)⟩

theorem all_parsed : ∀ (cs : List BblEntry), (∀ c ∈ cs, Written c) → (∀ c ∈ cs, c.Plain) →
    parseEntries (entryStarts 0 (joinWith ['\n'] (cs.map fun c => regular (dictOf c)))) = some (cs.map entryOf)
  | [], _, _ => rfl
  | [c], hw, hp => by
    have := parse_one (U := []) (junk := []) (hp c (by simp)).type (inside_noAt (hw c (by simp)) (hp c (by simp))) (by simp) (entry_parsed (hw c (by simp)) (hp c (by simp)) _)
    simp only [List.map_cons, List.map_nil]
    show parseEntries (entryStarts 0 (regular (dictOf c))) = _
    rw [regular_eq (hp c (by simp))]
    rw [List.append_nil] at this
    rw [this]
    rfl
  | c :: c' :: cs, hw, hp => by
    have ih := all_parsed (c' :: cs) (fun x hx => hw x (by simp [hx])) (fun x hx => hp x (by simp [hx]))
    have := parse_one (U := joinWith ['\n'] ((c' :: cs).map fun c => regular (dictOf c))) (junk := ['\n']) (hp c (by simp)).type (inside_noAt (hw c (by simp)) (hp c (by simp))) (by decide)
      (entry_parsed (hw c (by simp)) (hp c (by simp)) _)
    rw [ih] at this
    have e : joinWith ['\n'] ((c :: c' :: cs).map fun c => regular (dictOf c)) = regular (dictOf c) ++ ['\n'] ++ joinWith ['\n'] ((c' :: cs).map fun c => regular (dictOf c)) := rfl
    rw [e, regular_eq (hp c (by simp))]
    rw [show '@' :: (c.type ++ '{' :: (inside c ++ ['}'])) ++ ['\n'] ++ joinWith ['\n'] ((c' :: cs).map fun c => regular (dictOf c)) =
      '@' :: (c.type ++ '{' :: (inside c ++ '}' :: (['\n'] ++ joinWith ['\n'] ((c' :: cs).map fun c => regular (dictOf c))))) by simp, this]
    rfl

theorem entry_says {c : BblEntry} (w : Written c) (hp : c.Plain) : ∀ k, dictGet (entryOf c).fields k = c.says k := by
  intro k
  have hg := dict_lines w hp
  have hn : ((((ordered (dictOf c)).map fun f => (f.1, strip f.2)) : List (Str × Str)).map (·.1)).Nodup := by
    rw [List.map_map]
    exact ordered_nodup (dict_nodup c)
  have hl : ∀ e ∈ (ordered (dictOf c)).map fun f => (f.1, strip f.2), lower e.1 = e.1 := by
    intro e he
    obtain ⟨f, hf, rfl⟩ := List.mem_map.1 he
    exact (hg f hf).low
  unfold entryOf
  simp only
  rw [dictGet_fields]
  simp only [dictGet, Option.or_none]
  by_cases hk : k ∈ ["key".toList, "type".toList]
  · have h1 : lastValue ((ordered (dictOf c)).map fun f => (f.1, strip f.2)) k = none := by
      cases hh : lastValue ((ordered (dictOf c)).map fun f => (f.1, strip f.2)) k with
      | none => rfl
      | some v =>
        obtain ⟨f, hf, he⟩ := List.mem_map.1 ((last_mem hn hl).1 hh)
        obtain ⟨_, n1, n2⟩ := (ordered_mem (dict_nodup c)).1 hf
        simp only [Prod.mk.injEq] at he
        rw [he.1] at n1 n2
        simp only [List.mem_cons, List.not_mem_nil, or_false] at hk
        rcases hk with hk | hk
        · exact absurd hk n1
        · exact absurd hk n2
    rw [h1]
    have ha : k ≠ "author".toList := by rintro rfl; revert hk; decide
    have he : k ≠ "eprint".toList := by rintro rfl; revert hk; decide
    have hj : k ≠ "journal".toList := by rintro rfl; revert hk; decide
    unfold BblEntry.says
    rw [if_neg (fun h => ha h.1), if_neg (fun h => he h.1), field_none ?_ hj]
    rintro f hf rfl
    exact (hp.names f hf).2.2 (by
      rcases List.mem_cons.1 hk with h | hk
      · rw [h]; simp
      · rcases List.mem_cons.1 hk with h | hk
        · rw [h]; simp
        · cases hk)
  · have hs := said hp k hk
    have key : lastValue ((ordered (dictOf c)).map fun f => (f.1, strip f.2)) k = (dictGet (dictOf c) k).map strip := by
      cases hh : dictGet (dictOf c) k with
      | none =>
        cases h2 : lastValue ((ordered (dictOf c)).map fun f => (f.1, strip f.2)) k with
        | none => rfl
        | some v =>
          obtain ⟨f, hf, he⟩ := List.mem_map.1 ((last_mem hn hl).1 h2)
          have := (get_mem (dict_nodup c)).2 ((ordered_mem (dict_nodup c)).1 hf).1
          simp only [Prod.mk.injEq] at he
          rw [he.1, hh] at this
          cases this
      | some v =>
        refine (last_mem hn hl).2 (List.mem_map.2 ⟨(k, v), (ordered_mem (dict_nodup c)).2 ⟨(get_mem (dict_nodup c)).1 hh, ?_, ?_⟩, rfl⟩)
        · intro h; exact hk (by rw [show k = _ from h]; simp)
        · intro h; exact hk (by rw [show k = _ from h]; simp)
    rw [key, hs]
    unfold BblEntry.says
    by_cases h1 : k = "author".toList ∧ c.authors ≠ []
    · rw [if_pos h1, if_pos h1]; rfl
    · rw [if_neg h1, if_neg h1]
      by_cases h2 : k = "eprint".toList ∧ c.eprint ≠ none
      · rw [if_pos h2]
        cases he : c.eprint with
        | none => rfl
        | some x => simp [w.eprint x he]
      · rw [if_neg h2]
        unfold BblEntry.field
        rw [Option.map_map]
        congr 1
        funext f
        exact strip_strip _

theorem text_compiled {s : Str} {cs} (h : BblText s cs) (hc : cs ≠ []) : isCompiledBibtex s = true := by
  cases h with
  | nil => exact absurd rfl hc
  | cons pre mid rest c cs s1 s2 h1 _ _ _ _ _ =>
    have hi : ∀ (p r : Str), ∃ i, findSub "\\entry{".toList (p ++ ("\\entry{".toList ++ r)) = some i ∧ i ≤ p.length := by
      intro p
      induction p with
      | nil =>
        intro r
        refine ⟨0, ?_, by simp⟩
        show findSub "\\entry{".toList ('\\' :: ("entry{".toList ++ r)) = _
        unfold findSub
        rw [if_pos (by rw [List.isPrefixOf_iff_prefix]; exact ⟨r, rfl⟩)]
      | cons a p ih =>
        intro r
        obtain ⟨i, h1, h2⟩ := ih r
        rw [List.cons_append]
        unfold findSub
        split
        · exact ⟨0, rfl, by simp⟩
        · exact ⟨i + 1, by rw [h1]; rfl, by simpa using h2⟩
    obtain ⟨i, h2, h3⟩ := hi pre (mid ++ ("\\endentry".toList ++ rest))
    unfold isCompiledBibtex
    rw [h2]
    simp only
    rw [findSub_contains _ (by decide)]
    have e : List.drop (i + 7) (pre ++ ("\\entry{".toList ++ (mid ++ ("\\endentry".toList ++ rest)))) = List.drop (i + 7) (pre ++ "\\entry{".toList) ++ (mid ++ ("\\endentry".toList ++ rest)) := by
      rw [← List.append_assoc pre, List.drop_append_of_le_length]
      rw [List.length_append]
      have : ("\\entry{".toList).length = 7 := rfl
      omega
    rw [e]
    exact ⟨List.drop (i + 7) (pre ++ "\\entry{".toList) ++ mid, rest, by simp only [List.append_assoc]⟩

theorem all_written {s : Str} {cs} (h : BblText s cs) : ∀ c ∈ cs, Written c := by
  induction h with
  | nil => simp
  | cons _ _ _ c cs _ _ _ _ _ _ hw _ ih =>
    intro x hx
    rcases List.mem_cons.1 hx with rfl | hx
    · exact written_of hw
    · exact ih x hx

/-- C70 (partial): a bibliography compiled by biblatex is read entry by entry: each entry with its key and type, the authors as family name and initial,
joined by ` and `, the fields, and the eprint number. Missing: entries whose values are not balanced, contain an `@`, or whose given names begin with a brace or a command. -/
theorem C70_entries_partial (s : Str) (cs : List BblEntry) (h : BblText s cs) (hc : cs ≠ []) (hp : ∀ c ∈ cs, c.Plain) :
    ∃ es, parseBibtex convert s = some es ∧ BblRead cs es := by
  refine ⟨cs.map entryOf, ?_, ?_⟩
  · unfold parseBibtex
    rw [if_pos (text_compiled h hc), convert_eq h]
    exact all_parsed cs (all_written h) hp
  · have : ∀ l : List BblEntry, (∀ c ∈ l, c ∈ cs) → BblRead l (l.map entryOf) := by
      intro l
      induction l with
      | nil => intro _; exact .nil
      | cons c l ih =>
        intro hl
        exact .cons _ _ _ _ rfl rfl (entry_says (all_written h c (hl c (by simp))) (hp c (hl c (by simp)))) (ih fun x hx => hl x (by simp [hx]))
    exact this cs fun _ h => h

/-- C70 fails: a field named `type` (as biblatex writes for theses) overwrites the type of the entry, and the entry is lost. -/
theorem C70_violated_type_field : convert "\\entry{k}{thesis}{}\\field{type}{Ph.D. thesis}\\field{year}{2020}\\endentry".toList = ["@Ph.D. thesis{k,\n  year = {2020},\n}".toList] ∧
    parseBibtex convert "\\entry{k}{thesis}{}\\field{type}{Ph.D. thesis}\\field{year}{2020}\\endentry".toList = some [] := by
  constructor <;> decide +kernel

/-- C70 fails: an author without a given name (an institution) is left out. -/
theorem C70_violated_institution : convert "\\entry{k}{book}{}\\name{author}{1}{}{{{hash=a}{family={ACME}}}}\\endentry".toList = ["@book{k,\n}".toList] := by decide +kernel

/-- C70 fails: authors are left out when their options stand before the hash, as newer versions of biblatex write them. -/
theorem C70_violated_options : convert "\\entry{k}{book}{}\\name{author}{1}{}{{{un=0,hash=a}{family={Doe},given={Jane}}}}\\endentry".toList = ["@book{k,\n}".toList] := by decide +kernel

/-- C70 fails: of a given name that begins with a brace only the brace is kept, and the entry is lost. -/
theorem C70_violated_initial : convert "\\entry{k}{book}{}\\name{author}{1}{}{{{hash=a}{family={Zola},given={{E}mile}}}}\\endentry".toList = ["@book{k,\n  author = {Zola, {.},\n}".toList] ∧
    parseBibtex convert "\\entry{k}{book}{}\\name{author}{1}{}{{{hash=a}{family={Zola},given={{E}mile}}}}\\endentry".toList = some [] := by
  constructor <;> decide +kernel

/- Non-vacuity (tests). -/
theorem free_of {t w : Str} (hw : w ≠ []) (h : (findSub w t).isSome = false) : ¬ Contains t w := fun hc => by
  rw [(findSub_contains w hw t).2 hc] at h
  cases h

theorem keep_free {t R out : Str} (ht : ¬ Contains t "\\bibrangedash".toList) (hR : R = [] ∨ ∃ r, R = "\\bibrangedash".toList ++ r) (h : Dashes R out) : Dashes (t ++ R) (t ++ out) := by
  induction t with
  | nil => exact h
  | cons c t ih =>
    refine .keep _ _ _ ?_ (ih fun ⟨a, b, he⟩ => ht ⟨c :: a, b, by rw [he]; rfl⟩)
    rintro ⟨v, hv, _⟩
    have hp : "\\bibrangedash".toList <+: (c :: t) ++ R := ⟨v, by rw [← hv]; rfl⟩
    rcases hR with rfl | ⟨r, rfl⟩
    · obtain ⟨z, hz⟩ := hp
      exact ht ⟨[], z, by rw [List.append_nil] at hz; rw [← hz]; rfl⟩
    · obtain ⟨z, hz⟩ := overlap (c := '\\') (w := "bibrangedash".toList) (by decide) (by simp) hp
      exact ht ⟨[], z, by rw [← hz]; rfl⟩

def exEntry : BblEntry := ⟨"doe20".toList, "article".toList, [("Doe".toList, "Jane".toList)], [("labelnamesource".toList, "author".toList), ("journaltitle".toList, "Acta {X}".toList), ("pages".toList, "1--9".toList)], some "2001.1".toList⟩

def exHead : Str := "{doe20}{article}{}\n\\name{author}{1}{}{%\n{{hash=ab}{family={Doe},familyi={D".toList
def exGiven : Str := "},given={Jane},giveni={J".toList
def exFields : Str := "}}}%\n}\n\\field{labelnamesource}{author}\n\\field{journaltitle}{Acta {X}}\n\\field{pages}{1".toList
def exTail : Str := "9}\n\\verb{eprint}\n\\verb 2001.1\n\\endverb\n".toList

theorem ex_written : WrittenEntry exEntry ("\\entry".toList ++ exHead ++ ".".toList ++ exGiven ++ ".".toList ++ exFields ++ "--".toList ++ exTail ++ "\\endentry".toList) where
  header := ⟨by decide, by decide, by decide, by decide, [], "\n\\name{author}{1}{}{%\n{{hash=ab}{family={Doe},familyi={D".toList ++ ".".toList ++ exGiven ++ ".".toList ++ exFields ++ "--".toList ++ exTail ++ "\\endentry".toList, by decide, rfl⟩
  authors := by
    refine .inr ⟨"\\entry{doe20}{article}{}\n".toList, ([], "1".toList), ([], []), [], "%\n{{hash=ab}{family={Doe},familyi={D.},given={Jane},giveni={J.}}}%\n".toList,
      "\n\\field{labelnamesource}{author}\n\\field{journaltitle}{Acta {X}}\n\\field{pages}{1--9}\n\\verb{eprint}\n\\verb 2001.1\n\\endverb\n\\endentry".toList, by decide +kernel, free_of (by decide) (by decide +kernel), ?_, ?_⟩
    · unfold WellWrapped Wrappable Balanced; decide +kernel
    · exact .cons "%\n{".toList "ab".toList "family={Doe},familyi={D.},given={Jane},giveni={J.}".toList "}%\n".toList _ _ _ (free_of (by decide) (by decide +kernel)) (by unfold IsName; decide)
        ⟨[], ",familyi={D.},given={Jane},giveni={J.}".toList, by decide +kernel, free_of (by decide) (by decide +kernel), by decide, by unfold Wrappable Balanced; decide +kernel⟩
        ⟨"family={Doe},familyi={D.},".toList, ",giveni={J.}".toList, by decide +kernel, free_of (by decide) (by decide +kernel), by decide, by unfold Wrappable Balanced; decide +kernel⟩
        (free_of (by decide) (by decide +kernel)) (by unfold Wrappable Balanced; decide +kernel) (.nil _ (free_of (by decide) (by decide +kernel)))
  fields := by
    have h3 := FieldsText.cons "\n".toList "pages".toList "1--9".toList "\n\\verb{eprint}\n\\verb 2001.1\n\\endverb\n\\endentry".toList [] (free_of (by decide) (by decide +kernel)) (by decide) (by decide) (by unfold Wrappable Balanced; decide +kernel)
      (free_of (by decide) (by decide +kernel)) (.nil _ (free_of (by decide) (by decide +kernel)))
    have h2 := FieldsText.cons "\n".toList "journaltitle".toList "Acta {X}".toList _ _ (free_of (by decide) (by decide +kernel)) (by decide) (by decide) (by unfold Wrappable Balanced; decide +kernel)
      (free_of (by decide) (by decide +kernel)) h3
    have h1 := FieldsText.cons ("\\entry".toList ++ exHead ++ ".".toList ++ exGiven ++ ".".toList ++ "}}}%\n}\n".toList) "labelnamesource".toList "author".toList _ _ (free_of (by decide) (by decide +kernel)) (by decide) (by decide)
      (by unfold Wrappable Balanced; decide +kernel) (free_of (by decide) (by decide +kernel)) h2
    have key : ∀ a b l, a = b → FieldsText b l → FieldsText a l := by rintro a b l rfl h; exact h
    exact key _ _ _ (by decide +kernel) h1
  eprint := .inr ⟨"\\entry".toList ++ exHead ++ ".".toList ++ exGiven ++ ".".toList ++ exFields ++ "--9}\n".toList, "\n".toList, " ".toList, "2001.1".toList, "\n".toList, "\n\\endentry".toList,
    by decide +kernel, free_of (by decide) (by decide +kernel), by decide, by decide, by decide, by decide, by decide, free_of (by decide) (by decide +kernel), rfl⟩

theorem ex_text : BblText ("% header\n".toList ++ ("\\entry{".toList ++ ((exHead.tail ++ "\\bibinitperiod".toList ++ exGiven ++ "\\bibinitperiod".toList ++ exFields ++ "\\bibrangedash ".toList ++ exTail) ++ ("\\endentry".toList ++ "\n".toList)))) [exEntry] := by
  have hr : CommandReplaced "\\bibinitperiod".toList ['.'] ("\\entry{".toList ++ ((exHead.tail ++ "\\bibinitperiod".toList ++ exGiven ++ "\\bibinitperiod".toList ++ exFields ++ "\\bibrangedash ".toList ++ exTail) ++ "\\endentry".toList))
      ("\\entry".toList ++ exHead ++ ".".toList ++ exGiven ++ ".".toList ++ exFields ++ ("\\bibrangedash".toList ++ (" ".toList ++ (exTail ++ "\\endentry".toList)))) := by
    refine ⟨"\\entry".toList ++ exHead, [exGiven, exFields ++ "\\bibrangedash ".toList ++ exTail ++ "\\endentry".toList], by decide +kernel, by decide +kernel, ?_, ?_⟩
    · have hf : ∀ t : Str, ¬ Contains t "\\bibinitperiod".toList → CommandFree noWord "\\bibinitperiod".toList t := by
        rintro t ht u v rfl ⟨z, rfl, _⟩
        exact ht ⟨u, z, by simp⟩
      intro x hx
      simp only [List.mem_cons, List.not_mem_nil, or_false] at hx
      rcases hx with rfl | rfl | rfl
      · exact hf _ (free_of (by decide) (by decide +kernel))
      · exact hf _ (free_of (by decide) (by decide +kernel))
      · exact hf _ (free_of (by decide) (by decide +kernel))
    · intro x hx
      simp only [List.mem_cons, List.not_mem_nil, or_false] at hx
      rcases hx with rfl | rfl
      · unfold MayFollow; decide +kernel
      · unfold MayFollow; decide +kernel
  have hd : Dashes ("\\entry".toList ++ exHead ++ ".".toList ++ exGiven ++ ".".toList ++ exFields ++ ("\\bibrangedash".toList ++ (" ".toList ++ (exTail ++ "\\endentry".toList))))
      ("\\entry".toList ++ exHead ++ ".".toList ++ exGiven ++ ".".toList ++ exFields ++ ("--".toList ++ (exTail ++ "\\endentry".toList))) := by
    refine keep_free (free_of (by decide) (by decide +kernel)) (.inr ⟨_, rfl⟩) (.wide _ _ _ (by decide) (by decide) ⟨'9', rfl, by decide⟩ ?_)
    have := keep_free (t := exTail ++ "\\endentry".toList) (free_of (by decide) (by decide +kernel)) (.inl rfl) .nil
    simpa using this
  have hw := ex_written
  refine .cons _ _ _ _ _ _ _ (free_of (by decide) (by decide +kernel)) (free_of (by decide) (by decide +kernel)) hr hd ?_ (.nil _ (free_of (by decide) (by decide +kernel)))
  simpa only [List.append_assoc] using hw

theorem ex_plain : exEntry.Plain where
  key := by unfold PlainKey; decide
  type := by unfold IsName; decide
  names := by unfold IsName; decide
  values := by unfold Wrappable Balanced; decide
  authors := by decide
  eprint := by unfold Wrappable Balanced; decide

/-- A compiled bibliography with an author, initials, a page range, fields and an eprint number is read. -/
example : ∃ es, parseBibtex convert ("% header\n".toList ++ ("\\entry{".toList ++ ((exHead.tail ++ "\\bibinitperiod".toList ++ exGiven ++ "\\bibinitperiod".toList ++ exFields ++ "\\bibrangedash ".toList ++ exTail) ++ ("\\endentry".toList ++ "\n".toList)))) = some es ∧
    BblRead [exEntry] es :=
  C70_entries_partial _ _ ex_text (by simp) (by intro c hc; simp at hc; subst hc; exact ex_plain)

example : ["author", "journal", "pages", "eprint", "labelnamesource"].map (fun k => exEntry.says k.toList) = [some "Doe, J.".toList, some "Acta {X}".toList, some "1--9".toList, some "2001.1".toList, none] := by decide +kernel

end L2J.Bbl
