import Verif.Spec.Boxes
import Verif.Lemmas.Wrapped
/-! C40: saved boxes. -/
namespace L2J.Boxes
open Spec

theorem nameChar_iff (c : Char) : nameChar c = true ↔ (('a' ≤ c ∧ c ≤ 'z') ∨ ('A' ≤ c ∧ c ≤ 'Z') ∨ c = '@') := by
  unfold nameChar
  simp [or_assoc]

theorem nameOk_char {n : Str} (h : BoxNameOk n) : ∀ c ∈ n, nameChar c = true := fun c hc => (nameChar_iff c).2 (h.2 c hc)

theorem nameChar_facts (c : Char) (h : nameChar c = true) : isSpace c = false ∧ c ≠ '{' ∧ c ≠ '}' ∧ c ≠ '\\' ∧ isDigit c = false := by
  refine ⟨?_, ?_, ?_, ?_, ?_⟩
  · unfold isSpace
    rw [nameChar_iff] at h
    simp only [Char.le_def, UInt32.le_iff_toNat_le] at h
    have hc : c.toNat = c.val.toNat := rfl
    simp at h ⊢
    rcases h with h | h | rfl
    · omega
    · omega
    · decide
  · rintro rfl; exact absurd h (by decide)
  · rintro rfl; exact absurd h (by decide)
  · rintro rfl; exact absurd h (by decide)
  · rw [nameChar_iff] at h
    unfold isDigit
    simp only [Char.le_def, UInt32.le_iff_toNat_le] at h
    simp [Char.le_def, UInt32.le_iff_toNat_le]
    simp at h
    rcases h with h | h | rfl
    · omega
    · omega
    · decide

theorem takeWhile_all' {p : Char → Bool} (n r : Str) (h : ∀ c ∈ n, p c = true) (hr : ∀ c ∈ r.head?, p c = false) :
    (n ++ r).takeWhile p = n := by
  induction n with
  | nil =>
    cases r with
    | nil => rfl
    | cons c r => have := hr c (by simp); simp [this]
  | cons c n ih => simp [h c (by simp), ih (fun c hc => h c (by simp [hc]))]

theorem prefixes_head (n : Str) (h : n ≠ []) : ∃ l, prefixes n = n :: l := by
  unfold prefixes
  obtain ⟨k, hk⟩ : ∃ k, n.length = k + 1 := ⟨n.length - 1, by have := List.length_pos_iff.2 h; omega⟩
  rw [hk, List.range_succ, List.reverse_append]
  simp only [List.reverse_cons, List.reverse_nil, List.nil_append, List.cons_append, List.map_cons]
  rw [List.take_of_length_le (by omega)]
  exact ⟨_, rfl⟩

/-- A written name is the first candidate. -/
theorem names_render (w : Written) (n r : Str) (h : BoxNameOk n) (hr : ∀ c ∈ r.head?, nameChar c = false) :
    ∃ l, names (w.render n ++ r) = w.render n :: l := by
  have hn := nameOk_char h
  have hb : '}' ∉ n := fun hm => (nameChar_facts _ (hn _ hm)).2.2.1 rfl
  have tw : ∀ (m r : Str), '}' ∉ m → (m ++ '}' :: r).takeWhile (· ≠ '}') = m := by
    intro m r hm
    exact takeWhile_all' m _ (by intro c hc; simp; rintro rfl; exact hm hc) (by simp)
  cases w with
  | bare =>
    obtain ⟨l, hl⟩ := prefixes_head n h.1
    cases n with
    | nil => exact absurd rfl h.1
    | cons c n =>
      have := takeWhile_all' (c :: n) r hn hr
      refine ⟨l.map ('\\' :: ·), ?_⟩
      simp only [Written.render, List.cons_append] at this ⊢
      unfold names
      simp only [hn c (by simp), if_true, this, hl, List.map_cons]
  | braced =>
    refine ⟨[], ?_⟩
    have := tw ('\\' :: n) r (by simp; exact hb)
    have e : (Written.braced.render n ++ r) = '{' :: (('\\' :: n) ++ '}' :: r) := by simp [Written.render]
    rw [e]
    unfold names
    simp only [this, List.drop_left]
    simp [Written.render]
  | plain =>
    refine ⟨[], ?_⟩
    have := tw n r hb
    have e : (Written.plain.render n ++ r) = '{' :: (n ++ '}' :: r) := by simp [Written.render]
    rw [e]
    unfold names
    simp only [this, List.drop_left]
    have := h.1
    simp [Written.render, this]

theorem dropWhile_no (s : Str) (h : ∀ c ∈ s, isSpace c = false) : s.dropWhile isSpace = s := by
  cases s with
  | nil => rfl
  | cons c s => simp [h c (by simp)]

theorem strip_no (s : Str) (h : ∀ c ∈ s, isSpace c = false) : strip s = s := by
  unfold strip rstrip lstrip
  rw [dropWhile_no s h, dropWhile_no _ (by simpa using h), List.reverse_reverse]

theorem wrappable_nobrace (a : Str) (h : ∀ c ∈ a, c ≠ '{' ∧ c ≠ '}') (hl : a.getLast? ≠ some '\\') : Wrappable '{' '}' a := by
  have hlev : ∀ j, level a '{' '}' j = 0 := by
    intro j
    induction j with
    | zero => rfl
    | succ j ih =>
      simp only [level, ih]
      have h1 : liveAt a '{' j = false := by
        unfold liveAt
        cases hj : a[j]? with
        | none => rfl
        | some c => have := (h c (List.mem_of_getElem? hj)).1; simp [this]
      have h2 : liveAt a '}' j = false := by
        unfold liveAt
        cases hj : a[j]? with
        | none => rfl
        | some c => have := (h c (List.mem_of_getElem? hj)).2; simp [this]
      simp [h1, h2]
  refine ⟨⟨fun j _ => by rw [hlev]; exact Int.le_refl 0, hlev _⟩, ?_⟩
  cases hn : a.length with
  | zero => rfl
  | succ k =>
    unfold escapedAt
    have : a[k]? ≠ some '\\' := by
      rw [List.getLast?_eq_getElem?, hn] at hl
      simpa using hl
    cases hj : a[k]? with
    | none => rfl
    | some c => rw [hj] at this; simp at this; simp [this]

theorem varName_render (w : Written) (n : Str) (h : BoxNameOk n) : varName (w.render n) = n := by
  have hn := nameOk_char h
  have hno : n.contains '{' = false := by
    rw [Bool.eq_false_iff]
    intro hc
    exact (nameChar_facts _ (hn _ (by simpa using hc))).2.1 rfl
  have hlast : n.getLast? ≠ some '\\' := by
    intro hl
    exact (nameChar_facts _ (hn _ (List.mem_of_getLast? hl))).2.2.2.1 rfl
  have hnb : dropBackslash n = n := by
    unfold dropBackslash
    split
    · exact absurd rfl (nameChar_facts _ (hn _ (by simp))).2.2.2.1
    · rfl
  have fin : ∀ v, dropBackslash (unbrace v) = n → varName v = n := by
    intro v hv
    unfold varName
    simp only [hv, hno]
    rfl
  apply fin
  cases w with
  | bare => rfl
  | braced =>
    have hw := wrappable_nobrace ('\\' :: n) (by
        intro c hc; simp at hc; rcases hc with rfl | hc
        · decide
        · have := nameChar_facts c (hn c hc); exact ⟨this.2.1, this.2.2.1⟩) (by
        cases n with
        | nil => exact absurd rfl h.1
        | cons c n => simpa using hlast)
    have hx := C01_round_trip [] ('\\' :: n) [] '{' '}' (by simp) (by decide) (by decide) (by decide) hw.1 hw.2
    simp only [List.nil_append, List.cons_append] at hx
    have : unbrace (Written.braced.render n) = '\\' :: n := by
      unfold unbrace
      rw [if_pos (show startsWith (Written.braced.render n) ['{'] = true from rfl)]
      simp only [Written.render, hx]
      rw [if_neg (by simp), strip_no]
      intro c hc; simp at hc; rcases hc with rfl | hc
      · decide
      · exact (nameChar_facts c (hn c hc)).1
    rw [this]
    rfl
  | plain =>
    have hw := wrappable_nobrace n (by
        intro c hc; have := nameChar_facts c (hn c hc); exact ⟨this.2.1, this.2.2.1⟩) hlast
    have hx := C01_round_trip [] n [] '{' '}' (by simp) (by decide) (by decide) (by decide) hw.1 hw.2
    simp only [List.nil_append] at hx
    have : unbrace (Written.plain.render n) = n := by
      unfold unbrace
      rw [if_pos (show startsWith (Written.plain.render n) ['{'] = true from rfl)]
      simp only [Written.render, hx]
      rw [if_neg (by simpa using h.1), strip_no]
      exact fun c hc => (nameChar_facts c (hn c hc)).1
    rw [this, hnb]

theorem render_head (w : Written) (n r : Str) : (w.render n ++ r).takeWhile isSpace = [] ∧ (w.render n ++ r).dropWhile isSpace = w.render n ++ r := by
  cases w <;> exact ⟨rfl, rfl⟩

theorem matchSaved_hit (k : Str) (w : Written) (n r : Str) (h : BoxNameOk n) (hr : ∀ c ∈ r.head?, nameChar c = false)
    (hk : ∀ r, keywords.find? (fun x => startsWith (k ++ r) x) = some k) :
    matchSaved ('\\' :: (k ++ (w.render n ++ r))) = some (k, w.render n, 1 + k.length + (w.render n).length) := by
  obtain ⟨l, hl⟩ := names_render w n r h hr
  obtain ⟨h1, h2⟩ := render_head w n r
  unfold matchSaved
  simp only [hk, List.drop_left, h2, hl, h1]
  rfl

theorem matchEq_hit (b : Str) (hb : ∀ c ∈ b.head?, isSpace c = false) : matchEq ('=' :: b) = some 1 := by
  unfold matchEq
  have h1 : ('=' :: b).dropWhile isSpace = '=' :: b := by rw [List.dropWhile_cons, if_neg (by decide)]
  have h2 : ('=' :: b).takeWhile isSpace = [] := by rw [List.takeWhile_cons, if_neg (by decide)]
  have h3 : b.takeWhile isSpace = [] := by
    cases b with
    | nil => rfl
    | cons c b => have := hb c (by simp); simp [this]
  rw [h1]
  simp only [h2, h3]
  rfl

theorem matchSet_hit (w : Written) (n b : Str) (h : BoxNameOk n) (hb : ∀ c ∈ b.head?, isSpace c = false) :
    matchSet ("\\setbox".toList ++ (w.render n ++ '=' :: b)) = some (w.render n, 7 + (w.render n).length + 1) := by
  obtain ⟨l, hl⟩ := names_render w n ('=' :: b) h (by simp; decide)
  obtain ⟨h1, h2⟩ := render_head w n ('=' :: b)
  have hd : (w.render n ++ '=' :: b).takeWhile isDigit = [] := by
    cases w <;> rfl
  unfold matchSet
  rw [if_pos (show startsWith ("\\setbox".toList ++ (w.render n ++ '=' :: b)) "\\setbox".toList = true by
    unfold startsWith; rw [List.isPrefixOf_iff_prefix]; exact List.prefix_append _ _)]
  have h7 : ("\\setbox".toList ++ (w.render n ++ '=' :: b)).drop 7 = w.render n ++ '=' :: b :=
    List.drop_left (l₁ := "\\setbox".toList)
  simp only [h7, h1, h2]
  unfold setNames
  rw [hd, hl]
  have hp : prefixes ([] : Str) = [] := rfl
  rw [hp, List.nil_append, List.findSome?_cons]
  rw [List.drop_left, matchEq_hit b hb]
  rfl

theorem delimited_one (a r : Str) (h : Wrappable '{' '}' a) : extractDelimitedArgs ('{' :: (a ++ '}' :: r)) ['{'] = ([some a], a.length + 2) := by
  have hx := C01_round_trip [] a r '{' '}' (by simp) (by decide) (by decide) (by decide) h.1 h.2
  simp only [List.nil_append, List.length_nil, Nat.zero_add] at hx
  unfold extractDelimitedArgs delimArgsLoop
  have h1 : ('{' :: (a ++ '}' :: r)).takeWhile isSpace = [] := by rw [List.takeWhile_cons, if_neg (by decide)]
  simp only [List.drop_zero, h1, List.length_nil, Nat.add_zero, hx]
  rw [if_neg (by decide), if_pos (by decide)]
  simp [delimArgsLoop]

/-- What a use gives. -/
theorem handle_use {V} (env : Env V) (st : State V) (w : Written) (n r : Str) (h : BoxNameOk n) (hr : ∀ c ∈ r.head?, nameChar c = false) :
    handle env st ("\\usebox".toList ++ (w.render n ++ r)) = (st, (Dict.get? st.saved n).join, 7 + (w.render n).length) := by
  unfold handle
  have h1 : matchSet ("\\usebox".toList ++ (w.render n ++ r)) = none := by
    unfold matchSet; rw [if_neg]; exact Bool.false_ne_true
  have h2 := matchSaved_hit "usebox".toList w n r h hr (fun r => rfl)
  have e : "\\usebox".toList ++ (w.render n ++ r) = '\\' :: ("usebox".toList ++ (w.render n ++ r)) := rfl
  rw [h1, e, h2]
  simp only
  unfold handleSaved
  rw [if_neg (show ¬ startsWith "usebox".toList "new".toList = true by decide),
    if_neg (show ¬ ("usebox".toList = "sbox".toList ∨ "usebox".toList = "savebox".toList) by decide)]
  simp only [varName_render w n h]
  have hl : 1 + "usebox".toList.length + (w.render n).length = 7 + (w.render n).length := rfl
  rw [hl]
  cases Dict.get? st.saved n with
  | none => rfl
  | some o => cases o <;> rfl

theorem handle_declare {V} (env : Env V) (st : State V) (long : Bool) (w : Written) (n r : Str) (h : BoxNameOk n)
    (hr : ∀ c ∈ r.head?, nameChar c = false) :
    (handle env st ((if long then "\\newsavebox".toList else "\\newbox".toList) ++ (w.render n ++ r))).1.saved = Dict.set st.saved n none := by
  have key : ∀ k : Str, startsWith k "new".toList = true → (∀ r, keywords.find? (fun x => startsWith (k ++ r) x) = some k) →
      (∀ r, startsWith ('\\' :: (k ++ r)) "\\setbox".toList = false) →
      (handle env st ('\\' :: (k ++ (w.render n ++ r)))).1.saved = Dict.set st.saved n none := by
    intro k hnew hk hs
    unfold handle
    have h1 : matchSet ('\\' :: (k ++ (w.render n ++ r))) = none := by
      unfold matchSet; rw [if_neg]; rw [hs]; exact Bool.false_ne_true
    rw [h1, matchSaved_hit k w n r h hr hk]
    simp only
    unfold handleSaved
    rw [if_pos hnew]
    simp only [varName_render w n h]
  cases long
  · exact key "newbox".toList (by decide) (fun r => rfl) (fun r => rfl)
  · exact key "newsavebox".toList (by decide) (fun r => rfl) (fun r => rfl)

theorem handle_save {V} (env : Env V) (st : State V) (long : Bool) (w : Written) (n c r : Str) (h : BoxNameOk n)
    (hc : Wrappable '{' '}' c) :
    (handle env st ((if long then "\\savebox".toList else "\\sbox".toList) ++ (w.render n ++ ('{' :: (c ++ '}' :: r))))).1.saved =
      Dict.set st.saved n (store env c) := by
  have key : ∀ k : Str, startsWith k "new".toList = false → (k = "sbox".toList ∨ k = "savebox".toList) →
      (∀ r, keywords.find? (fun x => startsWith (k ++ r) x) = some k) →
      (∀ r, startsWith ('\\' :: (k ++ r)) "\\setbox".toList = false) →
      (handle env st ('\\' :: (k ++ (w.render n ++ ('{' :: (c ++ '}' :: r)))))).1.saved = Dict.set st.saved n (store env c) := by
    intro k hnew hor hk hs
    unfold handle
    have h1 : matchSet ('\\' :: (k ++ (w.render n ++ ('{' :: (c ++ '}' :: r))))) = none := by
      unfold matchSet; rw [if_neg]; rw [hs]; exact Bool.false_ne_true
    rw [h1, matchSaved_hit k w n _ h (by simp; decide) hk]
    simp only
    unfold handleSaved
    rw [if_neg (by rw [hnew]; exact Bool.false_ne_true), if_pos hor]
    have hd : ('\\' :: (k ++ (w.render n ++ ('{' :: (c ++ '}' :: r))))).drop (1 + k.length + (w.render n).length) =
        '{' :: (c ++ '}' :: r) := by
      rw [show '\\' :: (k ++ (w.render n ++ ('{' :: (c ++ '}' :: r)))) = ('\\' :: (k ++ w.render n)) ++ ('{' :: (c ++ '}' :: r)) by simp]
      rw [show 1 + k.length + (w.render n).length = ('\\' :: (k ++ w.render n)).length by simp; omega]
      exact List.drop_left
    simp only [hd, delimited_one c r hc, varName_render w n h]
  cases long
  · exact key "sbox".toList (by decide) (.inl rfl) (fun r => rfl) (fun r => rfl)
  · exact key "savebox".toList (by decide) (.inr rfl) (fun r => rfl) (fun r => rfl)

theorem render_nospace (w : Written) (n : Str) (h : BoxNameOk n) : ∀ c ∈ w.render n, isSpace c = false := by
  intro c hc
  have hn : ∀ c ∈ n, isSpace c = false := fun c hc => (nameChar_facts c (nameOk_char h c hc)).1
  cases w <;> simp [Written.render] at hc
  · rcases hc with rfl | hc
    · decide
    · exact hn c hc
  · rcases hc with rfl | rfl | hc | rfl
    · decide
    · decide
    · exact hn c hc
    · decide
  · rcases hc with rfl | hc | rfl
    · decide
    · exact hn c hc
    · decide

theorem handle_assign {V} (env : Env V) (st : State V) (w : Written) (n b r : Str) (v : Value V) (h : BoxNameOk n)
    (hb : ∀ c ∈ (b ++ r).head?, isSpace c = false) (hbox : env.isBox (b ++ r) = true) (ho : env.other (b ++ r) = (some v, b.length)) :
    (handle env st ("\\setbox".toList ++ (w.render n ++ '=' :: (b ++ r)))).1.saved = Dict.set st.saved n (some v) := by
  unfold handle
  rw [matchSet_hit w n (b ++ r) h hb]
  simp only
  unfold handleSetbox
  have hd : ("\\setbox".toList ++ (w.render n ++ '=' :: (b ++ r))).drop (7 + (w.render n).length + 1) = b ++ r := by
    rw [show "\\setbox".toList ++ (w.render n ++ '=' :: (b ++ r)) = ("\\setbox".toList ++ (w.render n ++ ['='])) ++ (b ++ r) by simp]
    rw [show 7 + (w.render n).length + 1 = ("\\setbox".toList ++ (w.render n ++ ['='])).length by simp; omega]
    exact List.drop_left
  have ht : (b ++ r).takeWhile isSpace = [] := by
    cases hbr : b ++ r with
    | nil => rfl
    | cons c x => have := hb c (by rw [hbr]; simp); simp [this]
  simp only [hd, ht, List.length_nil, Nat.add_zero, hbox, if_true, ho]
  unfold setBox
  rw [strip_no _ (render_nospace w n h)]
  have : (!(w.render n).isEmpty && (w.render n).all isDigit) = false := by
    cases w <;> rfl
  simp only [this, varName_render w n h]
  rfl

/-- The calls a history makes. -/
def calls {V} (h : List (BoxEvent V × Str)) : List Call := h.map fun e => e.1.toCall e.2

theorem step_event {V} (env : Env V) (st : State V) (e : BoxEvent V) (r : Str) (hok : e.Ok env r) (n : Str) :
    (Dict.get? (step env st (e.toCall r)).saved n).join =
      if e.decides n = true then e.content env else (Dict.get? st.saved n).join := by
  cases e with
  | clear => rfl
  | use w m =>
    obtain ⟨h1, h2⟩ := hok
    have hd : (BoxEvent.use (V := V) w m).decides n = false := rfl
    rw [hd, if_neg Bool.false_ne_true]
    have e1 : step env st ((BoxEvent.use (V := V) w m).toCall r) = (handle env st ("\\usebox".toList ++ (w.render m ++ r))).1 := by
      show (handle env st (("\\usebox".toList ++ w.render m) ++ r)).1 = _
      rw [List.append_assoc]
    rw [e1, handle_use env st w m r h1 h2]
  | declare long w m =>
    obtain ⟨h1, h2⟩ := hok
    have e1 : step env st ((BoxEvent.declare (V := V) long w m).toCall r) =
        (handle env st ((if long then "\\newsavebox".toList else "\\newbox".toList) ++ (w.render m ++ r))).1 := by
      show (handle env st (((if long then "\\newsavebox".toList else "\\newbox".toList) ++ w.render m) ++ r)).1 = _
      rw [List.append_assoc]
    rw [e1, handle_declare env st long w m r h1 h2, Dict.get?_set]
    have hd : (BoxEvent.declare (V := V) long w m).decides n = (some m == some n) := rfl
    rw [hd]
    by_cases hmn : m = n <;> simp [hmn, BoxEvent.content]
  | save long w m c =>
    obtain ⟨h1, h2⟩ := hok
    have e1 : step env st ((BoxEvent.save (V := V) long w m c).toCall r) =
        (handle env st ((if long then "\\savebox".toList else "\\sbox".toList) ++ (w.render m ++ ('{' :: (c ++ '}' :: r))))).1 := by
      show (handle env st (((if long then "\\savebox".toList else "\\sbox".toList) ++ (w.render m ++ '{' :: (c ++ ['}']))) ++ r)).1 = _
      generalize (if long then "\\savebox".toList else "\\sbox".toList) = kw
      simp only [List.append_assoc, List.cons_append, List.nil_append]
    rw [e1, handle_save env st long w m c r h1 h2, Dict.get?_set]
    have hd : (BoxEvent.save (V := V) long w m c).decides n = (some m == some n) := rfl
    rw [hd]
    by_cases hmn : m = n <;> simp [hmn, BoxEvent.content]
  | assign w m b v =>
    obtain ⟨h1, h2, h3, h4⟩ := hok
    have e1 : step env st ((BoxEvent.assign w m b v).toCall r) =
        (handle env st ("\\setbox".toList ++ (w.render m ++ '=' :: (b ++ r)))).1 := by
      show (handle env st (("\\setbox".toList ++ (w.render m ++ '=' :: b)) ++ r)).1 = _
      generalize "\\setbox".toList = kw
      simp only [List.append_assoc, List.cons_append]
    rw [e1, handle_assign env st w m b r v h1 h2 h3 h4, Dict.get?_set]
    have hd : (BoxEvent.assign w m b v).decides n = (some m == some n) := rfl
    rw [hd]
    by_cases hmn : m = n <;> simp [hmn, BoxEvent.content]

theorem holds_snoc {V} (env : Env V) (n : Str) (h : List (BoxEvent V)) (e : BoxEvent V) :
    holds env n (h ++ [e]) = if e.decides n = true then e.content env else holds env n h := by
  unfold holds
  rw [List.filter_append]
  by_cases hd : e.decides n = true
  · rw [if_pos hd]; simp [hd]
  · rw [if_neg hd]
    have : List.filter (BoxEvent.decides n) [e] = [] := by simp [hd]
    rw [this, List.append_nil]

theorem after_holds {V} (env : Env V) (n : Str) : ∀ (h pre : List (BoxEvent V × Str)) (st : State V), (∀ e ∈ h, e.1.Ok env e.2) →
    (Dict.get? st.saved n).join = holds env n (pre.map (·.1)) →
    (Dict.get? (after env st (calls h)).saved n).join = holds env n ((pre ++ h).map (·.1)) := by
  intro h
  induction h with
  | nil => intro pre st _ hl; simpa [after, calls] using hl
  | cons e h ih =>
    intro pre st hok hl
    have hs := step_event env st e.1 e.2 (hok e (by simp)) n
    have := ih (pre ++ [e]) (step env st (e.1.toCall e.2)) (fun e he => hok e (by simp [he])) (by
      rw [hs, List.map_append, List.map_cons, List.map_nil, holds_snoc, hl])
    rw [List.append_assoc] at this
    exact this

/-- C40: after any history of declaring, saving, assigning, using and clearing, using a box gives what was saved last under
that name, however the name is written, and nothing if nothing was saved since the last clear or declaration. Using a box
does not change any box, and exactly the command is consumed. -/
theorem C40_last_saved_partial {V} (env : Env V) (h : List (BoxEvent V × Str)) (hok : ∀ e ∈ h, e.1.Ok env e.2)
    (w : Written) (n rest : Str) (hn : BoxNameOk n) (hr : ∀ c ∈ rest.head?, nameChar c = false) :
    handle env (after env empty (calls h)) ((BoxEvent.use (V := V) w n).render ++ rest) =
      (after env empty (calls h), holds env n (h.map (·.1)), ((BoxEvent.use (V := V) w n).render).length) := by
  have e1 : (BoxEvent.use (V := V) w n).render ++ rest = "\\usebox".toList ++ (w.render n ++ rest) := by
    show ("\\usebox".toList ++ w.render n) ++ rest = _
    rw [List.append_assoc]
  have e2 : ((BoxEvent.use (V := V) w n).render).length = 7 + (w.render n).length := by
    show ("\\usebox".toList ++ w.render n).length = _
    rw [List.length_append]
    rfl
  rw [e1, e2, handle_use env _ w n rest hn hr]
  have := after_holds env n h [] empty hok rfl
  rw [List.nil_append] at this
  rw [this]

/-- A name never saved since the last clear has no box. -/
theorem C40_never_saved {V} (env : Env V) (h1 h2 : List (BoxEvent V)) (n : Str) (hno : ∀ e ∈ h2, e.name ≠ some n ∧ e.name ≠ none) :
    holds env n (h1 ++ .clear :: h2) = none := by
  unfold holds
  have : List.filter (BoxEvent.decides n) h2 = [] := by
    rw [List.filter_eq_nil_iff]
    intro e he
    have := hno e he
    cases e <;> simp_all [BoxEvent.decides, BoxEvent.name]
  rw [List.filter_append, List.filter_cons, if_pos (show BoxEvent.decides n (BoxEvent.clear (V := V)) = true from rfl), this]
  simp [BoxEvent.content]

/-- C40 violated: `\savebox` with an optional width saves nothing, and the width and the content stay in the document. -/
theorem C40_violated_savebox_width {V} (env : Env V) (st : State V) (w : Written) (n width c r : Str) (h : BoxNameOk n) :
    handle env st ("\\savebox".toList ++ (w.render n ++ ('[' :: (width ++ ']' :: '{' :: (c ++ '}' :: r))))) =
      (st, none, ("\\savebox".toList ++ w.render n).length) := by
  unfold handle
  generalize hx : width ++ ']' :: '{' :: (c ++ '}' :: r) = x
  have h1 : matchSet ("\\savebox".toList ++ (w.render n ++ ('[' :: x))) = none := by
    unfold matchSet; rw [if_neg]; exact Bool.false_ne_true
  have h2 := matchSaved_hit "savebox".toList w n ('[' :: x) h (by simp; decide) (fun r => rfl)
  have e : "\\savebox".toList ++ (w.render n ++ ('[' :: x)) = '\\' :: ("savebox".toList ++ (w.render n ++ ('[' :: x))) := rfl
  rw [h1, e, h2]
  simp only
  unfold handleSaved
  rw [if_neg (show ¬ startsWith "savebox".toList "new".toList = true by decide),
    if_pos (show "savebox".toList = "sbox".toList ∨ "savebox".toList = "savebox".toList by decide)]
  have hd : ('\\' :: ("savebox".toList ++ (w.render n ++ ('[' :: x)))).drop (1 + "savebox".toList.length + (w.render n).length) = '[' :: x := by
    rw [show '\\' :: ("savebox".toList ++ (w.render n ++ ('[' :: x))) = ('\\' :: ("savebox".toList ++ w.render n)) ++ ('[' :: x) by simp]
    rw [show 1 + "savebox".toList.length + (w.render n).length = ('\\' :: ("savebox".toList ++ w.render n)).length by simp; omega]
    exact List.drop_left
  have hdel : extractDelimitedArgs ('[' :: x) ['{'] = ([], 0) := by
    unfold extractDelimitedArgs delimArgsLoop
    have h1 : ('[' :: x).takeWhile isSpace = [] := by rw [List.takeWhile_cons, if_neg (by decide)]
    have h2 : extractNestedContent ('[' :: x) '{' '}' = none := by
      have : findMatchingDelimiter ('[' :: x) '{' '}' 0 = none := rfl
      unfold extractNestedContent
      rw [this]
    simp only [List.drop_zero, h1, List.length_nil, Nat.add_zero, h2]
    rw [if_neg (by decide), if_pos (by decide)]
  simp only [hd, hdel]
  rw [List.length_append]
  rfl

/-- C40 violated: a box saved under a number cannot be used, the boxes `\usebox` gives are unchanged. -/
theorem C40_violated_numbered {V} (st : State V) (g : Str) (hg : g ≠ []) (hd : ∀ c ∈ g, isDigit c = true) (v : Option (Value V)) :
    (setBox st g v).saved = st.saved := by
  unfold setBox
  have hs : strip g = g := strip_no g (by
    intro c hc
    have := hd c hc
    unfold isDigit at this
    simp [Char.le_def, UInt32.le_iff_toNat_le] at this
    unfold isSpace
    have e : c.toNat = c.val.toNat := rfl
    simp
    omega)
  rw [hs]
  have : (!g.isEmpty && g.all isDigit) = true := by
    simp [hg]; exact hd
  simp [this]

/-- C40: once cleared, a handler's boxes are its own: whatever other handlers do does not change them. -/
theorem C40_own_after_clear {V} (env : Env V) (i : Nat) : ∀ (l : List (Nat × Call)) (w : World V), (w.own i).isSome = true →
    (l.foldl (fun w c => w.call env c.1 c.2) w).view i = after env (w.view i) ((l.filter (fun c => c.1 = i)).map (·.2)) := by
  intro l
  induction l with
  | nil => intro w _; rfl
  | cons c l ih =>
    intro w hw
    obtain ⟨j, c⟩ := c
    rw [List.foldl_cons]
    obtain ⟨st, hst⟩ := Option.isSome_iff_exists.1 hw
    by_cases hj : j = i
    · subst hj
      rw [List.filter_cons, if_pos (by simp)]
      cases c with
      | clear =>
        rw [ih _ (by simp [World.call])]
        simp [World.call, World.view, after, step]
      | handle t =>
        rw [ih _ (by simp [World.call, hst])]
        simp [World.call, World.view, after, step, hst]
    · rw [List.filter_cons, if_neg (by simpa using hj)]
      have hown : (w.call env j c).own i = w.own i := by
        have hij : ¬ i = j := fun e => hj e.symm
        cases c with
        | clear => simp [World.call, hij]
        | handle t =>
          simp only [World.call]
          cases w.own j <;> simp [hij]
      rw [ih _ (by rw [hown]; exact hw)]
      have : (w.call env j c).view i = w.view i := by
        unfold World.view
        rw [hown, hst]
        rfl
      rw [this]

/-- C40: clearing a handler empties its boxes and no other handler's. -/
theorem C40_clear {V} (env : Env V) (w : World V) (i j : Nat) :
    (w.call env i .clear).view j = if j = i then ⟨[], []⟩ else w.view j := by
  unfold World.view World.call
  by_cases h : j = i
  · simp [h, empty]
  · simp [h]

/-- C40 violated: handlers that were never cleared share their boxes: what one saves another one finds. -/
theorem C40_violated_shared {V} (env : Env V) (w : World V) (i j : Nat) (hi : w.own i = none) (hj : w.own j = none)
    (wr : Written) (n c : Str) (hn : BoxNameOk n) (hc : Wrappable '{' '}' c) :
    Dict.get? ((w.call env i (.handle ("\\sbox".toList ++ (wr.render n ++ ('{' :: (c ++ ['}'])))))).view j).saved n = some (store env c) := by
  have h := handle_save env w.cls false wr n c [] hn hc
  simp only [World.call, hi, World.view, hj, Option.getD_none]
  have h' : (handle env w.cls ("\\sbox".toList ++ (wr.render n ++ '{' :: (c ++ ['}'])))).1.saved = Dict.set w.cls.saved n (store env c) := h
  rw [h', Dict.get?_set, if_pos rfl]

/-! A history. -/
def plainEnv : Env Str := ⟨none, fun _ => true, fun s => (some (.text s), s.length)⟩
example : (handle plainEnv (after plainEnv empty
    [.handle "\\newsavebox{\\mybox}".toList, .handle "\\sbox\\mybox{one} x".toList, .handle "\\savebox{\\mybox}{two}".toList])
    "\\usebox{mybox} rest".toList).2 = (some (.text "two".toList), 14) := by decide +kernel
example : holds plainEnv "b".toList [.save false .bare "b".toList "one".toList, .clear, .save true .plain "b".toList "two".toList,
    .use .bare "b".toList, .declare true .bare "c".toList] = some (.text "two".toList) := by decide +kernel
example : BoxNameOk "mybox".toList := by unfold BoxNameOk; decide

end L2J.Boxes
