import Verif.Props.C03
import Verif.Lemmas.Bib
import Verif.Lemmas.Regex
/-! C24: BibTeX entry scanning terminates and keeps every field. -/
namespace L2J
open Spec

theorem skipSep_length (s : Str) : (skipSep s).length ≤ s.length := (List.dropWhile_sublist _).length_le
theorem lstrip_length (s : Str) : (lstrip s).length ≤ s.length := (List.dropWhile_sublist _).length_le

theorem matchQuoted_some {s q : Str} {n : Nat} (h : matchQuoted s = some (q, n)) : 2 ≤ n := by
  unfold matchQuoted at h
  simp only [] at h
  split at h
  · split at h
    · simp only [Option.some.injEq, Prod.mk.injEq] at h; omega
    · cases h
  · cases h

theorem extract_bound {t : Str} {v : Str} {n : Nat} (h : extractNestedContent t '{' '}' = some (v, n)) : 2 ≤ n := by
  obtain ⟨s, _, hb, _⟩ := (extract_iff t '{' '}' v n).1 h
  have := block_len hb
  omega

/-- After a field match, a value in braces can be extracted. -/
theorem value_some {s : Str} (hc : Closed s) {n : Nat} (h : matchField s = some n)
    (hb : (lstrip (s.drop n)).head? = some '{') : extractNestedContent (lstrip (s.drop n)) '{' '}' ≠ none := by
  obtain ⟨_, _, p, c, h1, h2, h3⟩ := matchField_some h
  have h4 : lstrip (s.drop n) = s.drop n := by
    have := List.takeWhile_append_dropWhile (p := isSpace) (l := s.drop n)
    rw [h3] at this
    simpa [lstrip] using this
  rw [h4] at hb ⊢
  cases hr : s.drop n with
  | nil => rw [hr] at hb; simp at hb
  | cons x r =>
    rw [hr] at hb
    simp at hb
    subst hb
    refine hc p c r ?_ h2
    rw [← List.take_append_drop n s, h1, hr]
    simp

/-- The field loop of the BibTeX parser finishes on every text in which value braces are closed. -/
theorem bibFieldsLoop_total : ∀ fuel s d, Closed s → s.length < fuel → bibFieldsLoop fuel s d ≠ none := by
  intro fuel
  induction fuel with
  | zero => intro s d _ h; omega
  | succ fuel ih =>
    intro s d hc hf
    unfold bibFieldsLoop
    split
    · simp
    · cases hm : searchWith matchField s with
      | none => simp
      | some ae =>
        obtain ⟨a, e⟩ := ae
        obtain ⟨h1, n, h2, h3⟩ := searchWith_some matchField s a e hm
        subst h3
        have hca := hc.drop a
        obtain ⟨g1, g2, _⟩ := matchField_some h2
        rw [List.length_drop] at g2
        have hdd : s.drop (a + n) = (s.drop a).drop n := by rw [List.drop_drop]
        have hlen : (s.drop (a + n)).length < fuel := by rw [List.length_drop]; omega
        have hcr : Closed (s.drop (a + n)) := hc.drop _
        simp only []
        split
        · rename_i hb
          rw [hdd] at hb
          have hv := value_some hca h2 hb
          rw [← hdd] at hv
          cases hx : extractNestedContent (lstrip (s.drop (a + n))) '{' '}' with
          | none => exact absurd hx hv
          | some vn =>
            obtain ⟨v, n'⟩ := vn
            simp only []
            refine ih _ _ (Closed.dropWhile ((Closed.dropWhile hcr _).drop _) _) ?_
            have q1 := skipSep_length ((lstrip (s.drop (a + n))).drop n')
            have q2 := lstrip_length (s.drop (a + n))
            rw [List.length_drop] at q1
            omega
        · split
          · rename_i q n' hq
            refine ih _ _ (Closed.dropWhile (hcr.drop _) _) ?_
            have q1 := skipSep_length ((s.drop (a + n)).drop n')
            rw [List.length_drop] at q1
            omega
          · refine ih _ _ (Closed.dropWhile (hcr.drop _) _) ?_
            have q1 := skipSep_length ((s.drop (a + n)).drop 1)
            rw [List.length_drop] at q1
            omega

theorem parseEntry_total (ty s : Str) : parseEntry ty s ≠ none := by
  unfold parseEntry
  split
  · simp
  · rename_i content n h
    split
    · simp
    · rename_i k hk
      simp only []
      obtain ⟨b, _⟩ := C01_content_balanced s '{' '}' (by decide) content n h
      have := bibFieldsLoop_total ((strip (content.drop (k + 1))).length + 1) _ [] (closed_fields content b (k + 1))
        (Nat.lt_succ_self _)
      split
      · contradiction
      · simp

/-- C24: parsing terminates on every BibTeX text, whatever the conversion of compiled entries produces. (`none` would
mean that some field loop did not finish within `len(fields_text) + 1` iterations.) -/
theorem C24_bibtex_terminates (convert : Str → List Str) (content : Str) : ∃ es, parseBibtex convert content = some es := by
  have : ∀ l, parseEntries l ≠ none := by
    intro l
    induction l with
    | nil => simp [parseEntries]
    | cons x l ih =>
      obtain ⟨ty, s⟩ := x
      unfold parseEntries
      split
      · rename_i h; exact absurd h (parseEntry_total ty s)
      · exact ih
      · cases h : parseEntries l with
        | none => exact absurd h ih
        | some es => simp
  unfold parseBibtex
  exact Option.ne_none_iff_exists'.1 (this _)

theorem closed_lstrip {s : Str} (h : Closed s) : Closed (lstrip s) := Closed.dropWhile h _

theorem findSub_comma_lt : ∀ (r : Str) (k : Nat), findSub [','] r = some k → k < r.length := by
  intro r
  induction r with
  | nil => intro k h; simp [findSub] at h
  | cons x r ih =>
    intro k h
    simp only [findSub] at h
    split at h
    · injection h with h; subst h; simp
    · rw [Option.map_eq_some_iff] at h
      obtain ⟨k', h1, rfl⟩ := h
      have := ih k' h1
      simp; omega

theorem bibdivLoop_total : ∀ fuel s d, Closed s → s.length < fuel → bibdivLoop fuel s d ≠ none := by
  intro fuel
  induction fuel with
  | zero => intro s d _ h; omega
  | succ fuel ih =>
    intro s d hc hf
    unfold bibdivLoop
    split
    · simp
    · rename_i hne
      have hpos : 0 < s.length := by
        cases s with
        | nil => simp at hne
        | cons _ _ => simp
      have hcl := closed_lstrip hc
      have hll := lstrip_length s
      split
      · exact ih _ _ (hc.drop 1) (by rw [List.length_drop]; omega)
      · rename_i e he
        obtain ⟨g1, g2, _⟩ := matchField_some he
        have hlen : ((lstrip s).drop e).length < fuel := by rw [List.length_drop]; omega
        have hcr : Closed ((lstrip s).drop e) := hcl.drop _
        simp only []
        split
        · rename_i hb
          have hv := value_some hcl he hb
          split
          · rename_i v n hx
            refine ih _ _ (closed_lstrip ((closed_lstrip hcr).drop _)) ?_
            have q1 := lstrip_length ((lstrip ((lstrip s).drop e)).drop n)
            have q2 := lstrip_length ((lstrip s).drop e)
            rw [List.length_drop] at q1
            omega
          · contradiction
        · split
          · rename_i k hk
            refine ih _ _ (closed_lstrip (hcr.drop _)) ?_
            have q1 := lstrip_length (((lstrip s).drop e).drop (k + 1))
            rw [List.length_drop] at q1
            omega
          · refine ih _ _ (by intro p c r h; simp at h) ?_
            rw [List.length_drop] at hlen
            simp; omega

/-- C24: the same for the amsrefs (`\bib`) format. -/
theorem C24_bibdiv_terminates (content : Str) : ∃ es, parseBibdiv content = some es := by
  have : ∀ l, parseBibdivEntries l ≠ none := by
    intro l
    induction l with
    | nil => simp [parseBibdivEntries]
    | cons x l ih =>
      obtain ⟨k, t, s⟩ := x
      unfold parseBibdivEntries
      split
      · exact ih
      · rename_i content n h
        split
        · exact ih
        · obtain ⟨b, _⟩ := C01_content_balanced s '{' '}' (by decide) content n h
          have := bibdivLoop_total (content.length + 1) content [] (closed_of_balanced content b) (Nat.lt_succ_self _)
          split
          · contradiction
          · cases h : parseBibdivEntries l with
            | none => exact absurd h ih
            | some es => simp
  unfold parseBibdiv
  exact Option.ne_none_iff_exists'.1 (this _)

/-! ### Fields are kept -/

theorem takeWhile_append {p : Char → Bool} (a b : Str) (ha : ∀ c ∈ a, p c = true)
    (hb : ∀ c, b.head? = some c → p c = false) : (a ++ b).takeWhile p = a ∧ (a ++ b).dropWhile p = b := by
  induction a with
  | nil =>
    cases b with
    | nil => simp
    | cons x b => simp [hb x rfl]
  | cons x a ih =>
    have := ih (fun c hc => ha c (by simp [hc]))
    simp [ha x (by simp), this]

theorem space_not_word : ∀ c, isSpace c = true → isWord c = false := by
  intro c h
  cases hw : isWord c with
  | false => rfl
  | true =>
    exfalso
    have h2 : (c.toNat ≤ 32 ∨ 128 ≤ c.toNat) := by
      simp only [isSpace, Bool.or_eq_true, Bool.and_eq_true, decide_eq_true_eq, beq_iff_eq] at h
      omega
    simp only [isWord, isDigit, Bool.or_eq_true, Bool.and_eq_true, decide_eq_true_eq, beq_iff_eq] at hw
    have le : ∀ a b : Char, a ≤ b → a.toNat ≤ b.toNat := fun a b h => h
    rcases hw with ((⟨a, b⟩ | ⟨a, b⟩) | ⟨a, b⟩) | a
    · have := le _ _ a; have := le _ _ b; simp at *; omega
    · have := le _ _ a; have := le _ _ b; simp at *; omega
    · have := le _ _ a; have := le _ _ b; simp at *; omega
    · subst a; simp at h2

theorem sep_not_word {c : Char} (h : isSpace c = true ∨ c = ',') : isWord c = false := by
  rcases h with h | h
  · exact space_not_word c h
  · subst h; decide

theorem matchField_sep (c : Char) (s : Str) (h : isWord c = false) : matchField (c :: s) = none := by
  unfold matchField
  simp [h]

theorem search_sep (sep s : Str) (hsep : IsSep sep) : ∀ a e, searchWith matchField s = some (a, e) →
    searchWith matchField (sep ++ s) = some (sep.length + a, sep.length + e) := by
  intro a e h
  induction sep with
  | nil => simpa using h
  | cons c sep ih =>
    have h1 := ih (fun x hx => hsep x (by simp [hx]))
    simp only [List.cons_append, searchWith, matchField_sep c _ (sep_not_word (hsep c (by simp))), h1]
    simp; omega

theorem search_none_sep (sep : Str) (hsep : IsSep sep) : searchWith matchField sep = none := by
  induction sep with
  | nil => simp [searchWith, matchField]
  | cons c sep ih =>
    simp only [searchWith, matchField_sep c _ (sep_not_word (hsep c (by simp)))]
    rw [ih (fun x hx => hsep x (by simp [hx]))]; rfl

theorem matchField_name (name ws1 ws2 x : Str) (hn : IsName name) (h1 : IsBlank ws1) (h2 : IsBlank ws2)
    (hx : ∀ c, x.head? = some c → isSpace c = false) :
    matchField (name ++ (ws1 ++ '=' :: (ws2 ++ x))) = some (name.length + ws1.length + 1 + ws2.length) := by
  have t1 := takeWhile_append (p := isWord) name (ws1 ++ '=' :: (ws2 ++ x)) hn.2 (by
    intro c hc
    cases ws1 with
    | nil => simp at hc; subst hc; decide
    | cons y ws => simp at hc; subst hc; exact space_not_word _ (h1 _ (by simp)))
  have t2 := takeWhile_append (p := isSpace) ws1 ('=' :: (ws2 ++ x)) h1 (by
    intro c hc; simp at hc; subst hc; decide)
  have t3 := takeWhile_append (p := isSpace) ws2 x h2 hx
  unfold matchField
  simp only [t1.1, List.drop_left, t2.1, t3.1]
  rw [if_neg (by have := hn.1; cases name <;> simp_all)]

theorem searchWith_here (m : Str → Option Nat) (s : Str) (n : Nat) (h : m s = some n) : searchWith m s = some (0, n) := by
  cases s with
  | nil => simp [searchWith, h]
  | cons x s => simp [searchWith, h]

/-- Adding a field to the dictionary. -/
def addField (d : List (Str × Str)) (f : Str × Str) : List (Str × Str) := dictSet d (lower f.1) f.2

/-- One round of the loop on a field. -/
theorem loop_field (sep name ws1 ws2 x : Str) (hs : IsSep sep) (hn : IsName name) (h1 : IsBlank ws1) (h2 : IsBlank ws2)
    (hx : ∀ c, x.head? = some c → isSpace c = false) (fuel : Nat) (d) :
    bibFieldsLoop (fuel + 1) (sep ++ (name ++ (ws1 ++ '=' :: (ws2 ++ x)))) d =
      if x.head? = some '{' then
        match extractNestedContent x '{' '}' with
        | some (v, n) => bibFieldsLoop fuel (skipSep (x.drop n)) (dictSet d (lower name) (strip v))
        | none => bibFieldsLoop fuel (skipSep (sep ++ (name ++ (ws1 ++ '=' :: (ws2 ++ x))))) d
      else match matchQuoted x with
        | some (q, n) => bibFieldsLoop fuel (skipSep (x.drop n)) (dictSet d (lower name) q)
        | none => bibFieldsLoop fuel (skipSep (x.drop 1)) d := by
  have hm := matchField_name name ws1 ws2 x hn h1 h2 hx
  have hsr := search_sep sep _ hs _ _ (searchWith_here matchField _ _ hm)
  have hne : (sep ++ (name ++ (ws1 ++ '=' :: (ws2 ++ x)))).isEmpty = false := by
    rw [List.isEmpty_eq_false_iff]; simp
  have t1 := takeWhile_append (p := isWord) name (ws1 ++ '=' :: (ws2 ++ x)) hn.2 (by
    intro c hc
    cases ws1 with
    | nil => simp at hc; subst hc; decide
    | cons y ws => simp at hc; subst hc; exact space_not_word _ (h1 _ (by simp)))
  have hd1 : (sep ++ (name ++ (ws1 ++ '=' :: (ws2 ++ x)))).drop (sep.length + 0) = name ++ (ws1 ++ '=' :: (ws2 ++ x)) := by
    simp
  have hd2 : (sep ++ (name ++ (ws1 ++ '=' :: (ws2 ++ x)))).drop (sep.length + (name.length + ws1.length + 1 + ws2.length)) = x := by
    have : sep ++ (name ++ (ws1 ++ '=' :: (ws2 ++ x))) = (sep ++ name ++ ws1 ++ '=' :: ws2) ++ x := by simp
    rw [this, show sep.length + (name.length + ws1.length + 1 + ws2.length) = (sep ++ name ++ ws1 ++ '=' :: ws2).length by
      simp; omega, List.drop_left]
  have hl : lstrip x = x := by
    cases x with
    | nil => rfl
    | cons y x => simp [lstrip, hx y rfl]
  rw [bibFieldsLoop, hne]
  simp only [Bool.false_eq_true, if_false, hsr, hd1, hd2, hl, t1.1]
  rfl

theorem skipSep_append (sep s : Str) (hs : IsSep sep) (h : ∀ c, s.head? = some c → ¬ (isSpace c = true ∨ c = ',')) :
    skipSep (sep ++ s) = s := by
  unfold skipSep
  refine (takeWhile_append sep s ?_ ?_).2
  · intro c hc; rcases hs c hc with h | h <;> simp [h]
  · intro c hc
    have := h c hc
    simp only [not_or] at this
    simp [this.1, this.2]

theorem word_not_sep {c : Char} (h : isWord c = true) : ¬ (isSpace c = true ∨ c = ',') := by
  intro hs
  rw [sep_not_word hs] at h; cases h

theorem loop_fields {s : Str} {fs : List (Str × Str)} (h : FieldText s fs) : ∀ fuel d,
    (s.length < fuel → bibFieldsLoop fuel s d = some (fs.foldl addField d)) ∧
    (s.length < fuel → bibFieldsLoop fuel (skipSep s) d = some (fs.foldl addField d)) := by
  induction h with
  | done sep hs =>
    intro fuel d
    have : skipSep sep = [] := by
      have := skipSep_append sep [] hs (by simp)
      simpa using this
    constructor
    · intro hf
      cases fuel with
      | zero => omega
      | succ fuel =>
        unfold bibFieldsLoop
        rw [search_none_sep sep hs]
        split <;> rfl
    · intro hf
      rw [this]
      cases fuel with
      | zero => omega
      | succ fuel => simp [bibFieldsLoop]
  | braced sep name ws1 ws2 v rest fs hs hn h1 h2 hb he _ ih =>
    have core : ∀ sep', IsSep sep' → ∀ fuel d, rest.length < fuel →
        bibFieldsLoop (fuel + 1) (sep' ++ (name ++ (ws1 ++ '=' :: (ws2 ++ '{' :: (v ++ '}' :: rest))))) d =
          some (((name, strip v) :: fs).foldl addField d) := by
      intro sep' hs' fuel d hf
      rw [loop_field sep' name ws1 ws2 _ hs' hn h1 h2 (by intro c hc; simp at hc; subst hc; decide)]
      have hx := C01_round_trip [] v rest '{' '}' (by simp) (by decide) (by decide) (by decide) hb he
      simp only [List.nil_append, List.length_nil, Nat.zero_add] at hx
      simp only [List.head?_cons, if_true, hx]
      have hd : ('{' :: (v ++ '}' :: rest)).drop (v.length + 2) = rest := by
        rw [show '{' :: (v ++ '}' :: rest) = ('{' :: v ++ ['}']) ++ rest by simp,
          show v.length + 2 = ('{' :: v ++ ['}']).length by simp, List.drop_left]
      rw [hd, (ih fuel _).2 hf]
      rfl
    intro fuel d
    constructor
    · intro hf
      cases fuel with
      | zero => omega
      | succ fuel => exact core sep hs fuel d (by simp at hf; omega)
    · intro hf
      have hsk : skipSep (sep ++ (name ++ (ws1 ++ '=' :: (ws2 ++ '{' :: (v ++ '}' :: rest))))) =
          [] ++ (name ++ (ws1 ++ '=' :: (ws2 ++ '{' :: (v ++ '}' :: rest)))) := by
        refine skipSep_append sep _ hs ?_
        intro c hc
        obtain ⟨hn1, hn2⟩ := hn
        cases name with
        | nil => exact absurd rfl hn1
        | cons y name => simp at hc; subst hc; exact word_not_sep (hn2 _ (by simp))
      rw [hsk]
      cases fuel with
      | zero => omega
      | succ fuel => exact core [] (by intro c hc; simp at hc) fuel d (by simp at hf; omega)
  | quoted sep name ws1 ws2 q rest fs hs hn h1 h2 hq _ ih =>
    have core : ∀ sep', IsSep sep' → ∀ fuel d, rest.length < fuel →
        bibFieldsLoop (fuel + 1) (sep' ++ (name ++ (ws1 ++ '=' :: (ws2 ++ '"' :: (q ++ '"' :: rest))))) d =
          some (((name, q) :: fs).foldl addField d) := by
      intro sep' hs' fuel d hf
      rw [loop_field sep' name ws1 ws2 _ hs' hn h1 h2 (by intro c hc; simp at hc; subst hc; decide)]
      have tq := takeWhile_append (p := fun c => c != '"') q ('"' :: rest)
        (by intro c hc; simp; intro he; subst he; exact hq hc) (by intro c hc; simp at hc; subst hc; rfl)
      have hm : matchQuoted ('"' :: (q ++ '"' :: rest)) = some (q, q.length + 2) := by
        unfold matchQuoted
        have : isSpace '"' = false := by decide
        simp only [List.takeWhile_cons, this, Bool.false_eq_true, if_false, List.length_nil, List.drop_zero, tq.1,
          List.drop_left, List.head?_cons, if_true, Nat.zero_add]
      rw [if_neg (by simp), hm]
      have hd : ('"' :: (q ++ '"' :: rest)).drop (q.length + 2) = rest := by
        rw [show '"' :: (q ++ '"' :: rest) = ('"' :: q ++ ['"']) ++ rest by simp,
          show q.length + 2 = ('"' :: q ++ ['"']).length by simp, List.drop_left]
      simp only [hd]
      rw [(ih fuel _).2 hf]
      rfl
    intro fuel d
    constructor
    · intro hf
      cases fuel with
      | zero => omega
      | succ fuel => exact core sep hs fuel d (by simp at hf; omega)
    · intro hf
      have hsk : skipSep (sep ++ (name ++ (ws1 ++ '=' :: (ws2 ++ '"' :: (q ++ '"' :: rest))))) =
          [] ++ (name ++ (ws1 ++ '=' :: (ws2 ++ '"' :: (q ++ '"' :: rest)))) := by
        refine skipSep_append sep _ hs ?_
        intro c hc
        obtain ⟨hn1, hn2⟩ := hn
        cases name with
        | nil => exact absurd rfl hn1
        | cons y name => simp at hc; subst hc; exact word_not_sep (hn2 _ (by simp))
      rw [hsk]
      cases fuel with
      | zero => omega
      | succ fuel => exact core [] (by intro c hc; simp at hc) fuel d (by simp at hf; omega)

theorem dictGet_set (d : List (Str × Str)) (k v k' : Str) :
    dictGet (dictSet d k v) k' = if k = k' then some v else dictGet d k' := by
  induction d with
  | nil => simp [dictSet, dictGet]
  | cons x d ih =>
    obtain ⟨a, b⟩ := x
    simp only [dictSet]
    by_cases h : a = k
    · subst h
      by_cases h2 : a = k' <;> simp [dictGet, h2]
    · by_cases h2 : a = k'
      · subst h2; simp [dictGet, h, Ne.symm h]
      · simp [dictGet, h, h2, ih]

theorem dictGet_fields (fs : List (Str × Str)) (k : Str) : ∀ d,
    dictGet (fs.foldl addField d) k = (lastValue fs k).or (dictGet d k) := by
  induction fs with
  | nil => intro d; simp [lastValue]
  | cons f fs ih =>
    intro d
    rw [List.foldl_cons, ih]
    unfold lastValue addField
    rw [dictGet_set, List.reverse_cons, List.find?_append]
    cases fs.reverse.find? (fun f => decide (lower f.1 = k)) with
    | some x => simp
    | none => by_cases h : lower f.1 = k <;> simp [h]

/-- C24: the field loop returns, for a text consisting of braced or quoted fields, every field with its full value: the
dictionary maps each name (in lower case) to the last value given for it and has no other keys. -/
theorem C24_fields_kept (s : Str) (fs : List (Str × Str)) (h : FieldText s fs) :
    ∃ d, bibFieldsLoop (s.length + 1) s [] = some d ∧ ∀ k, dictGet d k = lastValue fs k := by
  refine ⟨_, (loop_fields h (s.length + 1) []).1 (Nat.lt_succ_self _), fun k => ?_⟩
  rw [dictGet_fields]; simp [dictGet]

theorem unbrace_plain : ∀ (v rev : Str), '{' ∉ v →
    (Re.seq (.lit ['{']) (.seq (.group 1 (.star (.chr (· != '}')))) (.lit ['}']))).subAux (fun m => (m.group 1).getD []) 0 rev v = v
  | [], rev, _ => by
    unfold Re.subAux
    rfl
  | x :: v, rev, h => by
    have hx : ¬ '{' = x := fun e => h (by rw [← e]; exact List.mem_cons_self)
    rw [Re.subAux_none, unbrace_plain v _ (fun hm => h (by simp [hm]))]
    rw [Re.matchAt_eq]
    have : (Re.lit ['{']).run ⟨rev, x :: v, []⟩ = [] := by
      have hx' : ¬ x = '{' := fun e => hx e.symm
      simp [Re.lit, Re.run, hx']
    show (List.flatMap _ ((Re.lit ['{']).run ⟨rev, x :: v, []⟩)).head?.map _ = _
    rw [this]; rfl

/-- Adding a value of a field that may be repeated. -/
def joinField (d : List (Str × Str)) (f : Str × Str) : List (Str × Str) := dictAnd d (lower f.1) f.2

theorem lstrip_word {name r : Str} (hn : IsName name) : lstrip (name ++ r) = name ++ r := by
  cases name with
  | nil => exact absurd rfl hn.1
  | cons c name =>
    have hc : isSpace c = false := by
      cases h : isSpace c with
      | false => rfl
      | true =>
        have := space_not_word c h
        rw [hn.2 c (by simp)] at this; cases this
    simp [lstrip, hc]

theorem balanced_plain {v : Str} (h1 : '{' ∉ v) (h2 : '}' ∉ v) : Balanced v '{' '}' := by
  have key : ∀ j, level v '{' '}' j = 0 := by
    intro j
    induction j with
    | zero => simp [level]
    | succ j ih =>
      simp only [level, ih]
      have e1 : liveAt v '{' j = false := by
        unfold liveAt
        cases hj : v[j]? with
        | none => simp
        | some c =>
          have : c ≠ '{' := by rintro rfl; exact h1 (List.mem_of_getElem? hj)
          simp [this]
      have e2 : liveAt v '}' j = false := by
        unfold liveAt
        cases hj : v[j]? with
        | none => simp
        | some c =>
          have : c ≠ '}' := by rintro rfl; exact h2 (List.mem_of_getElem? hj)
          simp [this]
      simp [e1, e2]
  exact ⟨fun j _ => by rw [key]; decide, key _⟩

/-- One round of the amsrefs loop at a field. -/
theorem div_here (name ws1 ws2 v rest : Str) (hn : IsName name) (h1 : IsBlank ws1) (h2 : IsBlank ws2)
    (hv1 : '{' ∉ v) (hv2 : '}' ∉ v) (he : escapedAt v v.length = false) (fuel : Nat) (d) (w : Str) (hw : IsBlank w) :
    bibdivLoop (fuel + 1) (w ++ (name ++ (ws1 ++ '=' :: (ws2 ++ '{' :: (v ++ '}' :: rest))))) d =
      bibdivLoop fuel (lstrip rest) (joinField d (name, strip v)) := by
  have hm := matchField_name name ws1 ws2 ('{' :: (v ++ '}' :: rest)) hn h1 h2 (by intro c hc; simp at hc; subst hc; decide)
  have t1 := takeWhile_append (p := isWord) name (ws1 ++ '=' :: (ws2 ++ '{' :: (v ++ '}' :: rest))) hn.2 (by
    intro c hc
    cases ws1 with
    | nil => simp at hc; subst hc; decide
    | cons y ws => simp at hc; subst hc; exact space_not_word _ (h1 _ (by simp)))
  have hl : lstrip (w ++ (name ++ (ws1 ++ '=' :: (ws2 ++ '{' :: (v ++ '}' :: rest))))) =
      name ++ (ws1 ++ '=' :: (ws2 ++ '{' :: (v ++ '}' :: rest))) := by
    have := lstrip_word (r := ws1 ++ '=' :: (ws2 ++ '{' :: (v ++ '}' :: rest))) hn
    unfold lstrip at this ⊢
    rw [List.dropWhile_append_of_pos hw, this]
  have hne : (w ++ (name ++ (ws1 ++ '=' :: (ws2 ++ '{' :: (v ++ '}' :: rest))))).isEmpty = false := by
    rw [List.isEmpty_eq_false_iff]; simp
  have hd2 : (name ++ (ws1 ++ '=' :: (ws2 ++ '{' :: (v ++ '}' :: rest)))).drop (name.length + ws1.length + 1 + ws2.length) =
      '{' :: (v ++ '}' :: rest) := by
    have : name ++ (ws1 ++ '=' :: (ws2 ++ '{' :: (v ++ '}' :: rest))) = (name ++ ws1 ++ '=' :: ws2) ++ '{' :: (v ++ '}' :: rest) := by simp
    rw [this, show name.length + ws1.length + 1 + ws2.length = (name ++ ws1 ++ '=' :: ws2).length by simp; omega, List.drop_left]
  have hlb : lstrip ('{' :: (v ++ '}' :: rest)) = '{' :: (v ++ '}' :: rest) := by simp [lstrip, show isSpace '{' = false by decide]
  have hx := C01_round_trip [] v rest '{' '}' (by simp) (by decide) (by decide) (by decide) (balanced_plain hv1 hv2) he
  simp only [List.nil_append, List.length_nil, Nat.zero_add] at hx
  have hd : ('{' :: (v ++ '}' :: rest)).drop (v.length + 2) = rest := by
    rw [show '{' :: (v ++ '}' :: rest) = ('{' :: v ++ ['}']) ++ rest by simp,
      show v.length + 2 = ('{' :: v ++ ['}']).length by simp, List.drop_left]
  have hu : unbrace v = v := unbrace_plain v [] hv1
  rw [bibdivLoop, hne]
  simp only [Bool.false_eq_true, if_false, hl, hm, hd2, hlb, hx, hd, hu, t1.1, List.head?_cons, if_true]
  rfl

/-- A separator with a comma: one character is passed. -/
theorem div_sep (c : Char) (sep s : Str) (hs : IsSep (c :: sep)) (hc : ',' ∈ c :: sep) (fuel : Nat) (d) :
    bibdivLoop (fuel + 1) (c :: (sep ++ s)) d = bibdivLoop fuel (sep ++ s) d := by
  have key : ∀ sep : Str, IsSep sep → ',' ∈ sep → matchField (lstrip (sep ++ s)) = none := by
    intro sep
    induction sep with
    | nil => intro _ h; cases h
    | cons x sep ih =>
      intro h1 h2
      by_cases hx : isSpace x = true
      · have hne : x ≠ ',' := by rintro rfl; revert hx; decide
        have : lstrip (x :: sep ++ s) = lstrip (sep ++ s) := by simp [lstrip, hx]
        rw [this]
        exact ih (fun y hy => h1 y (by simp [hy])) (by simpa [Ne.symm hne] using h2)
      · have hx' : isSpace x = false := by simpa using hx
        have : lstrip (x :: sep ++ s) = x :: (sep ++ s) := by simp [lstrip, hx']
        rw [this]
        exact matchField_sep x _ (sep_not_word (h1 x (by simp)))
  have h := key (c :: sep) hs hc
  rw [List.cons_append] at h
  rw [bibdivLoop, h]
  simp

theorem div_sep_end : ∀ (sep : Str), IsSep sep → ∀ fuel d, sep.length < fuel → bibdivLoop fuel sep d = some d
  | [], _, fuel, d, h => by
    cases fuel with
    | zero => omega
    | succ fuel => simp [bibdivLoop]
  | c :: sep, hs, fuel, d, h => by
    cases fuel with
    | zero => omega
    | succ fuel =>
      have hs' : IsSep sep := fun y hy => hs y (by simp [hy])
      by_cases hc : ',' ∈ c :: sep
      · have := div_sep c sep [] hs hc fuel d
        rw [List.append_nil] at this
        rw [this]
        exact div_sep_end sep hs' fuel d (by simp at h; omega)
      · have hl : lstrip (c :: sep) = [] := by
          have hb : ∀ x ∈ c :: sep, isSpace x = true := by
            intro x hx
            rcases hs x hx with h | h
            · exact h
            · subst h; exact absurd hx hc
          have := List.dropWhile_append_of_pos hb (l₂ := [])
          simpa [lstrip] using this
        rw [bibdivLoop, hl]
        have hm : matchField [] = none := by decide
        simp only [hm, List.drop_succ_cons, List.drop_zero]
        have := div_sep_end sep hs' fuel d (by simp at h; omega)
        simp [this]

theorem div_fields {s : Str} {fs : List (Str × Str)} (h : DivText s fs) : ∀ (sep : Str), IsSep sep → ∀ fuel d,
    (sep ++ s).length < fuel → bibdivLoop fuel (sep ++ s) d = some (fs.foldl joinField d) ∧
      bibdivLoop fuel (lstrip (sep ++ s)) d = some (fs.foldl joinField d) := by
  induction h with
  | done sep0 hs0 =>
    intro sep hs fuel d hf
    have happ : IsSep (sep ++ sep0) := by
      intro c hc
      rcases List.mem_append.1 hc with h | h
      · exact hs c h
      · exact hs0 c h
    refine ⟨div_sep_end _ happ fuel d hf, div_sep_end _ ?_ fuel d ?_⟩
    · intro c hc; exact happ c ((List.dropWhile_sublist _).subset hc)
    · have := lstrip_length (sep ++ sep0); omega
  | braced sep0 name ws1 ws2 v rest fs hs0 hn h1 h2 hv1 hv2 he _ ih =>
    have core : ∀ (sep : Str), IsSep sep → ∀ fuel d,
        (sep ++ (name ++ (ws1 ++ '=' :: (ws2 ++ '{' :: (v ++ '}' :: rest))))).length < fuel →
        bibdivLoop fuel (sep ++ (name ++ (ws1 ++ '=' :: (ws2 ++ '{' :: (v ++ '}' :: rest))))) d =
          some (((name, strip v) :: fs).foldl joinField d) := by
      intro sep
      induction sep with
      | nil =>
        intro _ fuel d hf
        cases fuel with
        | zero => omega
        | succ fuel =>
          have := div_here name ws1 ws2 v rest hn h1 h2 hv1 hv2 he fuel d [] (by intro c hc; cases hc)
          rw [this]
          have hr := (ih [] (by intro c hc; cases hc) fuel (joinField d (name, strip v)) (by simp at hf ⊢; omega)).2
          exact hr
      | cons c sep ihs =>
        intro hs fuel d hf
        cases fuel with
        | zero => omega
        | succ fuel =>
          by_cases hc : ',' ∈ c :: sep
          · have := div_sep c sep (name ++ (ws1 ++ '=' :: (ws2 ++ '{' :: (v ++ '}' :: rest)))) hs hc fuel d
            rw [List.cons_append, this]
            exact ihs (fun y hy => hs y (by simp [hy])) fuel d (by rw [List.cons_append, List.length_cons] at hf; omega)
          · have hb : IsBlank (c :: sep) := by
              intro x hx
              rcases hs x hx with h | h
              · exact h
              · subst h; exact absurd hx hc
            rw [div_here name ws1 ws2 v rest hn h1 h2 hv1 hv2 he fuel d (c :: sep) hb]
            exact (ih [] (by intro c hc; cases hc) fuel (joinField d (name, strip v)) (by simp at hf ⊢; omega)).2
    intro sep hs fuel d hf
    have happ : IsSep (sep ++ sep0) := by
      intro c hc
      rcases List.mem_append.1 hc with h | h
      · exact hs c h
      · exact hs0 c h
    rw [← List.append_assoc] at hf ⊢
    refine ⟨core _ happ fuel d hf, ?_⟩
    -- leading blanks make no difference
    have hx : ∃ sep', IsSep sep' ∧ lstrip (sep ++ sep0 ++ (name ++ (ws1 ++ '=' :: (ws2 ++ '{' :: (v ++ '}' :: rest))))) =
        sep' ++ (name ++ (ws1 ++ '=' :: (ws2 ++ '{' :: (v ++ '}' :: rest)))) := by
      unfold lstrip
      rw [List.dropWhile_append]
      split
      · refine ⟨[], ?_, ?_⟩
        · intro c hc; cases hc
        have := lstrip_word (r := ws1 ++ '=' :: (ws2 ++ '{' :: (v ++ '}' :: rest))) hn
        unfold lstrip at this
        simpa using this
      · exact ⟨_, fun c hc => happ c ((List.dropWhile_sublist _).subset hc), rfl⟩
    obtain ⟨sep', hs', e⟩ := hx
    have hlen := lstrip_length (sep ++ sep0 ++ (name ++ (ws1 ++ '=' :: (ws2 ++ '{' :: (v ++ '}' :: rest)))))
    rw [e] at hlen ⊢
    exact core sep' hs' fuel d (by omega)

theorem joinWith_snoc (sep : Str) : ∀ (l : List Str) (x v : Str), joinWith sep (l ++ [x ++ sep ++ v]) = joinWith sep (l ++ [x, v])
  | [], x, v => by simp [joinWith]
  | [a], x, v => by simp [joinWith]
  | a :: b :: l, x, v => by
    have := joinWith_snoc sep (b :: l) x v
    simp only [List.cons_append, joinWith] at this ⊢
    rw [this]

theorem dictGet_joined (fs : List (Str × Str)) (k : Str) : ∀ d,
    dictGet (fs.foldl joinField d) k =
      match (dictGet d k).toList ++ allValues fs k with
      | [] => none
      | l => some (joinWith " and ".toList l) := by
  induction fs with
  | nil =>
    intro d
    simp only [List.foldl_nil, allValues, List.filter_nil, List.map_nil, List.append_nil]
    cases dictGet d k with
    | none => rfl
    | some v => rfl
  | cons f fs ih =>
    intro d
    rw [List.foldl_cons, ih]
    by_cases h : lower f.1 = k
    · have ha : allValues (f :: fs) k = f.2 :: allValues fs k := by simp [allValues, h]
      rw [ha]
      unfold joinField dictAnd
      rw [h]
      cases hd : dictGet d k with
      | none =>
        simp [dictGet_set]
      | some old =>
        simp only [dictGet_set, if_true, Option.toList_some, List.cons_append, List.nil_append]
        generalize " and ".toList = sep
        cases allValues fs k with
        | nil => simp [joinWith]
        | cons a l => simp [joinWith]
    · have ha : allValues (f :: fs) k = allValues fs k := by simp [allValues, h]
      rw [ha]
      unfold joinField dictAnd
      cases hd : dictGet d (lower f.1) with
      | none => simp [dictGet_set, h]
      | some old => simp [dictGet_set, h]

/-- C24, amsrefs: the loop over the fields of a `\bib` entry keeps every field; the values of a repeated field (several authors)
are joined with " and " in the order given. -/
theorem C24_bibdiv_fields (s : Str) (fs : List (Str × Str)) (h : DivText s fs) :
    ∃ d, bibdivLoop (s.length + 1) s [] = some d ∧ ∀ k, dictGet d k =
      match allValues fs k with
      | [] => none
      | l => some (joinWith " and ".toList l) := by
  refine ⟨_, (div_fields h [] (by intro c hc; cases hc) (s.length + 1) [] (Nat.lt_succ_self _)).1, fun k => ?_⟩
  rw [dictGet_joined]
  rfl

example : DivText " author={A}, author = {B B},year={2023}, ".toList
    [("author".toList, "A".toList), ("author".toList, "B B".toList), ("year".toList, "2023".toList)] := by
  have n1 : IsName "author".toList := ⟨by decide, by decide⟩
  have n2 : IsName "year".toList := ⟨by decide, by decide⟩
  have p1 : IsSep [' '] := by unfold IsSep; decide
  have p2 : IsSep [',', ' '] := by unfold IsSep; decide
  have p3 : IsSep [','] := by unfold IsSep; decide
  have b0 : IsBlank [] := by unfold IsBlank; decide
  have b1 : IsBlank [' '] := by unfold IsBlank; decide
  exact .braced [' '] "author".toList [] [] "A".toList _ _ p1 n1 b0 b0 (by decide) (by decide) (by decide +kernel)
    (.braced [',', ' '] "author".toList [' '] [' '] "B B".toList _ _ p2 n1 b1 b1 (by decide) (by decide)
      (by decide +kernel)
      (.braced [','] "year".toList [] [] "2023".toList [',', ' '] _ p3 n2 b0 b0 (by decide) (by decide)
        (by decide +kernel) (.done _ p2)))

/-- C24 violated: BibTeX allows unbraced numbers and macros (`year = 2023`, `month = jan`); such a field is dropped. For
every name and bare value (not starting with a brace or quote and containing no `=`), nothing is recorded. -/
theorem C24_violated_bare_value (name ws1 ws2 bare : Str) (hn : IsName name) (h1 : IsBlank ws1) (h2 : IsBlank ws2)
    (hb : ∃ c r, bare = c :: r ∧ isSpace c = false ∧ c ≠ '{' ∧ c ≠ '"') (he : '=' ∉ bare) (d) (fuel : Nat) :
    bibFieldsLoop (fuel + 2) (name ++ (ws1 ++ '=' :: (ws2 ++ bare))) d = some d := by
  obtain ⟨c, r, rfl, hc1, hc2, hc3⟩ := hb
  have h := loop_field [] name ws1 ws2 (c :: r) (by intro c hc; simp at hc) hn h1 h2
    (by intro x hx; simp at hx; subst hx; exact hc1) (fuel + 1) d
  simp only [List.nil_append, List.head?_cons, Option.some.injEq, hc2, if_false] at h
  have hq : matchQuoted (c :: r) = none := by
    unfold matchQuoted
    simp [hc1, hc3]
  rw [show fuel + 2 = fuel + 1 + 1 from rfl, h, hq]
  simp only [List.drop_succ_cons, List.drop_zero]
  have noeq : ∀ (s : Str), '=' ∉ s → searchWith matchField s = none := by
    have mf : ∀ (s : Str), '=' ∉ s → matchField s = none := by
      intro s hs
      unfold matchField
      simp only []
      split
      · rfl
      · split
        · rename_i r' hr
          exfalso
          apply hs
          have : '=' ∈ (s.drop (s.takeWhile isWord).length).drop ((s.drop (s.takeWhile isWord).length).takeWhile isSpace).length := by
            rw [hr]; simp
          exact List.mem_of_mem_drop (List.mem_of_mem_drop this)
        · rfl
    intro s
    induction s with
    | nil => intro hs; simp [searchWith, mf [] hs]
    | cons x s ih =>
      intro hs
      simp only [List.mem_cons, not_or] at hs
      simp only [searchWith, mf (x :: s) (by simp; exact ⟨hs.1, hs.2⟩), ih hs.2]
      rfl
  unfold bibFieldsLoop
  rw [noeq]
  · split <;> rfl
  · intro hm
    apply he
    have := (List.dropWhile_sublist (fun c => isSpace c || c == ',') (l := r)).subset hm
    simp [this]

/-- C24 violated: a quoted value ends at the first quote even inside braces (`"G{\"o}del"`), so it is cut short: for every
`u` without a quote the value is `u`, whatever follows. -/
theorem C24_violated_quote (name ws1 ws2 u rest : Str) (hn : IsName name) (h1 : IsBlank ws1) (h2 : IsBlank ws2)
    (hq : '"' ∉ u) (fs) (hr : FieldText rest fs) (d) (fuel : Nat) (hf : rest.length < fuel) :
    bibFieldsLoop (fuel + 1) (name ++ (ws1 ++ '=' :: (ws2 ++ '"' :: (u ++ '"' :: rest)))) d =
      some (fs.foldl addField (addField d (name, u))) := by
  have h := loop_field [] name ws1 ws2 ('"' :: (u ++ '"' :: rest)) (by intro c hc; simp at hc) hn h1 h2
    (by intro x hx; simp at hx; subst hx; decide) fuel d
  have tq := takeWhile_append (p := fun c => c != '"') u ('"' :: rest)
    (by intro c hc; simp; intro he; subst he; exact hq hc) (by intro c hc; simp at hc; subst hc; rfl)
  have hm : matchQuoted ('"' :: (u ++ '"' :: rest)) = some (u, u.length + 2) := by
    unfold matchQuoted
    have : isSpace '"' = false := by decide
    simp only [List.takeWhile_cons, this, Bool.false_eq_true, if_false, List.length_nil, List.drop_zero, tq.1,
      List.drop_left, List.head?_cons, if_true, Nat.zero_add]
  have hd : ('"' :: (u ++ '"' :: rest)).drop (u.length + 2) = rest := by
    rw [show '"' :: (u ++ '"' :: rest) = ('"' :: u ++ ['"']) ++ rest by simp,
      show u.length + 2 = ('"' :: u ++ ['"']).length by simp, List.drop_left]
  simp only [List.nil_append] at h
  rw [h, if_neg (by simp), hm]
  simp only [hd]
  exact (loop_fields hr fuel _).2 hf

/-! ### Whole files -/

/-- Balanced and not ending in a live backslash. -/
def BalE (t : Str) : Prop := Balanced t '{' '}' ∧ escapedAt t t.length = false

theorem BalE.append {a b : Str} (ha : BalE a) (hb : BalE b) : BalE (a ++ b) := by
  obtain ⟨⟨a1, a2⟩, a3⟩ := ha
  obtain ⟨⟨b1, b2⟩, b3⟩ := hb
  refine ⟨⟨?_, ?_⟩, ?_⟩
  · intro j hj
    by_cases h : j ≤ a.length
    · rw [level_append_left _ _ _ _ _ h]; exact a1 j h
    · obtain ⟨k, rfl⟩ : ∃ k, j = a.length + k := ⟨j - a.length, by omega⟩
      rw [level_append_right _ _ _ _ a3, a2]
      have := b1 k (by simp at hj; omega)
      omega
  · rw [List.length_append, level_append_right _ _ _ _ a3, a2, b2]; rfl
  · rw [List.length_append, escapedAt_append_right _ _ a3, b3]

theorem balE_plain {t : Str} (h : ∀ c ∈ t, c ≠ '{' ∧ c ≠ '}' ∧ c ≠ '\\') : BalE t := by
  have hl : ∀ d, (d = '{' ∨ d = '}') → ∀ i, liveAt t d i = false := by
    intro d hd i
    cases hc : liveAt t d i with
    | false => rfl
    | true =>
      have := (liveAt_get hc).1
      have hm := List.mem_of_getElem? this
      rcases hd with rfl | rfl
      · exact absurd rfl (h _ hm).1
      · exact absurd rfl (h _ hm).2.1
  have h0 : ∀ j, level t '{' '}' j = 0 := by
    intro j
    induction j with
    | zero => rfl
    | succ j ih => rw [level, ih, hl '{' (.inl rfl), hl '}' (.inr rfl)]; rfl
  refine ⟨⟨fun j _ => by rw [h0]; exact Int.le_refl _, h0 _⟩, ?_⟩
  cases hn : t.length with
  | zero => rfl
  | succ n =>
    have : t[n]? = some (t[n]'(by omega)) := List.getElem?_eq_getElem (by omega)
    refine escapedAt_succ_of_ne this ?_
    exact (h _ (List.getElem_mem _)).2.2

theorem BalE.wrap {v : Str} (h : BalE v) : BalE ('{' :: (v ++ ['}'])) := by
  obtain ⟨⟨a1, a2⟩, a3⟩ := h
  have e1 : escapedAt ['{'] ['{'].length = false := by decide
  have hl : ∀ j, level ('{' :: (v ++ ['}'])) '{' '}' (1 + j) = 1 + level (v ++ ['}']) '{' '}' j := by
    intro j
    have := level_append_right ['{'] (v ++ ['}']) '{' '}' e1 j
    simpa [level, liveAt, escapedAt] using this
  have hend : level (v ++ ['}']) '{' '}' (v.length + 1) = -1 := by
    rw [level_append_right _ _ _ _ a3, a2]; decide
  refine ⟨⟨?_, ?_⟩, ?_⟩
  · intro j hj
    cases j with
    | zero => exact Int.le_refl _
    | succ j =>
      rw [Nat.add_comm j 1, hl]
      by_cases hv : j ≤ v.length
      · rw [level_append_left _ _ _ _ _ hv]
        have := a1 j hv; omega
      · have : j = v.length + 1 := by simp at hj; omega
        rw [this, hend]; omega
  · rw [show ('{' :: (v ++ ['}'])).length = 1 + (v.length + 1) by simp; omega, hl, hend]; rfl
  · have : ('{' :: (v ++ ['}']))[v.length + 1]? = some '}' := by
      rw [List.getElem?_cons_succ]; simp
    rw [show ('{' :: (v ++ ['}'])).length = v.length + 1 + 1 by simp]
    exact escapedAt_succ_of_ne this (by decide)

theorem isWord_plain {c : Char} (h : isWord c = true) : c ≠ '{' ∧ c ≠ '}' ∧ c ≠ '\\' ∧ c ≠ ',' ∧ c ≠ '@' := by
  refine ⟨?_, ?_, ?_, ?_, ?_⟩ <;> (rintro rfl; revert h; decide)

/-- One rendered field. -/
def fieldStr (f : Str × Str) : Str := f.1 ++ '=' :: '{' :: (f.2 ++ ['}'])

/-- The rendered fields. -/
def fieldsStr (fs : List (Str × Str)) : Str := joinWith [',', '\n', '\t'] (fs.map fieldStr)

structure GoodField (f : Str × Str) : Prop where
  name : IsName f.1
  low : lower f.1 = f.1
  bal : BalE f.2
  trim : strip f.2 = f.2
  noAt : '@' ∉ f.2

theorem fieldStr_balE {f : Str × Str} (h : GoodField f) : BalE (fieldStr f) := by
  have h1 : BalE (f.1 ++ ['=']) := balE_plain (by
    intro c hc
    simp only [List.mem_append, List.mem_singleton] at hc
    rcases hc with hc | rfl
    · have := isWord_plain (h.name.2 c hc); exact ⟨this.1, this.2.1, this.2.2.1⟩
    · decide)
  have h2 := h1.append h.bal.wrap
  simpa [fieldStr] using h2

theorem fieldsStr_cons (f g : Str × Str) (fs) : fieldsStr (f :: g :: fs) = fieldStr f ++ [',', '\n', '\t'] ++ fieldsStr (g :: fs) := rfl

theorem fieldsStr_balE {fs : List (Str × Str)} (h : ∀ f ∈ fs, GoodField f) : BalE (fieldsStr fs) := by
  induction fs with
  | nil => exact balE_plain (by intro c hc; simp [fieldsStr, joinWith] at hc)
  | cons f fs ih =>
    cases fs with
    | nil => simpa [fieldsStr, joinWith] using fieldStr_balE (h f (by simp))
    | cons g fs =>
      rw [fieldsStr_cons]
      refine ((fieldStr_balE (h f (by simp))).append (balE_plain ?_)).append (ih (fun x hx => h x (by simp [hx])))
      intro c hc; simp at hc; rcases hc with rfl | rfl | rfl <;> decide

theorem fieldsStr_noAt {fs : List (Str × Str)} (h : ∀ f ∈ fs, GoodField f) : '@' ∉ fieldsStr fs := by
  have one : ∀ f, GoodField f → '@' ∉ fieldStr f := by
    intro f hf hm
    simp only [fieldStr, List.mem_append, List.mem_cons, List.not_mem_nil] at hm
    rcases hm with hm | hm | hm | hm | hm | hm
    · exact (isWord_plain (hf.name.2 _ hm)).2.2.2.2 rfl
    · revert hm; decide
    · revert hm; decide
    · exact hf.noAt hm
    · revert hm; decide
    · exact hm
  induction fs with
  | nil => simp [fieldsStr, joinWith]
  | cons f fs ih =>
    cases fs with
    | nil => simpa [fieldsStr, joinWith] using one f (h f (by simp))
    | cons g fs =>
      rw [fieldsStr_cons]
      simp only [List.mem_append, not_or]
      exact ⟨⟨one f (h f (by simp)), by decide⟩, ih (fun x hx => h x (by simp [hx]))⟩

theorem fieldsStr_text {fs : List (Str × Str)} (h : ∀ f ∈ fs, GoodField f) : ∀ sep, IsSep sep →
    FieldText (sep ++ fieldsStr fs) fs := by
  induction fs with
  | nil => intro sep hs; simpa [fieldsStr, joinWith] using FieldText.done sep hs
  | cons f fs ih =>
    intro sep hs
    have hf := h f (by simp)
    have hbl : IsBlank [] := by intro c hc; simp at hc
    cases fs with
    | nil =>
      have := FieldText.braced sep f.1 [] [] f.2 [] [] hs hf.name hbl hbl hf.bal.1 hf.bal.2
        (.done [] (by intro c hc; simp at hc))
      rw [hf.trim] at this
      simpa [fieldsStr, joinWith, fieldStr] using this
    | cons g fs =>
      have h1 := ih (fun x hx => h x (by simp [hx])) [',', '\n', '\t'] (by
        intro c hc; simp at hc; rcases hc with rfl | rfl | rfl <;> decide)
      have := FieldText.braced sep f.1 [] [] f.2 _ _ hs hf.name hbl hbl hf.bal.1 hf.bal.2 h1
      rw [hf.trim] at this
      rw [fieldsStr_cons]
      simpa [fieldStr] using this

theorem dictSet_new (d : List (Str × Str)) (k v : Str) (h : k ∉ d.map (·.1)) : dictSet d k v = d ++ [(k, v)] := by
  induction d with
  | nil => rfl
  | cons x d ih =>
    obtain ⟨a, b⟩ := x
    simp only [List.map_cons, List.mem_cons, not_or] at h
    simp [dictSet, Ne.symm h.1, ih h.2]

theorem addFields_nodup (fs : List (Str × Str)) (hl : ∀ f ∈ fs, lower f.1 = f.1) : ∀ d,
    ((d ++ fs).map (·.1)).Nodup → fs.foldl addField d = d ++ fs := by
  induction fs with
  | nil => intro d _; simp
  | cons f fs ih =>
    intro d hn
    have hnew : f.1 ∉ d.map (·.1) := by
      intro hm
      rw [List.map_append, List.nodup_append] at hn
      exact hn.2.2 _ hm _ (by simp) rfl
    rw [List.foldl_cons, addField, hl f (by simp), dictSet_new _ _ _ hnew]
    rw [ih (fun x hx => hl x (by simp [hx])) _ (by simpa using hn)]
    simp

theorem strip_core (ws ws' x : Str) (h1 : ∀ c ∈ ws, isSpace c = true) (h2 : ∀ c ∈ ws', isSpace c = true)
    (hh : ∀ c, x.head? = some c → isSpace c = false) (ht : ∀ c, x.getLast? = some c → isSpace c = false) :
    strip (ws ++ (x ++ ws')) = x := by
  cases x with
  | nil =>
    have : lstrip (ws ++ ([] ++ ws')) = [] := dropWhile_eq_nil (by
      intro c hc; simp at hc; rcases hc with hc | hc
      · exact h1 c hc
      · exact h2 c hc)
    unfold strip; rw [this]; rfl
  | cons y x =>
    have hl : lstrip (ws ++ (y :: x ++ ws')) = y :: x ++ ws' :=
      (takeWhile_append ws _ h1 (by intro c hc; simp at hc; subst hc; exact hh _ rfl)).2
    unfold strip rstrip
    rw [hl, List.reverse_append]
    rw [(takeWhile_append (p := isSpace) ws'.reverse (y :: x).reverse (by intro c hc; exact h2 c (by simpa using hc))
      (by intro c hc; rw [List.head?_reverse] at hc; exact ht c hc)).2, List.reverse_reverse]

theorem fieldsStr_ends {fs : List (Str × Str)} (h : ∀ f ∈ fs, GoodField f) :
    (∀ c, (fieldsStr fs).head? = some c → isSpace c = false) ∧
    (∀ c, (fieldsStr fs).getLast? = some c → isSpace c = false) := by
  have hd : ∀ f, GoodField f → ∀ r c, (fieldStr f ++ r).head? = some c → isSpace c = false := by
    intro f hf r c hc
    obtain ⟨n1, n2⟩ := hf.name
    cases hn : f.1 with
    | nil => exact absurd hn n1
    | cons y n =>
      simp only [fieldStr, hn, List.cons_append, List.head?_cons, Option.some.injEq] at hc
      subst hc
      have hw := n2 y (by rw [hn]; simp)
      cases hs : isSpace y with
      | false => rfl
      | true => rw [space_not_word y hs] at hw; cases hw
  have ed : ∀ f, ∀ c, (fieldStr f).getLast? = some c → isSpace c = false := by
    intro f c hc
    have : fieldStr f = (f.1 ++ '=' :: '{' :: f.2) ++ ['}'] := by simp [fieldStr]
    rw [this, List.getLast?_concat] at hc
    injection hc with hc; subst hc; decide
  induction fs with
  | nil => simp [fieldsStr, joinWith]
  | cons f fs ih =>
    cases fs with
    | nil =>
      have e : fieldsStr [f] = fieldStr f := rfl
      rw [e]
      refine ⟨fun c hc => hd f (h f (by simp)) [] c (by simpa using hc), ed f⟩
    | cons g fs =>
      rw [fieldsStr_cons]
      refine ⟨fun c hc => hd f (h f (by simp)) _ c (by rw [List.append_assoc] at hc; exact hc), ?_⟩
      intro c hc
      have hne : fieldsStr (g :: fs) ≠ [] := by
        intro he
        have hg := h g (by simp)
        cases fs with
        | nil => simp [fieldsStr, joinWith, fieldStr] at he
        | cons k fs => rw [fieldsStr_cons] at he; simp at he
      rw [List.getLast?_append] at hc
      have : (fieldsStr (g :: fs)).getLast? = some c := by
        cases hl : (fieldsStr (g :: fs)).getLast? with
        | none => exact absurd (List.getLast?_eq_none_iff.1 hl) hne
        | some x => rw [hl] at hc; simpa using hc
      exact (ih (fun x hx => h x (by simp [hx]))).2 c this

theorem findSub_comma (key r : Str) (h : ',' ∉ key) : findSub [','] (key ++ ',' :: r) = some key.length := by
  induction key with
  | nil => simp [findSub, List.isPrefixOf]
  | cons x key ih =>
    simp only [List.mem_cons, not_or] at h
    simp only [List.cons_append, findSub]
    have hp : [','].isPrefixOf (x :: (key ++ ',' :: r)) = false := by
      simp [List.isPrefixOf, h.1]
    rw [hp, ih h.2]; simp

theorem parseEntry_normal (e : BibEntry) (h : NormalEntry e) (tail : Str) :
    parseEntry e.entryType ('{' :: (e.key ++ ',' :: '\n' :: '\t' :: (fieldsStr e.fields ++ ['\n']) ++ '}' :: tail)) = some (some e) := by
  have hg : ∀ f ∈ e.fields, GoodField f := fun f hf =>
    ⟨(h.names f hf).1, (h.names f hf).2, ⟨(h.values f hf).1, (h.values f hf).2.1⟩, (h.values f hf).2.2.1, (h.values f hf).2.2.2⟩
  have hbal : BalE (e.key ++ ',' :: '\n' :: '\t' :: (fieldsStr e.fields ++ ['\n'])) := by
    have h1 : BalE (e.key ++ [',', '\n', '\t']) := balE_plain (by
      intro c hc
      simp only [List.mem_append] at hc
      rcases hc with hc | hc
      · have := h.key c hc; exact ⟨this.1, this.2.1, this.2.2.1⟩
      · simp at hc; rcases hc with rfl | rfl | rfl <;> decide)
    have h2 := (h1.append (fieldsStr_balE hg)).append (balE_plain (t := ['\n']) (by
      intro c hc; simp at hc; subst hc; decide))
    simpa using h2
  have hx := C01_round_trip [] _ tail '{' '}' (by simp) (by decide) (by decide) (by decide) hbal.1 hbal.2
  simp only [List.nil_append] at hx
  unfold parseEntry
  rw [hx]
  have hcomma : ',' ∉ e.key := fun hm => (h.key _ hm).2.2.2.1 rfl
  have hends := fieldsStr_ends hg
  have hstrip : strip ((e.key ++ ',' :: '\n' :: '\t' :: (fieldsStr e.fields ++ ['\n'])).drop (e.key.length + 1)) = fieldsStr e.fields := by
    rw [show e.key ++ ',' :: '\n' :: '\t' :: (fieldsStr e.fields ++ ['\n']) = (e.key ++ [',']) ++ (['\n', '\t'] ++ (fieldsStr e.fields ++ ['\n'])) by simp,
      show e.key.length + 1 = (e.key ++ [',']).length by simp, List.drop_left]
    exact strip_core ['\n', '\t'] ['\n'] _ (by intro c hc; simp at hc; rcases hc with rfl | rfl <;> decide)
      (by intro c hc; simp at hc; subst hc; decide) hends.1 hends.2
  have hloop := (loop_fields (fieldsStr_text hg [] (by intro c hc; simp at hc)) ((fieldsStr e.fields).length + 1) []).1
    (by simp)
  rw [List.nil_append, addFields_nodup _ (fun f hf => (h.names f hf).2) [] (by simpa using h.nodup), List.nil_append] at hloop
  simp only [findSub_comma _ _ hcomma, List.take_left, h.keyTrim, hstrip, hloop, h.tyLower]

theorem entryStarts_noAt (t u : Str) (h : '@' ∉ t) : ∀ k, k ≤ t.length → entryStarts k (t ++ u) = entryStarts 0 u := by
  induction t with
  | nil => intro k hk; simp at hk; subst hk; rfl
  | cons x t ih =>
    intro k hk
    simp only [List.mem_cons, not_or] at h
    cases k with
    | succ k => simp only [List.cons_append, entryStarts]; exact ih h.2 k (by simpa using hk)
    | zero =>
      simp only [List.cons_append, entryStarts]
      have : matchEntry (x :: (t ++ u)) = none := by
        unfold matchEntry
        split
        · rename_i r he
          injection he with he _
          exact absurd he.symm h.1
        · rfl
      rw [this]
      exact ih h.2 0 (by omega)

theorem toBibtexStr_eq (e : BibEntry) : toBibtexStr e =
    '@' :: (e.entryType ++ '{' :: (e.key ++ ',' :: '\n' :: '\t' :: (fieldsStr e.fields ++ ['\n']) ++ ['}'])) := by
  unfold toBibtexStr fieldsStr
  have : (e.fields.map fun f => f.1 ++ '=' :: '{' :: (f.2 ++ ['}'])) = e.fields.map fieldStr := rfl
  rw [this]; simp

theorem parseEntries_file (es : List (BibEntry × Str)) (h : ∀ p ∈ es, NormalEntry p.1 ∧ '@' ∉ p.2) :
    parseEntries (entryStarts 0 (es.flatMap fun p => toBibtexStr p.1 ++ p.2)) = some (es.map (·.1)) := by
  induction es with
  | nil => rfl
  | cons p es ih =>
    obtain ⟨he, hj⟩ := h p (by simp)
    obtain ⟨e, junk⟩ := p
    simp only at he hj
    have hg : ∀ f ∈ e.fields, GoodField f := fun f hf =>
      ⟨(he.names f hf).1, (he.names f hf).2, ⟨(he.values f hf).1, (he.values f hf).2.1⟩, (he.values f hf).2.2.1, (he.values f hf).2.2.2⟩
    have hkey : '@' ∉ e.key := fun hm => (he.key _ hm).2.2.2.2 rfl
    have hfs := fieldsStr_noAt hg
    have hty : '@' ∉ e.entryType := fun hm => (isWord_plain (he.ty.2 _ hm)).2.2.2.2 rfl
    simp only [List.flatMap_cons, List.map_cons]
    generalize hU : (es.flatMap fun p => toBibtexStr p.1 ++ p.2) = U at *
    have ht := takeWhile_append (p := isWord) e.entryType
      ('{' :: (e.key ++ ',' :: '\n' :: '\t' :: (fieldsStr e.fields ++ ['\n']) ++ '}' :: (junk ++ U))) he.ty.2
      (by intro c hc; simp at hc; subst hc; decide)
    have hcont : toBibtexStr e ++ junk ++ U = '@' :: (e.entryType ++
        '{' :: (e.key ++ ',' :: '\n' :: '\t' :: (fieldsStr e.fields ++ ['\n']) ++ '}' :: (junk ++ U))) := by
      rw [toBibtexStr_eq]; simp
    rw [hcont]
    have hm : matchEntry ('@' :: (e.entryType ++
        '{' :: (e.key ++ ',' :: '\n' :: '\t' :: (fieldsStr e.fields ++ ['\n']) ++ '}' :: (junk ++ U)))) =
          some (e.entryType, e.entryType.length + 2) := by
      unfold matchEntry
      have hne : e.entryType.isEmpty = false := by
        rw [List.isEmpty_eq_false_iff]; exact he.ty.1
      have hsp : isSpace '{' = false := by decide
      simp only [ht.1, List.drop_left, hne, Bool.false_eq_true, if_false, List.takeWhile_cons, hsp, List.length_nil,
        List.drop_zero, List.head?_cons, if_true, Nat.add_zero]
    rw [entryStarts, hm]
    simp only []
    have hdrop : ('@' :: (e.entryType ++
        '{' :: (e.key ++ ',' :: '\n' :: '\t' :: (fieldsStr e.fields ++ ['\n']) ++ '}' :: (junk ++ U)))).drop
          (e.entryType.length + 2 - 1) =
        '{' :: (e.key ++ ',' :: '\n' :: '\t' :: (fieldsStr e.fields ++ ['\n']) ++ '}' :: (junk ++ U)) := by
      rw [show e.entryType.length + 2 - 1 = e.entryType.length + 1 by omega, List.drop_succ_cons, List.drop_left]
    have hrest : entryStarts (e.entryType.length + 2 - 1) (e.entryType ++
        '{' :: (e.key ++ ',' :: '\n' :: '\t' :: (fieldsStr e.fields ++ ['\n']) ++ '}' :: (junk ++ U))) = entryStarts 0 U := by
      have : e.entryType ++ '{' :: (e.key ++ ',' :: '\n' :: '\t' :: (fieldsStr e.fields ++ ['\n']) ++ '}' :: (junk ++ U)) =
          (e.entryType ++ '{' :: (e.key ++ ',' :: '\n' :: '\t' :: (fieldsStr e.fields ++ ['\n']) ++ '}' :: junk)) ++ U := by simp
      rw [this]
      refine entryStarts_noAt _ _ ?_ _ (by simp)
      simp only [List.mem_append, List.mem_cons, List.not_mem_nil, not_or, or_false]
      exact ⟨hty, by decide, ⟨hkey, by decide, by decide, by decide, hfs, by decide⟩, by decide, hj⟩
    rw [hdrop, hrest, parseEntries, parseEntry_normal e he]
    simp only [ih (fun p hp => h p (by simp [hp]))]
    rfl

/-- C24: parsing a file of entries in normal form, rendered by the library's own `convert_fields_to_bibtex_str` and
surrounded by arbitrary text without `@`, returns exactly these entries, in order, with all their fields. -/
theorem C24_round_trip (convert : Str → List Str) (junk : Str) (es : List (BibEntry × Str)) (hj : '@' ∉ junk)
    (h : ∀ p ∈ es, NormalEntry p.1 ∧ '@' ∉ p.2)
    (hc : isCompiledBibtex (junk ++ es.flatMap fun p => toBibtexStr p.1 ++ p.2) = false) :
    parseBibtex convert (junk ++ es.flatMap fun p => toBibtexStr p.1 ++ p.2) = some (es.map (·.1)) := by
  unfold parseBibtex
  rw [hc]
  simp only [Bool.false_eq_true, if_false]
  rw [entryStarts_noAt junk _ hj 0 (by omega)]
  exact parseEntries_file es h

/- Non-vacuity (tests). -/
example : parseBibtex (fun _ => []) "% c\n@Article{k1, Title = {A {B} c}, year = \"2023\",\n note={x},}@book{k2,}".toList
    = some [⟨"article".toList, "k1".toList, [("title".toList, "A {B} c".toList), ("year".toList, "2023".toList),
        ("note".toList, "x".toList)]⟩, ⟨"book".toList, "k2".toList, []⟩] := by decide +kernel
example : parseBibtex (fun _ => []) "@article{k, year = 2023, title={T}}".toList
    = some [⟨"article".toList, "k".toList, [("title".toList, "T".toList)]⟩] := by decide +kernel
example : parseBibtex (fun _ => []) "@article{k, author = \"G{\\\"o}del\"}".toList
    = some [⟨"article".toList, "k".toList, [("author".toList, "G{\\".toList)]⟩] := by decide +kernel
/-- An `@word{` inside a value yields a spurious entry. -/
example : parseBibtex (fun _ => []) "@misc{k, note={see @misc{x, y={z}}}}".toList
    = some [⟨"misc".toList, "k".toList, [("note".toList, "see @misc{x, y={z}}".toList)]⟩,
        ⟨"misc".toList, "x".toList, [("y".toList, "z".toList)]⟩] := by decide +kernel
example : NormalEntry ⟨"misc".toList, "k:1".toList, [("title".toList, "A {B}".toList)]⟩ := by
  refine ⟨⟨by decide, by decide⟩, by decide +kernel, by unfold PlainKey; decide +kernel, by decide +kernel, ?_, by decide, ?_⟩
  · intro f hf; simp at hf; subst hf; exact ⟨⟨by decide, by decide⟩, by decide +kernel⟩
  · intro f hf; simp at hf; subst hf
    refine ⟨?_, by decide +kernel, by decide +kernel, by decide +kernel⟩
    rw [← C03_balance_iff]
    decide +kernel
example : parseBibdiv "\\bib{k}{article}{author={A}, author={{B}}, year={2023}, }".toList
    = some [⟨"article".toList, "k".toList, [("author".toList, "A and B".toList), ("year".toList, "2023".toList)]⟩] := by
  decide +kernel

end L2J
