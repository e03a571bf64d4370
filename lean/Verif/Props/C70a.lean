import Verif.Model.Compiled
import Verif.Spec.Compiled
import Verif.Props.C66
import Verif.Props.C57
import Verif.Props.C24
/-! Reading the entries of a bibliography compiled by biblatex (used by C70). -/
namespace L2J.Bbl
open Cmds Defn BibI L2J.Spec

/-! Patterns that begin with a word. -/

/-- A pattern that only matches where the word `l` is. -/
def Led (l : Str) (r : Re) : Prop := ∀ s, ¬ l <+: s → Dead r s

theorem Led.seq {l : Str} {a b : Re} (h : Led l a) : Led l (.seq a b) := fun s hs => Dead.seq (h s hs)

theorem Led.lit (l : Str) : Led l (.lit l) := fun _ hs => Dead.lit hs

theorem Led.group {l : Str} {a : Re} (n : Nat) (h : Led l a) : Led l (.group n a) := fun s hs => Dead.group n (h s hs)

/-- A word whose first character is not repeated in it. -/
structure Word (c : Char) (w l : Str) : Prop where
  eq : l = c :: w
  once : c ∉ w

theorem overlap {c : Char} {w v r : Str} (hw : c ∉ w) (hv : v ≠ []) (h : c :: w <+: v ++ c :: r) : c :: w <+: v := by
  obtain ⟨t, ht⟩ := h
  rcases List.append_eq_append_iff.1 ht with ⟨z, hz, hz'⟩ | ⟨z, hz, hz'⟩
  · exact ⟨z, hz.symm⟩
  · cases z with
    | nil => exact ⟨[], by simpa using hz⟩
    | cons c z =>
      simp only [List.cons_append, List.cons.injEq] at hz'
      cases v with
      | nil => exact absurd rfl hv
      | cons a v =>
        simp only [List.cons_append, List.cons.injEq] at hz
        exact absurd (by rw [hz.2, ← hz'.1]; simp) hw

/-- A word does not reach across a character that is not in it. -/
theorem cross {c : Char} {l v r : Str} (hw : c ∉ l) (h : l <+: v ++ c :: r) : l <+: v := by
  obtain ⟨t, ht⟩ := h
  rcases List.append_eq_append_iff.1 ht with ⟨z, hz, hz'⟩ | ⟨z, hz, hz'⟩
  · exact ⟨z, hz.symm⟩
  · cases z with
    | nil => exact ⟨[], by simpa using hz⟩
    | cons d z =>
      simp only [List.cons_append, List.cons.injEq] at hz'
      exact absurd (by rw [hz, ← hz'.1]; simp) hw

/-- No match begins in `a`. -/
def Passes (r : Re) (a R : Str) : Prop := ∀ u v, a = u ++ v → v ≠ [] → Dead r (v ++ R)

theorem passes_word {c : Char} {w l a R : Str} {r : Re} (hl : Word c w l) (h : Led l r) (ha : ¬ Contains a l) : Passes r a (l ++ R) := by
  intro u v hu hv
  refine h _ fun hp => ?_
  rw [hl.eq] at hp ha
  obtain ⟨z, hz⟩ := overlap hl.once hv hp
  exact ha ⟨u, z, by rw [hu, ← hz]; simp⟩

theorem passes_end {l a : Str} {r : Re} (h : Led l r) (ha : ¬ Contains a l) : Passes r a [] := by
  intro u v hu hv
  refine h _ fun ⟨z, hz⟩ => ha ⟨u, z, ?_⟩
  rw [hu]
  simp only [List.append_nil] at hz
  rw [← hz]
  simp

theorem passes_char {l a R : Str} {c : Char} {r : Re} (h : Led l r) (hc : c ∉ l) (hl : l ≠ []) (ha : ¬ Contains a l) : Passes r (a ++ [c]) R := by
  intro u v hu hv
  refine h _ fun hp => ?_
  obtain ⟨v', rfl⟩ : ∃ v', v = v' ++ [c] := by
    rcases List.eq_nil_or_concat v with rfl | ⟨v', d, rfl⟩
    · exact absurd rfl hv
    · rw [List.concat_eq_append, ← List.append_assoc] at hu
      have := List.append_inj_right' hu rfl
      simp only [List.cons.injEq, and_true] at this
      exact ⟨v', by rw [this]; simp⟩
  rw [List.append_assoc] at hp
  obtain ⟨z, hz⟩ := cross hc hp
  rw [← List.append_assoc] at hu
  have := List.append_inj_left' hu rfl
  exact ha ⟨u, z, by rw [this, ← hz]; simp⟩

theorem search_skip {r : Re} : ∀ (a rev R : Str), Passes r a R → r.searchFrom rev (a ++ R) = r.searchFrom (a.reverse ++ rev) R
  | [], rev, R, _ => by simp
  | c :: a, rev, R, h => by
    rw [List.cons_append]
    conv => lhs; unfold Re.searchFrom
    have := (h [] (c :: a) rfl (by simp)).matchAt rev
    rw [List.cons_append] at this
    rw [this]
    simp only
    rw [search_skip a (c :: rev) R fun u v hu => h (c :: u) v (by rw [hu]; rfl)]
    simp

theorem iter_skip {r : Re} : ∀ (a rev R : Str), Passes r a R → r.findIter 0 rev (a ++ R) = r.findIter 0 (a.reverse ++ rev) R
  | [], rev, R, _ => by simp
  | c :: a, rev, R, h => by
    have := (h [] (c :: a) rfl (by simp)).matchAt rev
    rw [List.cons_append] at this ⊢
    rw [Re.findIter_none r c rev _ this, iter_skip a (c :: rev) R fun u v hu => h (c :: u) v (by rw [hu]; rfl)]
    simp

theorem iter_end {r : Re} {a : Str} (rev : Str) (h : Passes r a []) : r.findIter 0 rev a = [] := by
  have := iter_skip a rev [] h
  rw [List.append_nil] at this
  rw [this]
  unfold Re.findIter
  rfl

theorem search_end {r : Re} {l a : Str} (h : Led l r) (hl : l ≠ []) (ha : ¬ Contains a l) : r.search a = none := by
  have := search_skip a [] [] (passes_end h ha)
  rw [List.append_nil] at this
  rw [Re.search, this]
  unfold Re.searchFrom
  exact (h [] (by simp [hl])).matchAt _

theorem search_here {r : Re} {x rest rev : Str} {g'} (h : Eats r x rest [] g') : r.searchFrom rev (x ++ rest) = some ⟨rev, x ++ rest, x.length, g'⟩ := by
  have := h.matchAt rev
  cases hx : x ++ rest with
  | nil => rw [hx] at this; unfold Re.searchFrom; exact this
  | cons c t => rw [hx] at this; unfold Re.searchFrom; rw [this]

/-- The first match of a pattern. -/
theorem search_at {r : Re} {a x rest : Str} {g'} (hp : Passes r a (x ++ rest)) (h : Eats r x rest [] g') :
    r.search (a ++ (x ++ rest)) = some ⟨a.reverse, x ++ rest, x.length, g'⟩ := by
  rw [Re.search, search_skip a [] _ hp, search_here h]
  simp

theorem iter_at {r : Re} {a x rest : Str} {g'} (rev : Str) (hx : x ≠ []) (hp : Passes r a (x ++ rest)) (h : Eats r x rest [] g') :
    r.findIter 0 rev (a ++ (x ++ rest)) = ⟨a.reverse ++ rev, x ++ rest, x.length, g'⟩ :: r.findIter 0 (x.reverse ++ (a.reverse ++ rev)) rest := by
  rw [iter_skip a rev _ hp, Re.findIter_match r x _ _ _ hx (h.matchAt _) rfl]

theorem Eats.plusGroup (p : Char → Bool) (n : Nat) {x rest : Str} {g} (h0 : x ≠ []) (h1 : ∀ c ∈ x, p c = true) (h2 : ∀ c ∈ rest.head?, p c = false) :
    Eats (.group n (.plus (.chr p))) x rest g ((n, x) :: g) := Eats.group n (Eats.plus_chr p h0 h1 h2)

/-! The fields. -/

theorem field_word : Word '\\' "field".toList "\\field".toList := ⟨rfl, by decide⟩

theorem field_led : Led "\\field".toList fieldRe := Led.seq (Led.group 1 (Led.lit _))

theorem not_brace {x : Str} (h : '}' ∉ x) : ∀ c ∈ x, (fun c => c != '}') c = true := fun c hc => by
  simp only [bne_iff_ne, ne_eq]
  rintro rfl
  exact h hc

theorem field_eats {k rest : Str} (h0 : k ≠ []) (h1 : '}' ∉ k) :
    Eats fieldRe ("\\field".toList ++ (['{'] ++ (k ++ "}{".toList))) rest [] [(2, k), (1, "\\field".toList)] := by
  unfold fieldRe
  refine Eats.seq (g1 := [(1, "\\field".toList)]) (Eats.group 1 (Eats.lit _ _ _)) ?_
  refine Eats.seq (g1 := [(1, "\\field".toList)]) (Eats.lit _ _ _) ?_
  exact Eats.seq (Eats.plusGroup _ 2 h0 (not_brace h1) (by intro c hc; simp at hc; subst hc; rfl)) (Eats.lit _ _ _)

/-- The fields are read from the matches. -/
def addRead (d : List (Str × Str)) (f : Str × Str) : List (Str × Str) :=
  match keptAs (strip f.1) with
  | none => d
  | some k => dictSet d k (strip f.2)

theorem fieldName_kept (k : Str) : fieldName k = keptAs k := by
  unfold fieldName keptAs
  have hm : k ∈ ["labelnamesource".toList, "labeltitlesource".toList] ↔ k = "labelnamesource".toList ∨ k = "labeltitlesource".toList := by
    simp only [List.mem_cons, List.not_mem_nil, or_false]
  by_cases h : k = "labelnamesource".toList ∨ k = "labeltitlesource".toList
  · rw [if_pos h, if_pos (hm.2 h)]
  · rw [if_neg h, if_neg (fun hh => h (hm.1 hh))]
    by_cases h2 : k = "journaltitle".toList
    · rw [if_pos h2, if_pos h2]
    · rw [if_neg h2, if_neg h2]

theorem wrappable_name {k : Str} (h : ∀ c ∈ k, c ≠ '{' ∧ c ≠ '}' ∧ c ≠ '\\') : Wrappable '{' '}' k := balE_plain h

theorem fields_read {s : Str} {fs : List (Str × Str)} (h : FieldsText s fs) : ∀ (d : List (Str × Str)) (pre rev : Str), Passes fieldRe pre [] → (∀ R, Passes fieldRe pre R) →
    fields d (fieldRe.findIter 0 rev (pre ++ s)) = some (fs.foldl addRead d) := by
  induction h with
  | nil t ht =>
    intro d pre rev _ hp
    rw [iter_skip pre rev _ (hp _), iter_end _ (passes_end field_led ht)]
    rfl
  | cons a k v rest fs ha h0 hk hv hc _ ih =>
    intro d pre rev _ hp
    rw [iter_skip pre rev _ (hp _)]
    have he : ∀ R, "\\field".toList ++ '{' :: (k ++ ("}{".toList ++ R)) = ("\\field".toList ++ (['{'] ++ (k ++ "}{".toList))) ++ R := by
      intro R; simp only [List.append_assoc]; rfl
    have hpa : Passes fieldRe a ("\\field".toList ++ (['{'] ++ (k ++ "}{".toList)) ++ (v ++ '}' :: rest)) := by
      rw [List.append_assoc]
      exact passes_word field_word field_led ha
    rw [he, iter_at _ (by simp) hpa (field_eats h0 (fun h => (hk _ h).2.1 rfl))]
    have hd : List.drop "\\field".toList.length (("\\field".toList ++ (['{'] ++ (k ++ "}{".toList))) ++ (v ++ '}' :: rest)) = wrapAll '{' '}' [([], k), ([], v)] ++ rest := by
      rw [List.append_assoc, List.drop_left]
      simp only [wrapAll, List.nil_append, List.append_assoc, List.cons_append]
      rfl
    have hs := seqBlocks_wrap '{' '}' (by decide) (by decide) (by decide) [([], k), ([], v)] rest (by
      intro e he
      simp only [List.mem_cons, List.not_mem_nil, or_false] at he
      rcases he with rfl | rfl
      · exact ⟨by simp, wrappable_name hk⟩
      · exact ⟨by simp, hv⟩)
    rw [List.foldl_cons]
    unfold fields
    simp only [hd]
    rw [show seqBlocks (wrapAll '{' '}' [([], k), ([], v)] ++ rest) '{' '}' (some 2) = _ from hs]
    simp only [List.map_cons, List.map_nil]
    have hp' : ∀ R, Passes fieldRe (v ++ ['}']) R := fun R => passes_char field_led (by decide) (by decide) hc
    have e2 : v ++ '}' :: rest = (v ++ ['}']) ++ rest := by simp
    rw [e2]
    unfold addRead
    rw [fieldName_kept]
    cases keptAs (strip k) with
    | none => exact ih d _ _ (hp' _) hp'
    | some k' => exact ih _ _ _ (hp' _) hp'

/-! The authors. -/

theorem split_brace : ∀ (x r : Str), ∃ y z, x ++ '}' :: r = y ++ '}' :: z ∧ '}' ∉ y ∧ (x.head? ≠ some '}' → x ≠ [] → y ≠ [])
  | [], r => ⟨[], r, rfl, by simp, by simp⟩
  | c :: x, r => by
    by_cases hc : c = '}'
    · subst hc; exact ⟨[], x ++ '}' :: r, rfl, by simp, by simp⟩
    · obtain ⟨y, z, h1, h2, _⟩ := split_brace x r
      refine ⟨c :: y, z, by rw [List.cons_append, h1]; rfl, ?_, by simp⟩
      simp only [List.mem_cons, not_or]
      exact ⟨fun h => hc h.symm, h2⟩

theorem wrappable_head {x : Str} (h : Wrappable '{' '}' x) : x.head? ≠ some '}' := by
  intro hx
  cases x with
  | nil => cases hx
  | cons c x =>
    simp only [List.head?_cons, Option.some.injEq] at hx
    subst hx
    have := h.1.1 1 (by simp)
    revert this
    simp [level, liveAt, escapedAt]

theorem part_led (w : Str) : Led w (partRe w) := Led.seq (Led.group 1 (Led.lit w))

theorem part_eats {w y rest : Str} (h0 : y ≠ []) (h1 : '}' ∉ y) : Eats (partRe w) (w ++ (['{'] ++ (y ++ ['}']))) rest [] [(2, y), (1, w)] := by
  unfold partRe
  refine Eats.seq (g1 := [(1, w)]) (Eats.group 1 (Eats.lit _ _ _)) ?_
  refine Eats.seq (g1 := [(1, w)]) (Eats.lit _ _ _) ?_
  exact Eats.seq (Eats.plusGroup _ 2 h0 (not_brace h1) (by intro c hc; simp at hc; subst hc; rfl)) (Eats.lit _ _ _)

theorem part_read {block x : Str} {w : String} {c : Char} {w' : Str} (hw : Word c w' w.toList) (h : PartText block w x) :
    ∃ m n, (partRe w.toList).search block = some m ∧ extractNestedContent (m.rest.drop w.toList.length) '{' '}' = some (x, n) := by
  obtain ⟨pre, post, rfl, hp, h0, hx⟩ := h
  obtain ⟨y, z, h1, h2, h3⟩ := split_brace x post
  have e : w.toList ++ '{' :: (x ++ '}' :: post) = (w.toList ++ (['{'] ++ (y ++ ['}']))) ++ z := by rw [h1]; simp
  have hs := search_at (a := pre) (rest := z) (by rw [List.append_assoc]; exact passes_word hw (part_led w.toList) hp) (part_eats (w := w.toList) (h3 (wrappable_head hx) h0) h2)
  rw [← e] at hs
  refine ⟨_, x.length + 2, hs, ?_⟩
  simp only [List.drop_left]
  exact Style.extract_wrapped '{' '}' (by decide) (by decide) (by decide) x post hx

theorem person_read {block family given : Str} (h1 : PartText block "family=" family) (h2 : PartText block "given=" given) :
    person block = some (some (authorName (family, given))) := by
  obtain ⟨f, n, hf, hf'⟩ := part_read (c := 'f') (w' := "amily=".toList) ⟨rfl, by decide⟩ h1
  obtain ⟨g, n', hg, hg'⟩ := part_read (c := 'g') (w' := "iven=".toList) ⟨rfl, by decide⟩ h2
  unfold person
  rw [hf, hg]
  simp only [hf', hg']
  rfl

theorem hash_word : Word '{' "hash=".toList "{hash=".toList := ⟨rfl, by decide⟩

theorem hash_led : Led "{hash=".toList hashRe := Led.seq (Led.lit _)

theorem hash_eats {h rest : Str} (hn : IsName h) : Eats hashRe ("{hash=".toList ++ (h ++ "}{".toList)) rest [] [] := by
  unfold hashRe
  refine Eats.seq (g1 := []) (Eats.lit _ _ _) ?_
  refine Eats.seq (g1 := []) (Eats.plus_chr _ hn.1 hn.2 ?_) (Eats.lit _ _ _)
  intro c hc
  simp at hc
  subst hc
  decide

theorem people_read {t : Str} {as : List (Str × Str)} (h : AuthorsText t as) : ∀ (pre rev : Str), (∀ R, Passes hashRe pre R) →
    people (hashRe.findIter 0 rev (pre ++ t)) = some (as.map authorName) := by
  induction h with
  | nil t ht =>
    intro pre rev hp
    rw [iter_skip pre rev _ (hp _), iter_end _ (passes_end hash_led ht)]
    rfl
  | cons a hash block post family given as ha hn h1 h2 hb hw _ ih =>
    intro pre rev hp
    rw [iter_skip pre rev _ (hp _)]
    have e : "{hash=".toList ++ (hash ++ ("}{".toList ++ (block ++ '}' :: post))) = ("{hash=".toList ++ (hash ++ "}{".toList)) ++ ((block ++ ['}']) ++ post) := by simp
    rw [e, iter_at _ (by simp) (by rw [List.append_assoc]; exact passes_word hash_word hash_led ha) (hash_eats hn)]
    have hd : List.drop (("{hash=".toList ++ (hash ++ "}{".toList)).length - 1) (("{hash=".toList ++ (hash ++ "}{".toList)) ++ ((block ++ ['}']) ++ post)) = '{' :: (block ++ '}' :: post) := by
      have e2 : ("{hash=".toList ++ (hash ++ "}{".toList)) ++ ((block ++ ['}']) ++ post) = ("{hash=".toList ++ (hash ++ ['}'])) ++ '{' :: (block ++ '}' :: post) := by simp
      have e3 : ("{hash=".toList ++ (hash ++ "}{".toList)).length - 1 = ("{hash=".toList ++ (hash ++ ['}'])).length := by simp
      rw [e2, e3, List.drop_left]
    unfold people
    simp only [hd]
    rw [Style.extract_wrapped '{' '}' (by decide) (by decide) (by decide) block post hw]
    have hne : block.isEmpty = false := by
      obtain ⟨u, v, rfl, _⟩ := h1
      simp
    simp only [hne, person_read h1 h2]
    rw [ih (block ++ ['}']) _ fun R => passes_char hash_led (by decide) (by decide) hb]
    rfl

theorem name_word : Word '\\' "name{author}".toList "\\name{author}".toList := ⟨rfl, by decide⟩

theorem authors_none {s : Str} (h : ¬ Contains s "\\name{author}".toList) : authors s = some [] := by
  unfold authors
  rw [show nameRe.search s = none from search_end (Led.lit _) (by decide) h]

theorem authors_read {pre ws t post : Str} {n o : Str × Str} {as} (hp : ¬ Contains pre "\\name{author}".toList) (hw : WellWrapped '{' '}' [n, o, (ws, t)]) (ha : AuthorsText t as) :
    authors (pre ++ ("\\name{author}".toList ++ (wrapAll '{' '}' [n, o, (ws, t)] ++ post))) = some (as.map authorName) := by
  unfold authors
  rw [search_at (r := nameRe) (passes_word name_word (Led.lit _) hp) (Eats.lit _ _ _)]
  simp only [List.drop_left]
  rw [show seqBlocks (wrapAll '{' '}' [n, o, (ws, t)] ++ post) '{' '}' (some 3) = _ from seqBlocks_wrap '{' '}' (by decide) (by decide) (by decide) _ post hw]
  simp only [List.map_cons, List.map_nil]
  have := people_read ha [] [] (by
    intro R u v hu hv
    exact absurd (List.append_eq_nil_iff.1 hu.symm).2 hv)
  exact this

/-! The head and the eprint number. -/

theorem header_read {k ty opts body : Str} (h1 : k ≠ []) (h2 : '}' ∉ k) (h3 : ty ≠ []) (h4 : '}' ∉ ty) (h5 : '}' ∉ opts) :
    ∃ m, headerRe.search ("\\entry{".toList ++ (k ++ ("}{".toList ++ (ty ++ ("}{".toList ++ (opts ++ '}' :: body)))))) = some m ∧ m.group 1 = some k ∧ m.group 2 = some ty := by
  have hb : ∀ (r : Str), ∀ c ∈ ("}{".toList ++ r).head?, (fun c => c != '}') c = false := by intro r c hc; simp at hc; subst hc; rfl
  have he : Eats headerRe ("\\entry{".toList ++ (k ++ ("}{".toList ++ (ty ++ ("}{".toList ++ (opts ++ ['}'])))))) body [] [(2, ty), (1, k)] := by
    unfold headerRe
    refine Eats.seq (g1 := []) (Eats.lit _ _ _) ?_
    refine Eats.seq (g1 := [(1, k)]) (Eats.plusGroup _ 1 h1 (not_brace h2) (by rw [List.append_assoc]; exact hb _)) ?_
    refine Eats.seq (g1 := [(1, k)]) (Eats.lit _ _ _) ?_
    refine Eats.seq (g1 := [(2, ty), (1, k)]) (Eats.plusGroup _ 2 h3 (not_brace h4) (by rw [List.append_assoc]; exact hb _)) ?_
    refine Eats.seq (g1 := [(2, ty), (1, k)]) (Eats.lit _ _ _) ?_
    exact Eats.seq (g1 := [(2, ty), (1, k)]) (Eats.star_chr _ (not_brace h5) (by intro c hc; simp at hc; subst hc; rfl)) (Eats.lit _ _ _)
  have := search_here (rev := []) he
  simp only [List.append_assoc, List.cons_append, List.nil_append] at this ⊢
  exact ⟨_, this, rfl, rfl⟩

theorem eprint_led : Led "\\verb{eprint}".toList eprintRe := Led.seq (Led.lit _)

theorem eprint_word : Word '\\' "verb{eprint}".toList "\\verb{eprint}".toList := ⟨rfl, by decide⟩

theorem Dead.reassoc {a b c : Re} {s : Str} (h : Dead (.seq a (.seq b c)) s) : Dead (.seq (.seq a b) c) s := by
  intro rev g
  have := h rev g
  rw [← this]
  show (((a.run _).flatMap b.run).flatMap c.run) = ((a.run _).flatMap fun st => (b.run st).flatMap c.run)
  rw [List.flatMap_assoc]

theorem Dead.then_chr {p : Char → Bool} {c : Char} {k : Re} {s : Str} (hp : p c = true) (h : Dead k s) : Dead (.seq (.chr p) k) (c :: s) := by
  intro rev g
  have e : (Re.chr p).run ⟨rev, c :: s, g⟩ = [⟨c :: rev, s, g⟩] := by simp [Re.run, hp]
  show (((Re.chr p).run ⟨rev, c :: s, g⟩).flatMap k.run) = _
  rw [e]
  simp [h (c :: rev) g]

/-- The shortest text of at least one character, up to what follows. -/
theorem Eats.lazyAny1 (p : Char → Bool) (n : Nat) {b : Re} {c : Char} {d y rest : Str} {g g'} (h1 : ∀ u v, d = u ++ v → v ≠ [] → Dead b (v ++ (y ++ rest))) (h2 : ∀ x ∈ c :: d, p x = true)
    (h : Eats b y rest ((n, c :: d) :: g) g') : Eats (.seq (.group n (.seq (.chr p) (.lazyStar (.chr p)))) b) (c :: d ++ y) rest g g' := by
  intro rev
  unfold Hd
  have e0 : (Re.seq (.chr p) (.lazyStar (.chr p))).run ⟨rev, c :: d ++ y ++ rest, g⟩ = iterLazy (Re.chr p).run (d ++ (y ++ rest)).length ⟨c :: rev, d ++ (y ++ rest), g⟩ := by
    have e : (Re.chr p).run ⟨rev, c :: (d ++ (y ++ rest)), g⟩ = [⟨c :: rev, d ++ (y ++ rest), g⟩] := by simp [Re.run, h2 c (by simp)]
    show (((Re.chr p).run ⟨rev, c :: d ++ y ++ rest, g⟩).flatMap (Re.lazyStar (.chr p)).run) = _
    rw [show c :: d ++ y ++ rest = c :: (d ++ (y ++ rest)) by simp, e]
    rw [List.flatMap_singleton]
    rfl
  show ((((Re.seq (.chr p) (.lazyStar (.chr p))).run ⟨rev, c :: d ++ y ++ rest, g⟩).map _).flatMap b.run).head? = _
  rw [e0, List.flatMap_map]
  have hh := h ((c :: d).reverse ++ rev)
  unfold Hd at hh
  have e : List.take ((c :: d ++ y ++ rest).length - (y ++ rest).length) (c :: d ++ y ++ rest) = c :: d := by
    rw [List.append_assoc, show (c :: d ++ (y ++ rest)).length - (y ++ rest).length = (c :: d).length by simp; omega, List.take_left]
  rw [Pre.lazy_flatMap' p (y ++ rest) g _ d (c :: rev) _ ?_ (fun x hx => h2 x (by simp [hx])) (by simp) ?_]
  · simp only [e]
    rw [show d.reverse ++ c :: rev = (c :: d).reverse ++ rev by simp, hh]
    simp
  · intro u v hd hv
    exact h1 u v hd hv _ _
  · simp only [e]
    intro hc
    rw [show d.reverse ++ c :: rev = (c :: d).reverse ++ rev by simp] at hc
    rw [hc] at hh
    cases hh

theorem strip_first {c : Char} {x : Str} (h : strip (c :: x) = c :: x) : isSpace c = false := by
  cases hc : isSpace c with
  | false => rfl
  | true =>
    have := Content.strip_left (a := [c]) (by simpa using hc) x
    rw [List.singleton_append, h] at this
    have hl := L2J.Eqn.strip_len x
    rw [← this] at hl
    simp at hl
    omega

theorem strip_blank {u b : Str} (h : strip (u ++ b) = u ++ b) (hb : ∀ c ∈ b, isSpace c = true) : b = [] := by
  have := Content.strip_right hb u
  rw [h] at this
  have hl := L2J.Eqn.strip_len u
  rw [← this] at hl
  simp at hl
  exact List.length_eq_zero_iff.1 (by omega)

theorem eprint_end {x ws3 rest u v : Str} (h1 : ∀ c ∈ ws3, isSpace c = true) (h3 : ws3 ≠ []) (h5 : strip x = x) (h6 : ¬ Contains x "\\endverb".toList) (hu : x = u ++ v) (hv : v ≠ []) :
    Dead (.seq (.plus reSpace) (.lit "\\endverb".toList)) (v ++ (ws3 ++ ("\\endverb".toList ++ rest))) := by
  obtain ⟨b, v, rfl⟩ := List.exists_cons_of_ne_nil hv
  refine Dead.reassoc ?_
  cases hb : isSpace b with
  | false => exact Dead.seq (Dead.chr _ (by intro c hc; simp at hc; subst hc; exact hb))
  | true =>
    refine Dead.then_chr hb ?_
    have hs := List.takeWhile_append_dropWhile (p := isSpace) (l := v)
    have hne : v.dropWhile isSpace ≠ [] := by
      intro he
      rw [he, List.append_nil] at hs
      rw [hu] at h5
      have := strip_blank h5 (by
        intro c hc
        rcases List.mem_cons.1 hc with rfl | hc
        · exact hb
        · exact takeWhile_all v c (by rw [hs]; exact hc))
      cases this
    rw [← hs, show ((v.takeWhile isSpace ++ v.dropWhile isSpace).append (ws3 ++ ("\\endverb".toList ++ rest))) = v.takeWhile isSpace ++ (v.dropWhile isSpace ++ (ws3 ++ ("\\endverb".toList ++ rest))) from List.append_assoc _ _ _]
    refine Dead.spaces (fun c hc => takeWhile_all _ _ hc) ?_ ?_ (Dead.lit ?_)
    · obtain ⟨a, t, ha⟩ := List.exists_cons_of_ne_nil hne
      intro c hc
      rw [ha] at hc
      simp at hc
      subst hc
      exact dropWhile_head ha
    · intro c t hc
      refine Dead.lit fun hp => ?_
      have : '\\' = c := (List.cons_prefix_cons.1 hp).1
      subst this
      cases hc
    · intro hp
      obtain ⟨a, t, rfl⟩ := List.exists_cons_of_ne_nil h3
      have ha : a ∉ "\\endverb".toList := by
        intro hm
        have := h1 a (by simp)
        revert this
        have : ∀ c ∈ "\\endverb".toList, isSpace c ≠ true := by decide
        exact this a hm
      obtain ⟨z, hz⟩ := cross ha hp
      refine h6 ⟨u ++ b :: v.takeWhile isSpace, z, ?_⟩
      rw [hu]
      conv => lhs; rw [← hs, ← hz]
      simp

/-- A text that does not contain `\endverb` is read up to the blanks before it. -/
theorem eprint_eats {ws1 ws2 x ws3 rest : Str} (h1 : ∀ c ∈ ws1 ++ ws2 ++ ws3, isSpace c = true) (h2 : ws2 ≠ []) (h3 : ws3 ≠ []) (h4 : x ≠ []) (h5 : strip x = x)
    (h6 : ¬ Contains x "\\endverb".toList) :
    Eats eprintRe ("\\verb{eprint}".toList ++ (ws1 ++ ("\\verb".toList ++ (ws2 ++ (x ++ (ws3 ++ "\\endverb".toList)))))) rest [] [(1, x)] := by
  have hend : ∀ u v, x = u ++ v → v ≠ [] → Dead (.seq (.plus reSpace) (.lit "\\endverb".toList)) (v ++ ((ws3 ++ "\\endverb".toList) ++ rest)) := by
    intro u v hu hv
    rw [List.append_assoc]
    exact eprint_end (fun c hc => h1 c (by simp [hc])) h3 h5 h6 hu hv
  obtain ⟨c, x', rfl⟩ := List.exists_cons_of_ne_nil h4
  have hc : isSpace c = false := strip_first h5
  unfold eprintRe
  refine Eats.seq (g1 := []) (Eats.lit _ _ _) ?_
  refine Eats.seq (g1 := []) (Eats.spaces (fun d hd => h1 d (by simp [hd])) (by intro d hd; simp at hd; subst hd; decide)) ?_
  refine Eats.seq (g1 := []) (Eats.lit _ _ _) ?_
  refine Eats.seq (g1 := []) (Eats.plus_chr _ h2 (fun d hd => h1 d (by simp [hd])) (by intro d hd; simp at hd; subst hd; exact hc)) ?_
  refine Eats.lazyAny1 _ 1 (fun u v hu hv => hend (c :: u) v (by rw [hu]; rfl) hv) (fun _ _ => rfl) ?_
  exact Eats.seq (g1 := [(1, c :: x')]) (Eats.plus_chr _ h3 (fun d hd => h1 d (by simp [hd])) (by intro d hd; simp at hd; subst hd; decide)) (Eats.lit _ _ _)

theorem eprint_none {s : Str} (h : ¬ Contains s "\\verb{eprint}".toList) : eprintRe.search s = none := search_end eprint_led (by decide) h

theorem eprint_read {pre ws1 ws2 x ws3 post : Str} (hp : ¬ Contains pre "\\verb{eprint}".toList) (h1 : ∀ c ∈ ws1 ++ ws2 ++ ws3, isSpace c = true) (h2 : ws2 ≠ []) (h3 : ws3 ≠ []) (h4 : x ≠ [])
    (h5 : strip x = x) (h6 : ¬ Contains x "\\endverb".toList) :
    ∃ m, eprintRe.search (pre ++ ("\\verb{eprint}".toList ++ (ws1 ++ ("\\verb".toList ++ (ws2 ++ (x ++ (ws3 ++ ("\\endverb".toList ++ post)))))))) = some m ∧ m.group 1 = some x := by
  have := search_at (a := pre) (rest := post) (by simp only [List.append_assoc]; exact passes_word eprint_word eprint_led hp) (eprint_eats h1 h2 h3 h4 h5 h6)
  simp only [List.append_assoc] at this
  exact ⟨_, this, rfl⟩

/-! Initials and page ranges. -/

theorem wordEnd_eats {s : Str} {g} (h : MayFollow noWord s) : Eats Fmt.wordEnd [] s g g := by
  intro rev
  have : (Re.chr isWord).run ⟨rev, s, g⟩ = [] := Dead.chr isWord (s := s) (fun c hc => by have := h c hc; simpa [noWord] using this) rev g
  show (if ((Re.chr isWord).run ⟨rev, [] ++ s, g⟩).isEmpty then [_] else []).head? = _
  rw [List.nil_append, this]
  rfl

theorem wordEnd_dead {c : Char} {s : Str} (h : isWord c = true) : Dead Fmt.wordEnd (c :: s) := by
  intro rev g
  show (if ((Re.chr isWord).run ⟨rev, c :: s, g⟩).isEmpty then [_] else []) = _
  have : (Re.chr isWord).run ⟨rev, c :: s, g⟩ = [⟨c :: rev, s, g⟩] := by simp [Re.run, h]
  rw [this]
  rfl

theorem blank_dead {x : Str} (h : ∀ c ∈ (x.dropWhile isSpace).head?, isWord c = false) : Dead (.seq (.plus reSpace) (.look (.chr isWord))) x := by
  refine Dead.reassoc ?_
  cases x with
  | nil => exact Dead.seq (Dead.chr _ (by simp))
  | cons b v =>
    cases hb : isSpace b with
    | false => exact Dead.seq (Dead.chr _ (by intro c hc; simp at hc; subst hc; exact hb))
    | true =>
      refine Dead.then_chr hb ?_
      rw [List.dropWhile_cons_of_pos hb] at h
      have hd : ∀ c ∈ (v.dropWhile isSpace).head?, isSpace c = false := by
        intro c hc
        cases he : v.dropWhile isSpace with
        | nil => rw [he] at hc; cases hc
        | cons a t =>
          rw [he] at hc
          simp at hc
          subst hc
          exact dropWhile_head he
      have := Dead.spaces (b := .look (.chr isWord)) (ws := v.takeWhile isSpace) (s := v.dropWhile isSpace) (fun c hc => takeWhile_all _ _ hc) hd
        (fun c t hc => Dead.look (Dead.chr _ (by intro d hd; simp at hd; subst hd; exact space_not_word c hc))) (Dead.look (Dead.chr _ h))
      rw [List.takeWhile_append_dropWhile] at this
      exact this

theorem dash_dead {s : Str} (h : ¬ StartsCommand noWord "\\bibrangedash".toList s) : Dead dashRe s := by
  unfold dashRe
  by_cases hp : "\\bibrangedash".toList <+: s
  · obtain ⟨v, rfl⟩ := hp
    refine Dead.after_lit ?_
    cases v with
    | nil => exact absurd ⟨[], rfl, rfl⟩ h
    | cons c v =>
      have hc : isWord c = true := by
        cases hw : isWord c with
        | true => rfl
        | false => exact absurd ⟨c :: v, rfl, by simp [noWord, hw]⟩ h
      refine Dead.alt (Dead.seq (Dead.seq (Dead.chr _ ?_))) (wordEnd_dead hc)
      intro d hd
      simp at hd
      subst hd
      cases hs : isSpace c with
      | false => rfl
      | true => rw [space_not_word c hs] at hc; cases hc
  · exact Dead.seq (Dead.lit hp)

theorem dashes_sub {s out : Str} (h : Dashes s out) : ∀ rev, dashRe.subAux (fun _ => "--".toList) 0 rev s = out := by
  induction h with
  | nil => intro rev; unfold Re.subAux; rfl
  | keep c s out hn _ ih =>
    intro rev
    rw [Re.subAux_none _ _ c rev s ((dash_dead hn).matchAt rev), ih]
  | wide ws x out h1 h2 h3 _ ih =>
    intro rev
    have he : Eats dashRe ("\\bibrangedash".toList ++ ws) x [] [] := by
      refine Eats.seq (g1 := []) (Eats.lit _ _ _) (Eats.left ?_)
      have : Eats (.seq (.plus reSpace) (.look (.chr isWord))) (ws ++ []) x [] [] := by
        refine Eats.seq (g1 := []) (Eats.plus_chr _ h1 h2 ?_) (Eats.look ?_)
        · obtain ⟨c, hc, hw⟩ := h3
          intro d hd
          rw [List.nil_append, hc] at hd
          cases hd
          cases hs : isSpace c with
          | false => rfl
          | true => rw [space_not_word c hs] at hw; cases hw
        · obtain ⟨c, hc, hw⟩ := h3
          intro rev
          cases x with
          | nil => cases hc
          | cons a x =>
            simp at hc
            subst hc
            simp [Re.run, hw]
      rw [List.append_nil] at this
      exact this
    rw [← List.append_assoc, Re.subAux_match _ _ _ rev _ _ (by simp) (he.matchAt rev) rfl, ih]
  | tight x out h1 h2 _ ih =>
    intro rev
    have he : Eats dashRe ("\\bibrangedash".toList ++ []) x [] [] :=
      Eats.seq (g1 := []) (Eats.lit _ _ _) (Eats.right (blank_dead h2) (wordEnd_eats h1))
    rw [List.append_nil] at he
    rw [Re.subAux_match _ _ _ rev _ _ (by simp) (he.matchAt rev) rfl, ih]

theorem marks_read {s s1 s2 : Str} (h1 : CommandReplaced "\\bibinitperiod".toList ['.'] s s1) (h2 : Dashes s1 s2) : replaceMarks s = s2 := by
  unfold replaceMarks
  rw [show periodRe.sub (fun _ => ['.']) s = s1 from sub_command (w := "bibinitperiod".toList) (by decide) h1]
  exact dashes_sub h2 []

/-! An entry. -/

/-- What is read of an entry. -/
def dictOf (c : BblEntry) : List (Str × Str) :=
  let d := [("key".toList, strip c.key), ("type".toList, strip c.type)]
  let d := if c.authors = [] then d else dictSet d "author".toList (joinWith " and ".toList (c.authors.map authorName))
  let d := c.fields.foldl addRead d
  match c.eprint with
  | some x => dictSet d "eprint".toList x
  | none => d

theorem parseEntry_read {text s : Str} {c : BblEntry} (h : replaceMarks text = s) (w : WrittenEntry c s) : parseEntry text = some (dictOf c) := by
  obtain ⟨h1, h2, h3, h4, opts, body, h5, hs⟩ := w.header
  obtain ⟨m, hm, hk, ht⟩ := header_read (body := body) h1 h2 h3 h4 h5
  rw [← hs] at hm
  have ha : authors s = some (c.authors.map authorName) := by
    rcases w.authors with ⟨hn, he⟩ | ⟨pre, n, o, ws, t, post, he, hp, hw, ht⟩
    · rw [authors_none hn, he]; rfl
    · rw [he]; exact authors_read hp hw ht
  have hf : ∀ d, fields d (fieldRe.findIter 0 [] s) = some (c.fields.foldl addRead d) := fun d => by
    have hv : ∀ R, Passes fieldRe [] R := by
      intro R u v hu hv
      exact absurd (List.append_eq_nil_iff.1 hu.symm).2 hv
    exact fields_read w.fields d [] [] (hv _) hv
  unfold parseEntry
  simp only [h, hm, ha, hf, hk, ht, Option.getD_some]
  unfold dictOf
  have hd : (if (c.authors.map authorName).isEmpty = true then [("key".toList, strip c.key), ("type".toList, strip c.type)]
      else dictSet [("key".toList, strip c.key), ("type".toList, strip c.type)] "author".toList (joinWith " and ".toList (c.authors.map authorName))) =
      if c.authors = [] then [("key".toList, strip c.key), ("type".toList, strip c.type)]
      else dictSet [("key".toList, strip c.key), ("type".toList, strip c.type)] "author".toList (joinWith " and ".toList (c.authors.map authorName)) := by
    cases c.authors <;> rfl
  rw [hd]
  rcases w.eprint with ⟨hn, he⟩ | ⟨pre, ws1, ws2, x, ws3, post, he, hp, hws, h2, h3, h4, h5, h6, hx⟩
  · rw [eprint_none hn, he]
  · obtain ⟨m, hm, hg⟩ := eprint_read (post := post) hp hws h2 h3 h4 h5 h6
    rw [← he] at hm
    simp only [hm, hg, hx, Option.getD_some, h5]

/-! The bibliography. -/

theorem Eats.lazyWord (p : Char → Bool) {l d rest : Str} {g} (h1 : ∀ u v, d = u ++ v → v ≠ [] → ¬ l <+: v ++ (l ++ rest)) (h2 : ∀ x ∈ d, p x = true) :
    Eats (.seq (.lazyStar (.chr p)) (.lit l)) (d ++ l) rest g g := by
  intro rev
  unfold Hd
  show ((iterLazy (Re.chr p).run (d ++ l ++ rest).length ⟨rev, d ++ l ++ rest, g⟩).flatMap (Re.lit l).run).head? = _
  have hmatch : (Re.lit l).run ⟨d.reverse ++ rev, l ++ rest, g⟩ = [⟨l.reverse ++ (d.reverse ++ rev), rest, g⟩] := by
    rw [Re.run_lit, if_pos (by rw [List.isPrefixOf_iff_prefix]; exact ⟨rest, rfl⟩), List.drop_left]
  rw [List.append_assoc, Pre.lazy_flatMap' p (l ++ rest) g _ d rev _ ?_ h2 (by simp) ?_]
  · simp [hmatch]
  · intro u v hd hv
    simp only [Re.run_lit]
    rw [if_neg (by rw [List.isPrefixOf_iff_prefix]; exact h1 u v hd hv)]
  · simp [hmatch]

theorem entry_eats {mid rest : Str} (h : ¬ Contains mid "\\endentry".toList) : Eats entryRe ("\\entry{".toList ++ (mid ++ "\\endentry".toList)) rest [] [] := by
  refine Eats.seq (g1 := []) (Eats.lit _ _ _) (Eats.lazyWord _ ?_ (fun _ _ => rfl))
  intro u v hu hv hp
  obtain ⟨z, hz⟩ := overlap (c := '\\') (w := "endentry".toList) (by decide) hv hp
  exact h ⟨u, z, by rw [hu, ← hz]; simp⟩

theorem convert_read {s : Str} {cs : List BblEntry} (h : BblText s cs) : ∀ rev, ((entryRe.findIter 0 rev s).filterMap fun m => (parseEntry m.text).map regular) = cs.map fun c => regular (dictOf c) := by
  induction h with
  | nil t ht =>
    intro rev
    rw [iter_end (r := entryRe) _ (passes_end (l := "\\entry{".toList) (Led.seq (Led.lit _)) ht)]
    rfl
  | cons pre mid rest c cs s1 s2 h1 h2 h3 h4 h5 _ ih =>
    intro rev
    have e : "\\entry{".toList ++ (mid ++ ("\\endentry".toList ++ rest)) = ("\\entry{".toList ++ (mid ++ "\\endentry".toList)) ++ rest := by simp only [List.append_assoc]
    rw [e, iter_at _ (by simp) (by
      rw [List.append_assoc]
      exact passes_word (c := '\\') (w := "entry{".toList) ⟨rfl, by decide⟩ (Led.seq (Led.lit _)) h1) (entry_eats h2)]
    rw [List.filterMap_cons]
    have ht : Match.text ⟨pre.reverse ++ rev, ("\\entry{".toList ++ (mid ++ "\\endentry".toList)) ++ rest, ("\\entry{".toList ++ (mid ++ "\\endentry".toList)).length, []⟩ = "\\entry{".toList ++ (mid ++ "\\endentry".toList) := List.take_left
    simp only [ht]
    rw [parseEntry_read (marks_read h3 h4) h5]
    simp only [Option.map_some]
    rw [ih]
    rfl

theorem convert_eq {s : Str} {cs : List BblEntry} (h : BblText s cs) : convert s = cs.map fun c => regular (dictOf c) := convert_read h []

end L2J.Bbl
