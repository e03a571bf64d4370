import Verif.Spec.Factory
/-!
C21 Token construction drops only unknown tokens and keeps order: TokenFactory.create turns each dict of a
known type into a token of that type with its content processed recursively in order, passes strings through,
returns nothing for unknown types, and the built document's top level is the in-order sequence of the
constructed tokens.
-/
namespace L2J.Factory
open Spec

variable (scalars : TokenType → Rest → Option Rest)

theorem contentField_cases {t : TokenType} {c c' : Tok} (h : contentField t c = some c') :
    c' = c ∨ c = .absent ∧ (c' = .none ∨ c' = .lst []) := by
  unfold contentField at h
  split at h
  all_goals first
    | (split at h <;> first | (injection h with h; exact Or.inl h.symm) | cases h; done)
    | (split at h
       all_goals first
        | (injection h with h; subst h; simp; done)
        | (split at h <;> first | (injection h with h; exact Or.inl h.symm) | cases h))
    | (injection h with h; exact Or.inl h.symm)

theorem titleField_cases {t : TokenType} {c c' : Tok} (h : titleField t c = some c') (ht : HasTitle t = true) :
    c' = c ∨ c = .absent ∧ c' = .none := by
  unfold titleField at h
  split at h
  all_goals first
    | (split at h <;> first | (injection h with h; exact Or.inl h.symm) | cases h; done)
    | (split at h
       all_goals first
        | (injection h with h; subst h; simp; done)
        | (split at h <;> first | (injection h with h; exact Or.inl h.symm) | cases h))
    | (exfalso; cases t <;> simp_all [HasTitle])

/-- Faithful up to the treatment of an absent key. -/
theorem Kept_field {v : Val} {c c' : Tok} (h : Kept scalars v c) (hc : c' = c ∨ c = .absent ∧ (c' = .none ∨ c' = .lst [])) :
    Kept scalars v c' := by
  rcases hc with rfl | ⟨rfl, h2⟩
  · exact h
  · cases v with
    | absent => simp only [Kept]; exact Or.inr h2
    | none => simp [Kept] at h
    | str s => simp [Kept] at h
    | atom s => simp [Kept] at h
    | lst l => simp [Kept] at h
    | dict ty c ti p pk ph r =>
      cases ty with
      | none => simp [Kept] at h
      | some k => cases k <;> simp [Kept] at h

/-- What the recursive functions guarantee for one value. -/
structure Good (v : Val) : Prop where
  create : ∀ t, Factory.create scalars v = some t → (Typed v = true → Dropped v = false → Kept scalars v t ∧ t.isTok = true) ∧
    (t.isTok = true → Typed v = true ∧ Dropped v = false) ∧ (Dropped v = true → t = .none)
  cont : ∀ t, processContent scalars v = some t → (Dropped v = false → Kept scalars v t) ∧
    (Typed v = true → Dropped v = false → t.isTok = true) ∧ (Dropped v = true → t = .none)
  seq : ∀ l, createSeq scalars v = some (some l) → (∀ t ∈ l, t.isTok = true) → Kept scalars v (.lst l)
  proof : ∀ t t', createProof scalars v = some t → proofField t = some t' →
    Kept scalars v t' ∨ (Typed v = false ∨ Dropped v = true) ∧ t' = .none
  bib : ∀ l, bibItems scalars v = some l → KeptBib scalars v (.lst l)
  table : ∀ l, tabRows scalars v = some l → KeptTable scalars v (.lst l)
  cells : ∀ l, v = .lst l → ∀ ts, tabCells scalars l = some ts → KeptCells scalars l ts
  nested : ∀ l, v = .lst l → ∀ ts, nestedList scalars l = some ts → KeptNested scalars l ts
  inner : ∀ ty c ti p pk ph r, v = .dict ty c ti p pk ph r → ∀ l, c = .lst l → ∀ ts, nestedList scalars l = some ts → KeptNested scalars l ts

structure GoodL (l : List Val) : Prop where
  items : ∀ ts, processItems scalars l = some ts → KeptL scalars l ts
  all : ∀ ts, createAll scalars l = some ts → (∀ t ∈ ts, t.isTok = true) → KeptL scalars l ts
  lists : ∀ ts, createLists scalars l = some ts → KeptLists scalars l ts
  bib : ∀ ts, bibList scalars l = some ts → KeptBibL scalars l ts
  rows : ∀ ts, tabRowList scalars l = some ts → KeptRows scalars l ts
  cells : ∀ ts, tabCells scalars l = some ts → KeptCells scalars l ts
  nested : ∀ ts, nestedList scalars l = some ts → KeptNested scalars l ts

theorem validate_some {t : TokenType} {c ti p : Tok} {pk : Option (List Str)} {ph : List Tok} {r : Rest} {out : Tok}
    (h : validate scalars t c ti p pk ph r = some out) :
    ∃ c' ti' r', contentField t c = some c' ∧ titleField t ti = some ti' ∧ scalars t r = some r' ∧
      out = .tok t c' ti' p pk ph r' := by
  unfold validate at h
  split at h
  · rename_i c' ti' r' h1 h2 h3
    injection h with h
    exact ⟨c', ti', r', h1, h2, h3, h.symm⟩
  · cases h

theorem Kept_list_inv {v : Val} {c : Tok} {l : List Tok} (hc : contentField .math_env (.lst l) = some c) :
    c = .lst l ∧ ∀ t ∈ l, t.isTok = true := by
  unfold contentField at hc
  by_cases h : Tok.isListOf Tok.isTok (.lst l) = true
  · simp only [h, if_true] at hc
    injection hc with hc
    exact ⟨hc.symm, by simpa [Tok.isListOf] using h⟩
  · simp [h] at hc

theorem pick_math (r : Rest) : pick mathKeys r = passed .math_env r := rfl
theorem pick_eq (r : Rest) : pick eqKeys r = passed .equation r := rfl

theorem assemble_good {k : TokenType} {content title proof : Val} {phKeys : Option (List Str)} {phs : List Val} {rest : Rest} {t : Tok}
    (gc : Good scalars content) (gt : Good scalars title) (gp : Good scalars proof) (gl : GoodL scalars phs)
    (h : Factory.create scalars (.dict (some (.known k)) content title proof phKeys phs rest) = some t) :
    Kept scalars (.dict (some (.known k)) content title proof phKeys phs rest) t ∧ t.isTok = true := by
  rw [Factory.create] at h
  unfold assemble at h
  split at h
  · -- tabular
    rw [Option.map_eq_some_iff] at h
    obtain ⟨rows, h1, rfl⟩ := h
    refine ⟨?_, rfl⟩
    simp only [Kept]
    exact ⟨_, _, _, _, _, _, rfl, fun _ => ⟨gc.table _ h1, rfl⟩, by simp, by simp, by simp, by simp⟩
  · -- bibliography
    rw [Option.map_eq_some_iff] at h
    obtain ⟨rows, h1, rfl⟩ := h
    refine ⟨?_, rfl⟩
    simp only [Kept]
    exact ⟨_, _, _, _, _, _, rfl, by simp, fun _ => ⟨gc.bib _ h1, rfl⟩, by simp, by simp, by simp⟩
  · -- equation
    split at h
    · rename_i _ _ phs' s hp
      obtain ⟨c', ti', r', h1, h2, h3, rfl⟩ := validate_some scalars h
      refine ⟨?_, rfl⟩
      have : c' = .str s := by
        rcases contentField_cases h1 with h | h
        · exact h
        · cases h.1
      subst this
      simp only [Kept]
      refine ⟨_, _, _, _, _, _, rfl, by simp, by simp, fun _ _ => ⟨Or.inl (Or.inl rfl), ?_, by simp [HasTitle]⟩, by simp, fun _ => ⟨rfl, gl.lists _ hp⟩⟩
      rw [← pick_eq]; exact h3
    · cases h
  · -- math_env
    split at h
    · rename_i c ti p hc ht hp
      split at h
      · cases h
      · rename_i p' hp'
        obtain ⟨c', ti', r', h1, h2, h3, rfl⟩ := validate_some scalars h
        refine ⟨?_, rfl⟩
        obtain ⟨rfl, hall⟩ := Kept_list_inv (v := content) h1
        simp only [Kept]
        refine ⟨_, _, _, _, _, _, rfl, by simp, by simp, fun _ _ => ⟨?_, ?_, fun _ => ?_⟩, fun _ => gp.proof _ _ hp hp', by simp⟩
        · cases c with
          | some l => exact Or.inl (gc.seq _ hc hall)
          | none =>
            cases content <;> simp [createSeq] at hc
            simp [Kept]
        · rw [← pick_math]; exact h3
        · cases ti with
          | none =>
            cases title <;> simp [createSeq] at ht
            rcases titleField_cases h2 rfl with h | h
            · simp only [Option.map_none, Option.getD_none] at h
              rw [h]; simp [Kept]
            · rw [h.2]; simp [Kept]
          | some l =>
            simp only [Option.map_some, Option.getD_some] at h2
            unfold titleField at h2
            by_cases hl : Tok.isListOf Tok.isTok (.lst l) = true
            · simp only [hl, if_true] at h2
              injection h2 with h2
              subst h2
              exact Or.inl (gt.seq _ ht (by simpa [Tok.isListOf] using hl))
            · simp [hl] at h2
    · cases h
  · -- others
    rename_i hn1 hn2 hn3 hn4
    split at h
    · rename_i c ti hc ht
      obtain ⟨c', ti', r', h1, h2, h3, rfl⟩ := validate_some scalars h
      refine ⟨?_, rfl⟩
      simp only [Kept]
      have e1 : k ≠ .tabular := fun e => hn1 e
      have e2 : k ≠ .bibliography := fun e => hn2 e
      have e3 : k ≠ .equation := fun e => hn3 e
      have e4 : k ≠ .math_env := fun e => hn4 e
      have hpass : passed k rest = rest := by
        unfold passed
        split
        · exact absurd rfl e3
        · exact absurd rfl e4
        · rfl
      have nodrop : ∀ (v : Val) (t t' : Tok), Good scalars v → processContent scalars v = some t →
          (t' = t ∨ t = .absent ∧ (t' = .none ∨ t' = .lst [])) → Kept scalars v t' ∨ Dropped v = true ∧ t' = .none := by
        intro v t t' gv hv ht'
        by_cases hdv : Dropped v = true
        · have := (gv.cont _ hv).2.2 hdv
          subst this
          rcases ht' with h | h
          · exact Or.inr ⟨hdv, h⟩
          · cases h.1
        · exact Or.inl <| Kept_field scalars ((gv.cont _ hv).1 (by simpa using hdv)) ht'
      refine ⟨_, _, _, _, _, _, rfl, fun e => absurd e e1, fun e => absurd e e2, fun _ _ => ⟨?_, ?_, fun hT => ?_⟩,
        fun e => absurd e e4, fun e => absurd e e3⟩
      · exact nodrop _ _ _ gc hc (contentField_cases h1)
      · rw [hpass]; exact h3
      · refine nodrop _ _ _ gt ht ?_
        rcases titleField_cases h2 hT with h | h
        · exact Or.inl h
        · exact Or.inr ⟨h.1, Or.inl h.2⟩
    · cases h

theorem spans_eq (r : Rest) : spans r = spanOf r := rfl

theorem hasKey_span (r : Rest) : (hasKey "rowspan".toList r || hasKey "colspan".toList r) =
    (r.any fun kv => kv.1 == "rowspan".toList || kv.1 == "colspan".toList) := by
  unfold hasKey
  induction r with
  | nil => rfl
  | cons x r ih =>
    simp only [List.any_cons, ← ih]
    generalize (x.1 == "rowspan".toList) = a
    generalize (x.1 == "colspan".toList) = b
    generalize (List.any r fun kv => kv.1 == "rowspan".toList) = c
    generalize (List.any r fun kv => kv.1 == "colspan".toList) = d
    cases a <;> cases b <;> cases c <;> cases d <;> rfl

theorem strItems_isTok {s : Str} (h : ∀ t ∈ strItems s, t.isTok = true) : s = [] := by
  cases s with
  | nil => rfl
  | cons c s =>
    have := h (.str [c]) (by simp [strItems])
    simp [Tok.isTok] at this

mutual
theorem good : ∀ v : Val, Good scalars v
  | .absent => by
    constructor
    · intro t h; simp [Factory.create] at h
    · intro t h; simp [processContent] at h; subst h; simp [Kept, Dropped, Typed]
    · intro l h; simp [createSeq] at h
    · intro t t' h h2; simp [createProof] at h; subst h; simp [proofField] at h2; subst h2; right; simp [Typed]
    · intro l h; simp [bibItems] at h; subst h; simp [KeptBib]
    · intro l h; simp [tabRows] at h
    · simp
    · simp
    · simp
  | .none => by
    constructor
    · intro t h; simp [Factory.create] at h
    · intro t h; simp [processContent] at h; subst h; simp [Kept, Dropped, Typed]
    · intro l h; simp [createSeq] at h
    · intro t t' h h2; simp [createProof] at h
    · intro l h; simp [bibItems] at h
    · intro l h; simp [tabRows] at h
    · simp
    · simp
    · simp
  | .str s => by
    constructor
    · intro t h; simp [Factory.create] at h; subst h; simp [Typed, Dropped, Tok.isTok]
    · intro t h; simp [processContent] at h; subst h; simp [Kept, Dropped, Typed]
    · intro l h hl
      simp only [createSeq, Option.some.injEq] at h
      subst h
      rw [strItems_isTok hl]
      simp [Kept, strItems]
    · intro t t' h h2; simp [createProof] at h; subst h; simp [proofField, Tok.isTokOf] at h2
    · intro l h; simp [bibItems] at h; subst h; simp [KeptBib]
    · intro l h; simp [tabRows] at h
    · simp
    · simp
    · simp
  | .atom s => by
    constructor
    · intro t h; simp [Factory.create] at h
    · intro t h; simp [processContent] at h; subst h; simp [Kept, Dropped, Typed]
    · intro l h; simp [createSeq] at h
    · intro t t' h h2; simp [createProof] at h
    · intro l h; simp [bibItems] at h
    · intro l h; simp [tabRows] at h
    · simp
    · simp
    · simp
  | .lst l => by
    have g := goodL l
    constructor
    · intro t h; simp [Factory.create] at h
    · intro t h
      simp only [processContent, Option.map_eq_some_iff] at h
      obtain ⟨ts, h1, rfl⟩ := h
      simp only [Kept, Dropped, Typed]
      simp [g.items _ h1]
    · intro l' h hl
      simp only [createSeq, Option.map_eq_some_iff, Option.some.injEq] at h
      obtain ⟨ts, h1, rfl⟩ := h
      simp only [Kept]
      exact ⟨_, rfl, g.all _ h1 hl⟩
    · intro t t' h h2; simp [createProof] at h
    · intro l' h
      simp only [bibItems] at h
      simp only [KeptBib]
      exact ⟨_, rfl, g.bib _ h⟩
    · intro l' h
      simp only [tabRows] at h
      simp only [KeptTable]
      exact ⟨_, rfl, g.rows _ h⟩
    · intro l' h ts hts; injection h with h; subst h; exact g.cells _ hts
    · intro l' h ts hts; injection h with h; subst h; exact g.nested _ hts
    · simp
  | .dict ty c ti p pk ph r => by
    have gc := good c
    have gt := good ti
    have gp := good p
    have gl := goodL ph
    have hcreate : ∀ t, Factory.create scalars (.dict ty c ti p pk ph r) = some t →
        (Typed (.dict ty c ti p pk ph r) = true → Dropped (.dict ty c ti p pk ph r) = false →
          Kept scalars (.dict ty c ti p pk ph r) t ∧ t.isTok = true) ∧
        (t.isTok = true → Typed (.dict ty c ti p pk ph r) = true ∧ Dropped (.dict ty c ti p pk ph r) = false) ∧
        (Dropped (.dict ty c ti p pk ph r) = true → t = .none) ∧
        (t.isTok = true ∨ t = .none) := by
      intro t h
      cases ty with
      | none =>
        simp [Factory.create] at h
        subst h
        simp [Typed, Dropped, Tok.isTok]
      | some k =>
        cases k with
        | date => simp [Factory.create] at h; subst h; simp [Dropped, Tok.isTok]
        | unknown s => simp [Factory.create] at h; subst h; simp [Dropped, Tok.isTok]
        | known k =>
          have := assemble_good scalars gc gt gp gl h
          simp [Typed, Dropped, this]
    constructor
    · intro t h
      have := hcreate t h
      exact ⟨this.1, this.2.1, this.2.2.1⟩
    · intro t h
      cases ty with
      | none =>
        simp only [processContent, Option.some.injEq] at h
        subst h
        simp [Kept, Typed, Dropped]
      | some k =>
        simp only [processContent] at h
        have := hcreate t h
        refine ⟨fun hd => (this.1 rfl hd).1, fun ht hd => (this.1 ht hd).2, this.2.2.1⟩
    · intro l h; simp [createSeq] at h
    · intro t t' h h2
      simp only [createProof] at h
      have := hcreate t h
      rcases this.2.2.2 with ht | ht
      · have h3 := this.2.1 ht
        left
        have h4 := this.1 h3.1 h3.2
        unfold proofField at h2
        split at h2
        · simp [Tok.isTok] at ht
        · simp [Tok.isTok] at ht
        · split at h2
          · injection h2 with h2; rw [← h2]; exact h4.1
          · cases h2
      · subst ht
        simp [proofField] at h2
        subst h2
        right
        refine ⟨?_, rfl⟩
        cases ht : Typed (.dict ty c ti p pk ph r) with
        | false => simp
        | true =>
          right
          cases hd : Dropped (.dict ty c ti p pk ph r) with
          | true => rfl
          | false => exact absurd (this.1 ht hd).2 (by simp [Tok.isTok])
    · intro l h; simp [bibItems] at h
    · intro l h; simp [tabRows] at h
    · simp
    · simp
    · intro ty' c' ti' p' pk' ph' r' h l hl ts hts
      injection h with _ h
      subst h
      exact gc.nested _ hl _ hts
theorem goodL : ∀ l : List Val, GoodL scalars l
  | [] => by
    constructor
    · intro ts h; simp [processItems] at h; subst h; simp [KeptL]
    · intro ts h _; simp [createAll] at h; subst h; simp [KeptL]
    · intro ts h; simp [createLists] at h; subst h; simp [KeptLists]
    · intro ts h; simp [bibList] at h; subst h; simp [KeptBibL]
    · intro ts h; simp [tabRowList] at h; subst h; simp [KeptRows]
    · intro ts h; simp [tabCells] at h; subst h; simp [KeptCells]
    · intro ts h; simp [nestedList] at h; subst h; simp [KeptNested]
  | x :: xs => by
    have g := good x
    have gs := goodL xs
    constructor
    · intro ts h
      rw [processItems] at h
      split at h
      · rename_i t ts' h1 h2
        have hx := g.cont _ h1
        have hr := gs.items _ h2
        simp only [KeptL]
        split at h
        · rename_i k c ti p pk ph r
          injection h with h
          by_cases hd : Dropped (.dict (some k) c ti p pk ph r) = true
          · have := hx.2.2 hd
            subst this
            simp only [consSome] at h
            subst h
            exact Or.inl ⟨hd, hr⟩
          · simp only [Bool.not_eq_true] at hd
            have ht := hx.2.1 rfl hd
            right
            refine ⟨hd, t, ts', ?_, hx.1 hd, hr⟩
            rw [← h]
            cases t <;> simp [consSome, Tok.isTok] at ht ⊢
        · rename_i hne
          injection h with h
          have hd : Dropped x = false := by
            cases x with
            | dict ty c ti p pk ph r =>
              cases ty with
              | none => rfl
              | some k => exact absurd rfl (hne k c ti p pk ph r)
            | _ => rfl
          exact Or.inr ⟨hd, t, ts', h.symm, hx.1 hd, hr⟩
      · cases h
    · intro ts h hall
      rw [createAll] at h
      split at h
      · rename_i t ts' h1 h2
        injection h with h
        subst h
        have hx := g.create _ h1
        have ht := hx.2.1 (hall t (by simp))
        simp only [KeptL]
        right
        exact ⟨ht.2, t, ts', rfl, (hx.1 ht.1 ht.2).1, gs.all _ h2 (fun y hy => hall y (by simp [hy]))⟩
      · cases h
    · intro ts h
      rw [createLists] at h
      split at h
      · rename_i l ts' h1 h2
        split at h
        · rename_i hl
          injection h with h
          simp only [KeptLists]
          exact ⟨_, _, h.symm, g.seq _ h1 (by simpa using hl), gs.lists _ h2⟩
        · cases h
      · cases h
    · intro ts h
      unfold bibList at h
      simp only [KeptBibL]
      split at h
      · rename_i c t p k ph r
        split at h
        · rename_i t' ts' h1 h2
          injection h with h
          left
          exact ⟨rfl, t', ts', h.symm, ((g.create _ h1).1 rfl rfl).1, gs.bib _ h2⟩
        · cases h
      · rename_i hne
        right
        refine ⟨?_, gs.bib _ h⟩
        unfold IsBibitem
        split
        · exact absurd rfl (hne _ _ _ _ _ _)
        · rfl
    · intro ts h
      unfold tabRowList at h
      split at h
      · rename_i cells rs h2
        split at h
        · rename_i r h1
          injection h with h
          simp only [KeptRows]
          exact ⟨r, rs, h.symm, by simp only [KeptRow]; exact g.cells _ rfl _ h1, gs.rows _ h2⟩
        · cases h
      · cases h
    · intro ts h
      rw [tabCells] at h
      split at h
      · cases h
      · rename_i ts' h2
        have hr := gs.cells _ h2
        simp only [KeptCells]
        split at h
        · injection h with h
          exact Or.inr ⟨rfl, _, _, h.symm, Or.inr (Or.inr ⟨rfl, by simp [KeptCell]⟩), hr⟩
        · injection h with h
          exact Or.inr ⟨rfl, _, _, h.symm, Or.inr (Or.inr ⟨rfl, by simp [KeptCell]⟩), hr⟩
        · injection h with h
          exact Or.inr ⟨rfl, _, _, h.symm, Or.inr (Or.inr ⟨rfl, by simp [KeptCell]⟩), hr⟩
        · injection h with h
          subst h
          exact Or.inl ⟨rfl, hr⟩
        · rename_i l
          rw [Option.map_eq_some_iff] at h
          obtain ⟨l', h1, h⟩ := h
          exact Or.inr ⟨rfl, _, _, h.symm, Or.inr (Or.inr ⟨rfl, by simp only [KeptCell]; exact ⟨_, rfl, g.nested _ rfl _ h1⟩⟩), hr⟩
        · rename_i k c t p pk ph r
          rw [Option.map_eq_some_iff] at h
          obtain ⟨t', h1, h⟩ := h
          have hx := g.create _ h1
          refine Or.inr ⟨rfl, _, _, h.symm, ?_, hr⟩
          by_cases hd : Dropped (.dict (some k) c t p pk ph r) = true
          · exact Or.inl ⟨hd, hx.2.2 hd⟩
          · simp only [Bool.not_eq_true] at hd
            exact Or.inr (Or.inl ⟨rfl, hd, (hx.1 rfl hd).1⟩)
        · rename_i c _ _ _ _ r
          rw [hasKey_span] at h
          split at h
          · rename_i hk
            have hnc : NoCell (.dict none c ‹_› ‹_› ‹_› ‹_› r) = false := by simp only [NoCell, hk]; rfl
            right
            split at h
            · rename_i l
              rw [Option.map_eq_some_iff] at h
              obtain ⟨l', h1, h⟩ := h
              refine ⟨hnc, _, _, h.symm, Or.inr (Or.inr ⟨rfl, ?_⟩), hr⟩
              simp only [KeptCell]
              exact ⟨_, by rw [← spans_eq], _, rfl, g.inner _ _ _ _ _ _ _ rfl _ rfl _ h1⟩
            · injection h with h
              refine ⟨hnc, _, _, h.symm, Or.inr (Or.inr ⟨rfl, ?_⟩), hr⟩
              simp only [KeptCell]
              exact ⟨_, by rw [← spans_eq], rfl⟩
            · injection h with h
              refine ⟨hnc, _, _, h.symm, Or.inr (Or.inr ⟨rfl, ?_⟩), hr⟩
              simp only [KeptCell]
              exact ⟨_, by rw [← spans_eq], rfl⟩
            · cases h
          · rename_i hk
            injection h with h
            subst h
            left
            refine ⟨?_, hr⟩
            simp only [Bool.not_eq_true] at hk
            simp only [NoCell, hk]; rfl
    · intro ts h
      rw [nestedList] at h
      split at h
      · cases h
      · rename_i ts' h2
        have hr := gs.nested _ h2
        simp only [KeptNested]
        split at h
        · rename_i k c t p pk ph r
          rw [Option.map_eq_some_iff] at h
          obtain ⟨t', h1, h⟩ := h
          have hx := g.create _ h1
          refine Or.inr ⟨by simp, _, _, h.symm, ?_, hr⟩
          by_cases hd : Dropped (.dict (some k) c t p pk ph r) = true
          · exact Or.inl ⟨hd, hx.2.2 hd⟩
          · simp only [Bool.not_eq_true] at hd
            exact Or.inr (Or.inl ⟨rfl, hd, (hx.1 rfl hd).1⟩)
        · injection h with h
          exact Or.inr ⟨by simp, _, _, h.symm, Or.inr (Or.inr ⟨rfl, by simp only [KeptIn]⟩), hr⟩
        · rw [Option.map_eq_some_iff] at h
          obtain ⟨l', h1, h⟩ := h
          exact Or.inr ⟨by simp, _, _, h.symm, Or.inr (Or.inr ⟨rfl, by simp only [KeptIn]; exact ⟨_, rfl, g.nested _ rfl _ h1⟩⟩), hr⟩
        · injection h with h
          exact Or.inr ⟨by simp, _, _, h.symm, Or.inr (Or.inr ⟨rfl, by simp only [KeptIn]⟩), hr⟩
        · injection h with h
          exact Or.inr ⟨by simp, _, _, h.symm, Or.inr (Or.inr ⟨rfl, by simp only [KeptIn]⟩), hr⟩
        · injection h with h
          exact Or.inr ⟨by simp, _, _, h.symm, Or.inr (Or.inr ⟨rfl, by simp only [KeptIn]⟩), hr⟩
        · injection h with h
          subst h
          exact Or.inl ⟨rfl, hr⟩
end

theorem processContent_str {v : Val} (h : IsStr v) : ∃ s, v = .str s ∧ processContent scalars v = some (.str s) := by
  obtain ⟨s, rfl⟩ := h
  exact ⟨s, rfl, by simp [processContent]⟩

/-- The elements of a processed list come from the elements of the list. -/
theorem processItems_all (p : Val → Prop) (q : Tok → Bool)
    (hpq : ∀ x t, p x → Dropped x = false → processContent scalars x = some t → q t = true) :
    ∀ (l : List Val) (ts : List Tok), processItems scalars l = some ts → (∀ x ∈ l, p x) → ts.all q = true := by
  intro l
  induction l with
  | nil => intro ts h _; simp [processItems] at h; subst h; rfl
  | cons x xs ih =>
    intro ts h hp
    rw [processItems] at h
    split at h
    · rename_i t ts' h1 h2
      have hr := ih ts' h2 (fun y hy => hp y (by simp [hy]))
      have hx := (good scalars x).cont _ h1
      by_cases hd : Dropped x = true
      · have := hx.2.2 hd
        subst this
        split at h
        · injection h with h; simp only [consSome] at h; subst h; exact hr
        · rename_i hne
          exfalso
          cases x with
          | dict ty c ti p pk ph r =>
            cases ty with
            | none => simp [Dropped] at hd
            | some k => exact hne k c ti p pk ph r rfl
          | _ => simp [Dropped] at hd
      · simp only [Bool.not_eq_true] at hd
        have hq := hpq x t (hp x (by simp)) hd h1
        split at h
        · injection h with h
          have ht := hx.2.1 rfl hd
          have : consSome t ts' = t :: ts' := by cases t <;> simp [consSome, Tok.isTok] at ht ⊢
          rw [this] at h
          subst h
          simp [hq, hr]
        · injection h with h
          subst h
          simp [hq, hr]
    · cases h

theorem processItems_typed {l : List Val} {ts : List Tok} (h : processItems scalars l = some ts)
    (hp : ∀ x ∈ l, Typed x = true) : Tok.isListOf Tok.isTok (.lst ts) = true :=
  processItems_all scalars (fun x => Typed x = true) Tok.isTok
    (fun x _ hx hd h1 => ((good scalars x).cont _ h1).2.1 hx hd) l ts h hp

theorem processContent_listOf {p : Val → Prop} {v : Val} (h : ListOf p v) {t : Tok} (ht : processContent scalars v = some t) :
    ∃ l ts, v = .lst l ∧ (∀ x ∈ l, p x) ∧ processItems scalars l = some ts ∧ t = .lst ts := by
  obtain ⟨l, rfl, hl⟩ := h
  simp only [processContent, Option.map_eq_some_iff] at ht
  obtain ⟨ts, h1, rfl⟩ := ht
  exact ⟨l, ts, rfl, hl, h1, rfl⟩

theorem processContent_typed {v : Val} (h : ListOf (fun x => Typed x = true) v) {t : Tok} (ht : processContent scalars v = some t) :
    Tok.isListOf Tok.isTok t = true := by
  obtain ⟨l, ts, rfl, hl, h1, rfl⟩ := processContent_listOf scalars h ht
  exact processItems_typed scalars h1 hl

theorem processContent_isStr {v : Val} (h : IsStr v) {t : Tok} (ht : processContent scalars v = some t) : t.isStr = true := by
  obtain ⟨s, rfl, h1⟩ := processContent_str scalars h
  rw [h1] at ht; injection ht with ht; subst ht; rfl

theorem processContent_absent {t : Tok} (ht : processContent scalars .absent = some t) : t = .absent := by
  simp [processContent] at ht; exact ht.symm

theorem contentField_ok {k : TokenType} {v : Val} {c : Tok} (hs : ContentShape k v) (hc : processContent scalars v = some c)
    (hk : k ≠ .tabular ∧ k ≠ .bibliography ∧ k ≠ .equation ∧ k ≠ .math_env) : ∃ c', contentField k c = some c' := by
  have one : IsStr v → c.isStr = true := fun h => processContent_isStr scalars h hc
  have two : ListOf (fun x => Typed x = true) v → Tok.isListOf Tok.isTok c = true := fun h => processContent_typed scalars h hc
  have three : v = .absent → c = .absent := by rintro rfl; exact processContent_absent scalars hc
  have four : v = .none → c = .none := by rintro rfl; simp [processContent] at hc; exact hc.symm
  have five : ListOf IsStr v → Tok.isListOf Tok.isStr c = true := by
    intro h
    obtain ⟨l, ts, rfl, hl, h1, rfl⟩ := processContent_listOf scalars h hc
    exact processItems_all scalars IsStr Tok.isStr (fun x t hx _ ht => processContent_isStr scalars hx ht) l ts h1 hl
  have six : ListOf (ListOf fun x => Typed x = true) v → Tok.isListOf (Tok.isListOf Tok.isTok) c = true := by
    intro h
    obtain ⟨l, ts, rfl, hl, h1, rfl⟩ := processContent_listOf scalars h hc
    exact processItems_all scalars (ListOf fun x => Typed x = true) (Tok.isListOf Tok.isTok)
      (fun x t hx _ ht => processContent_typed scalars hx ht) l ts h1 hl
  have seven : ListOf (fun x => Dropped x = true ∨ TypedAs .item x = true) v → Tok.isListOf (Tok.isTokOf .item) c = true := by
    intro h
    obtain ⟨l, ts, rfl, hl, h1, rfl⟩ := processContent_listOf scalars h hc
    refine processItems_all scalars _ (Tok.isTokOf .item) ?_ l ts h1 hl
    intro x t hx hd ht
    rcases hx with hx | hx
    · rw [hd] at hx; cases hx
    · have := ((good scalars x).cont _ ht).1 hd
      cases x with
      | dict ty c ti p pk ph r =>
        cases ty with
        | none => simp [TypedAs] at hx
        | some k =>
          cases k with
          | known k =>
            simp only [TypedAs, decide_eq_true_eq] at hx
            subst hx
            simp only [Kept] at this
            obtain ⟨_, _, _, _, _, _, rfl, _⟩ := this
            simp [Tok.isTokOf]
          | _ => simp [TypedAs] at hx
      | _ => simp [TypedAs] at hx
  cases k <;> simp only [ContentShape] at hs <;> simp only [contentField]
  all_goals first
    | (have hz := one hs; exact ⟨c, by simp only [hz, if_true]⟩)
    | (have hz := two hs; exact ⟨c, by simp only [hz, if_true]⟩)
    | (have hz := five hs; exact ⟨c, by simp only [hz, if_true]⟩)
    | (have hz := six hs; exact ⟨c, by simp only [hz, if_true]⟩)
    | exact absurd rfl hk.1
    | exact absurd rfl hk.2.1
    | exact absurd rfl hk.2.2.1
    | exact absurd rfl hk.2.2.2
    | (rcases hs with hs | hs | hs
       · have := one hs
         cases c <;> simp [Tok.isStr] at this ⊢
       · rw [three hs]; exact ⟨_, rfl⟩
       · rw [four hs]; exact ⟨_, rfl⟩)
    | (rcases hs with hs | hs
       · rw [three hs]; exact ⟨_, rfl⟩
       · have := two hs
         cases c <;> simp [Tok.isListOf] at this ⊢
         exact this)
    | (rcases hs with hs | hs
       · rw [three hs]; exact ⟨_, rfl⟩
       · have := seven hs
         cases c <;> simp [Tok.isListOf] at this ⊢
         exact this)
    | (rcases hs with hs | hs
       · exact ⟨c, by simp [one hs]⟩
       · exact ⟨c, by simp [two hs]⟩)

theorem titleField_ok {k : TokenType} {v : Val} {c : Tok} (hs : TitleShape k v) (hc : processContent scalars v = some c)
    (hk : k ≠ .math_env) : ∃ c', titleField k c = some c' := by
  have one : IsStr v → c.isStr = true := fun h => processContent_isStr scalars h hc
  have two : ListOf (fun x => Typed x = true) v → Tok.isListOf Tok.isTok c = true := fun h => processContent_typed scalars h hc
  have three : v = .absent → c = .absent := by rintro rfl; exact processContent_absent scalars hc
  cases k <;> simp only [TitleShape] at hs <;> simp only [titleField]
  all_goals first
    | exact ⟨_, rfl⟩
    | (have hz := two hs; exact ⟨c, by simp only [hz, if_true]⟩)
    | exact absurd rfl hk
    | (rcases hs with hs | hs | hs
       · rw [three hs]; exact ⟨_, rfl⟩
       · have := one hs
         cases c <;> simp [Tok.isStr] at this ⊢
       · have := two hs
         cases c <;> simp [Tok.isListOf, Tok.isStr] at this ⊢
         exact this)
    | (rcases hs with hs | hs
       · rw [three hs]; exact ⟨_, rfl⟩
       · have := two hs
         cases c <;> simp [Tok.isListOf] at this ⊢
         exact this)
    | (rcases hs with hs | hs
       · rw [three hs]; exact ⟨_, rfl⟩
       · have := one hs
         cases c <;> simp [Tok.isStr] at this ⊢)

/-- The condition on table cells: an untyped dict holds a string, nothing or a list. -/
def CellOk (x : Val) : Prop :=
  ∀ c ti p pk ph r, x = .dict none c ti p pk ph r → IsStr c ∨ c = .none ∨ ∃ l, c = .lst l

structure OkV (v : Val) : Prop where
  create : Typed v = true → ∃ t, Factory.create scalars v = some t
  cont : ∃ t, processContent scalars v = some t
  seq : ListOf (fun x => Typed x = true ∧ Dropped x = false) v → ∃ l, createSeq scalars v = some (some l) ∧ ∀ t ∈ l, t.isTok = true
  bib : (v = .absent ∨ ∃ l, v = .lst l) → ∃ l, bibItems scalars v = some l
  table : ListOf (ListOf CellOk) v → ∃ l, tabRows scalars v = some l
  cells : ∀ l, v = .lst l → (∀ x ∈ l, CellOk x) → ∃ ts, tabCells scalars l = some ts
  nested : ∀ l, v = .lst l → ∃ ts, nestedList scalars l = some ts
  inner : ∀ ty c ti p pk ph r, v = .dict ty c ti p pk ph r → ∀ l, c = .lst l → ∃ ts, nestedList scalars l = some ts

structure OkL (l : List Val) : Prop where
  items : ∃ ts, processItems scalars l = some ts
  all : (∀ x ∈ l, Typed x = true ∧ Dropped x = false) → ∃ ts, createAll scalars l = some ts ∧ ∀ t ∈ ts, t.isTok = true
  lists : (∀ x ∈ l, ListOf (fun y => Typed y = true ∧ Dropped y = false) x) → ∃ ts, createLists scalars l = some ts
  bib : ∃ ts, bibList scalars l = some ts
  rows : (∀ x ∈ l, ListOf CellOk x) → ∃ ts, tabRowList scalars l = some ts
  cells : (∀ x ∈ l, CellOk x) → ∃ ts, tabCells scalars l = some ts
  nested : ∃ ts, nestedList scalars l = some ts

theorem assemble_ok {k : TokenType} {c ti p : Val} {pk : Option (List Str)} {ph : List Val} {r : Rest}
    (gc : OkV scalars c) (gt : OkV scalars ti) (gp : OkV scalars p) (gl : OkL scalars ph)
    (h1 : ContentShape k c) (h2 : TitleShape k ti)
    (h3 : k ≠ .tabular → k ≠ .bibliography → ∃ r', scalars k (passed k r) = some r')
    (h4 : k = .math_env → p = .absent ∨ TypedAs .math_env p = true)
    (h5 : k = .equation → ∀ x ∈ ph, ListOf (fun y => Typed y = true ∧ Dropped y = false) x) :
    ∃ t, Factory.create scalars (.dict (some (.known k)) c ti p pk ph r) = some t := by
  rw [Factory.create]
  unfold assemble
  split
  · obtain ⟨l, hl⟩ := gc.table h1
    rw [hl]; exact ⟨_, rfl⟩
  · obtain ⟨l, hl⟩ := gc.bib h1
    rw [hl]; exact ⟨_, rfl⟩
  · obtain ⟨s, rfl⟩ := h1
    obtain ⟨l, hl⟩ := gl.lists (h5 rfl)
    obtain ⟨r', hr⟩ := h3 (by simp) (by simp)
    rw [hl]
    simp only [validate, contentField, titleField, Tok.isStr, if_true, pick_eq, hr]
    exact ⟨_, rfl⟩
  · obtain ⟨lc, hc, hct⟩ := gc.seq h1
    obtain ⟨r', hr⟩ := h3 (by simp) (by simp)
    have hcf : contentField .math_env (.lst lc) = some (.lst lc) := by
      have : Tok.isListOf Tok.isTok (.lst lc) = true := by simpa [Tok.isListOf] using hct
      simp [contentField, this]
    have htf : ∃ ts, createSeq scalars ti = some ts ∧ ∃ ti', titleField .math_env ((ts.map Tok.lst).getD .absent) = some ti' := by
      rcases h2 with rfl | h2
      · exact ⟨none, by simp [createSeq], _, rfl⟩
      · obtain ⟨lt, ht, htt⟩ := gt.seq h2
        refine ⟨some lt, ht, .lst lt, ?_⟩
        have : Tok.isListOf Tok.isTok (.lst lt) = true := by simpa [Tok.isListOf] using htt
        simp [titleField, this]
    have hpf : ∃ p1 p2, createProof scalars p = some p1 ∧ proofField p1 = some p2 := by
      rcases h4 rfl with rfl | hp
      · exact ⟨.absent, .none, by simp [createProof], rfl⟩
      · cases p with
        | dict ty c' ti' p' pk' ph' r' =>
          cases ty with
          | none => simp [TypedAs] at hp
          | some kk =>
            cases kk with
            | known kk =>
              simp only [TypedAs, decide_eq_true_eq] at hp
              subst hp
              obtain ⟨t, ht⟩ := gp.create rfl
              have := ((good scalars _).create _ ht).1 rfl rfl
              simp only [Kept] at this
              obtain ⟨⟨_, _, _, _, _, _, rfl, _⟩, _⟩ := this
              exact ⟨_, _, by rw [createProof]; exact ht, by simp only [proofField, Tok.isTokOf, decide_true, if_true]; rfl⟩
            | _ => simp [TypedAs] at hp
        | _ => simp [TypedAs] at hp
    obtain ⟨ts, hts, ti', hti'⟩ := htf
    obtain ⟨p1, p2, hp1, hp2⟩ := hpf
    rw [hc, hts, hp1]
    simp only [hp2, Option.getD_some]
    simp only [validate, hcf, hti', pick_math, hr]
    exact ⟨_, rfl⟩
  · rename_i e1 e2 e3 e4
    have e1' : k ≠ .tabular := fun e => e1 e
    have e2' : k ≠ .bibliography := fun e => e2 e
    have e3' : k ≠ .equation := fun e => e3 e
    have e4' : k ≠ .math_env := fun e => e4 e
    obtain ⟨c', hc⟩ := gc.cont
    obtain ⟨t', ht⟩ := gt.cont
    obtain ⟨c'', hcf⟩ := contentField_ok scalars h1 hc ⟨e1', e2', e3', e4'⟩
    obtain ⟨t'', htf⟩ := titleField_ok scalars h2 ht e4'
    obtain ⟨r', hr⟩ := h3 e1' e2'
    have hpass : passed k r = r := by
      unfold passed
      split
      · exact absurd rfl e3'
      · exact absurd rfl e4'
      · rfl
    rw [hpass] at hr
    rw [hc, ht]
    simp only [validate, hcf, htf, hr]
    exact ⟨_, rfl⟩

mutual
theorem okV : ∀ v : Val, WellFormed scalars v → OkV scalars v
  | .absent, _ => by
    constructor
    · simp [Typed]
    · exact ⟨_, by simp only [processContent]; rfl⟩
    · rintro ⟨l, h, _⟩; cases h
    · intro _; exact ⟨[], by simp [bibItems]⟩
    · rintro ⟨l, h, _⟩; cases h
    · simp
    · simp
    · simp
  | .none, _ => by
    constructor
    · simp [Typed]
    · exact ⟨_, by simp only [processContent]; rfl⟩
    · rintro ⟨l, h, _⟩; cases h
    · simp
    · rintro ⟨l, h, _⟩; cases h
    · simp
    · simp
    · simp
  | .str s, _ => by
    constructor
    · simp [Typed]
    · exact ⟨_, by simp only [processContent]; rfl⟩
    · rintro ⟨l, h, _⟩; cases h
    · simp
    · rintro ⟨l, h, _⟩; cases h
    · simp
    · simp
    · simp
  | .atom s, _ => by
    constructor
    · simp [Typed]
    · exact ⟨_, by simp only [processContent]; rfl⟩
    · rintro ⟨l, h, _⟩; cases h
    · simp
    · rintro ⟨l, h, _⟩; cases h
    · simp
    · simp
    · simp
  | .lst l, h => by
    unfold WellFormed at h
    have g := okL l h
    constructor
    · simp [Typed]
    · obtain ⟨ts, hts⟩ := g.items
      exact ⟨.lst ts, by simp [processContent, hts]⟩
    · rintro ⟨l', h', hl⟩
      injection h' with h'; subst h'
      obtain ⟨ts, hts, ht⟩ := g.all hl
      exact ⟨ts, by simp [createSeq, hts], ht⟩
    · intro _
      obtain ⟨ts, hts⟩ := g.bib
      exact ⟨ts, by simp [bibItems, hts]⟩
    · rintro ⟨l', h', hl⟩
      injection h' with h'; subst h'
      obtain ⟨ts, hts⟩ := g.rows hl
      exact ⟨ts, by simp [tabRows, hts]⟩
    · intro l' h' hl; injection h' with h'; subst h'; exact g.cells hl
    · intro l' h'; injection h' with h'; subst h'; exact g.nested
    · simp
  | .dict ty c ti p pk ph r, h => by
    unfold WellFormed at h
    obtain ⟨w1, w2, w3, w4, hk⟩ := h
    have gc := okV c w1
    have gt := okV ti w2
    have gp := okV p w3
    have gl := okL ph w4
    have hcreate : ∃ t, Factory.create scalars (.dict ty c ti p pk ph r) = some t := by
      cases ty with
      | none => exact ⟨.none, by simp [Factory.create]⟩
      | some k =>
        cases k with
        | date => exact ⟨.none, by simp [Factory.create]⟩
        | unknown s => exact ⟨.none, by simp [Factory.create]⟩
        | known k =>
          obtain ⟨h1, h2, h3, h4, h5⟩ := hk k rfl
          exact assemble_ok scalars gc gt gp gl h1 h2 h3 h4 h5
    constructor
    · exact fun _ => hcreate
    · cases ty with
      | none => exact ⟨_, by simp only [processContent]; rfl⟩
      | some k => simp only [processContent]; exact hcreate
    · rintro ⟨l, h, _⟩; cases h
    · simp
    · rintro ⟨l, h, _⟩; cases h
    · simp
    · simp
    · intro ty' c' ti' p' pk' ph' r' h l hl
      injection h with _ h
      subst h
      exact gc.nested _ hl
theorem okL : ∀ l : List Val, WellFormedL scalars l → OkL scalars l
  | [], _ => by
    constructor
    · exact ⟨[], by simp [processItems]⟩
    · intro _; exact ⟨[], by simp [createAll]⟩
    · intro _; exact ⟨[], by simp [createLists]⟩
    · exact ⟨[], by simp [bibList]⟩
    · intro _; exact ⟨[], by simp [tabRowList]⟩
    · intro _; exact ⟨[], by simp [tabCells]⟩
    · exact ⟨[], by simp [nestedList]⟩
  | x :: xs, h => by
    unfold WellFormedL at h
    have g := okV x h.1
    have gs := okL xs h.2
    constructor
    · obtain ⟨t, ht⟩ := g.cont
      obtain ⟨ts, hts⟩ := gs.items
      rw [processItems, ht, hts]
      simp only []
      split <;> exact ⟨_, rfl⟩
    · intro hl
      have hx := hl x (by simp)
      obtain ⟨t, ht⟩ := g.create hx.1
      obtain ⟨ts, hts, hall⟩ := gs.all (fun y hy => hl y (by simp [hy]))
      refine ⟨t :: ts, by rw [createAll, ht, hts], ?_⟩
      intro y hy
      rcases List.mem_cons.1 hy with rfl | hy
      · exact (((good scalars x).create _ ht).1 hx.1 hx.2).2
      · exact hall y hy
    · intro hl
      obtain ⟨l, h1, h2⟩ := g.seq (hl x (by simp))
      obtain ⟨ts, hts⟩ := gs.lists (fun y hy => hl y (by simp [hy]))
      rw [createLists, h1, hts]
      simp only []
      rw [if_pos (by simpa using h2)]
      exact ⟨_, rfl⟩
    · obtain ⟨ts, hts⟩ := gs.bib
      unfold bibList
      split
      · obtain ⟨t, ht⟩ := g.create rfl
        rw [ht, hts]; exact ⟨_, rfl⟩
      · exact ⟨ts, hts⟩
    · intro hl
      obtain ⟨ts, hts⟩ := gs.rows (fun y hy => hl y (by simp [hy]))
      obtain ⟨l, rfl, hc⟩ := hl x (by simp)
      obtain ⟨r, hr⟩ := g.cells _ rfl hc
      unfold tabRowList
      rw [hts]
      simp only [hr]
      exact ⟨_, rfl⟩
    · intro hl
      obtain ⟨ts, hts⟩ := gs.cells (fun y hy => hl y (by simp [hy]))
      rw [tabCells, hts]
      simp only []
      split
      · exact ⟨_, rfl⟩
      · exact ⟨_, rfl⟩
      · exact ⟨_, rfl⟩
      · exact ⟨_, rfl⟩
      · obtain ⟨l', hl'⟩ := g.nested _ rfl
        rw [hl']; exact ⟨_, rfl⟩
      · obtain ⟨t, ht⟩ := g.create rfl
        rw [ht]; exact ⟨_, rfl⟩
      · split
        · rcases hl _ List.mem_cons_self _ _ _ _ _ _ rfl with ⟨s, rfl⟩ | rfl | ⟨l, rfl⟩
          · exact ⟨_, rfl⟩
          · exact ⟨_, rfl⟩
          · obtain ⟨l', hl'⟩ := g.inner _ _ _ _ _ _ _ rfl _ rfl
            simp only [hl']; exact ⟨_, rfl⟩
        · exact ⟨_, rfl⟩
    · obtain ⟨ts, hts⟩ := gs.nested
      rw [nestedList, hts]
      simp only []
      split
      · obtain ⟨t, ht⟩ := g.create rfl
        rw [ht]; exact ⟨_, rfl⟩
      · exact ⟨_, rfl⟩
      · obtain ⟨l', hl'⟩ := g.nested _ rfl
        rw [hl']; exact ⟨_, rfl⟩
      · exact ⟨_, rfl⟩
      · exact ⟨_, rfl⟩
      · exact ⟨_, rfl⟩
      · exact ⟨_, rfl⟩
end

/-! ## The property -/

/-- Strings pass through, dicts of unknown type give nothing, and whatever is made of a dict of known type is a
token of that type with the dict's content, in order (`Spec.Kept`). `scalars` is pydantic's treatment of the
scalar fields, about which nothing is assumed. -/
theorem C21_create (v : Val) (t : Tok) (h : create scalars v = some t) :
    (∀ s, v = .str s → t = .str s) ∧
    (Dropped v = true ∨ (∃ c ti p pk ph r, v = .dict none c ti p pk ph r) → t = .none) ∧
    (Typed v = true → Dropped v = false → Kept scalars v t) := by
  have g := (good scalars v).create t h
  refine ⟨?_, ?_, fun h1 h2 => (g.1 h1 h2).1⟩
  · rintro s rfl
    simp [create] at h; exact h.symm
  · rintro (h1 | ⟨c, ti, p, pk, ph, r, rfl⟩)
    · exact g.2.2 h1
    · simp [create] at h; exact h.symm

/-- Dicts of unknown type and strings never raise. -/
theorem C21_unknown_ok (v : Val) (h : Dropped v = true ∨ ∃ s, v = .str s) : ∃ t, create scalars v = some t := by
  rcases h with h | ⟨s, rfl⟩
  · cases v with
    | dict ty c ti p pk ph r =>
      cases ty with
      | none => simp [Dropped] at h
      | some k =>
        cases k with
        | known k => simp [Dropped] at h
        | _ => exact ⟨_, by simp only [create]; rfl⟩
    | _ => simp [Dropped] at h
  · exact ⟨_, by simp only [create]; rfl⟩

/-- A dict of known type with the documented shape (recursively) does become a token. -/
theorem C21_create_total (k : TokenType) (c ti p : Val) (pk : Option (List Str)) (ph : List Val) (r : Rest)
    (h : WellFormed scalars (.dict (some (.known k)) c ti p pk ph r)) :
    ∃ t, create scalars (.dict (some (.known k)) c ti p pk ph r) = some t ∧
      Kept scalars (.dict (some (.known k)) c ti p pk ph r) t := by
  obtain ⟨t, ht⟩ := (okV scalars _ h).create rfl
  exact ⟨t, ht, (C21_create scalars _ _ ht).2.2 rfl rfl⟩

/-- The built document is the in-order sequence of the constructed top-level tokens. -/
theorem C21_build (doc : List Val) (out : List Tok) (h : buildAll scalars doc = some out) : KeptTop scalars doc out := by
  induction doc generalizing out with
  | nil => simp [buildAll] at h; subst h; simp [KeptTop]
  | cons x xs ih =>
    rw [buildAll] at h
    split at h
    · rename_i t ts h1 h2
      have hr := ih _ h2
      have g := (good scalars x).create t h1
      simp only [KeptTop]
      have hstr : ∀ s, x = .str s → t = .str s := (C21_create scalars _ _ h1).1
      by_cases hd : Typed x = true ∧ Dropped x = false
      · have hk := g.1 hd.1 hd.2
        have : ∀ s, x ≠ .str s := by rintro s rfl; simp [Typed] at hd
        right
        refine ⟨Or.inl hd, t, ts, ?_, hk.1, hr⟩
        have ht := hk.2
        cases t <;> simp [Tok.isTok] at ht
        simp only [Option.some.injEq] at h
        exact h.symm
      · cases x with
        | str s =>
          have := hstr s rfl
          subst this
          cases s with
          | nil =>
            simp only [Option.some.injEq] at h
            subst h
            exact Or.inl ⟨Or.inr (Or.inl rfl), hr⟩
          | cons c s =>
            simp only [Option.some.injEq] at h
            right
            exact ⟨Or.inr ⟨_, rfl, by simp⟩, _, _, h.symm, by simp [Kept], hr⟩
        | dict ty c ti p pk ph r =>
          have ht : t = .none := by
            cases ty with
            | none => simp [create] at h1; exact h1.symm
            | some k =>
              cases k with
              | known k => simp [Typed, Dropped] at hd
              | _ => simp [create] at h1; exact h1.symm
          subst ht
          simp only [Option.some.injEq] at h
          subst h
          left
          refine ⟨?_, hr⟩
          cases hT : Typed (.dict ty c ti p pk ph r) with
          | false => right; right; exact ⟨rfl, by simp⟩
          | true =>
            left
            cases hD : Dropped (.dict ty c ti p pk ph r) with
            | true => rfl
            | false => exact absurd ⟨hT, hD⟩ hd
        | _ => simp [create] at h1
    · cases h

/-- Unlike other containers, a theorem-like environment does not drop tokens of unknown type: any such token
directly inside it makes the whole build fail (tokens/base.py:84-86 appends `None`, which `List[BaseToken]`
rejects). -/
theorem C21_mathenv_unknown_raises (l : List Val) (x : Val) (hx : x ∈ l) (hd : Dropped x = true)
    (ti p : Val) (pk : Option (List Str)) (ph : List Val) (r : Rest) :
    create scalars (.dict (some (.known .math_env)) (.lst l) ti p pk ph r) = none := by
  have key : ∀ (l : List Val) (ts : List Tok), x ∈ l → createAll scalars l = some ts → Tok.none ∈ ts := by
    intro l
    induction l with
    | nil => intro ts h; cases h
    | cons y ys ih =>
      intro ts hm h
      rw [createAll] at h
      split at h
      · rename_i t ts' h1 h2
        injection h with h
        subst h
        rcases List.mem_cons.1 hm with rfl | hm
        · rw [((good scalars x).create _ h1).2.2 hd]; simp
        · exact List.mem_cons_of_mem _ (ih _ hm h2)
      · cases h
  rw [create]
  simp only [assemble, createSeq]
  cases hc : createAll scalars l with
  | none => simp
  | some ts =>
    have := key l ts hx hc
    simp only [Option.map_some]
    split
    · rename_i c ti' p' hc' _ _
      split
      · rfl
      · injection hc' with hc'; subst hc'
        simp only [Option.getD_some, validate, contentField]
        have hf : Tok.isListOf Tok.isTok (.lst ts) = false := by
          simp only [Tok.isListOf, List.all_eq_false]
          exact ⟨.none, this, by simp [Tok.isTok]⟩
        simp [hf]
    · rfl

/-- Tables lose their labels and styles (tokens/tabular.py:93 passes on the content only). -/
theorem C21_table_attributes_lost (c ti p : Val) (pk : Option (List Str)) (ph : List Val) (r : Rest) (t : Tok)
    (h : create scalars (.dict (some (.known .tabular)) c ti p pk ph r) = some t) :
    ∃ rows, t = .tok .tabular (.lst rows) .absent .absent none [] [] := by
  rw [create] at h
  simp only [assemble, Option.map_eq_some_iff] at h
  obtain ⟨rows, _, h⟩ := h
  exact ⟨rows, h.symm⟩

/-- A section with text, an unknown token and a theorem: well-formed, and the unknown token disappears. -/
example :
    let tx (s : String) : Val := .dict (some (.known .text)) (.str s.toList) .absent .absent none [] []
    let unk : Val := .dict (some (.unknown "label".toList)) (.str "l".toList) .absent .absent none [] []
    let v : Val := .dict (some (.known .section)) (.lst [tx "a", unk, .dict (some (.known .math_env)) (.lst [tx "b"]) .absent .absent none [] []])
      (.lst [tx "t"]) .absent none [] []
    let s : TokenType → Rest → Option Rest := fun _ r => some r
    WellFormed s v ∧ create s v =
      some (.tok .section (.lst [.tok .text (.str "a".toList) .absent .absent none [] [],
        .tok .math_env (.lst [.tok .text (.str "b".toList) .absent .absent none [] []]) .none .none none [] []])
        (.lst [.tok .text (.str "t".toList) .absent .absent none [] []]) .absent none [] []) := by
  constructor
  · simp [WellFormed, WellFormedL, ContentShape, TitleShape, ListOf, IsStr, Typed, Dropped]
  · simp [create, assemble, processContent, processItems, createSeq, createAll, createProof, consSome, validate,
      contentField, titleField, proofField, Tok.isStr, Tok.isTok, Tok.isListOf, pick]

end L2J.Factory
