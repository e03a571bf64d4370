import Verif.Model.Symbols
import Verif.Spec.Symbols
import Verif.Props.C29
import Verif.Props.C49
/-! C68: commands for characters. -/
namespace L2J.Sym
open Cmds (isLetter) 
open L2J.Spec

theorem wordLike_iff (k : Str) : wordLike k = true ↔ NameLike k := by
  unfold wordLike NameLike
  cases h : k.getLast? with
  | none => simp
  | some c => simp

theorem matchKey_none {k s : Str} (h : ¬ StandsAt k s) : matchKey k s = none := by
  unfold matchKey
  split
  · rename_i hp
    split
    · rename_i hw
      simp only
      split
      · rename_i hb
        refine absurd ⟨List.isPrefixOf_iff_prefix.1 hp, fun _ c hc => ?_⟩ h
        obtain ⟨u, hu⟩ := List.isPrefixOf_iff_prefix.1 hb
        rw [← hu] at hc
        simp at hc
        subst hc; decide
      · split
        · rfl
        · rename_i hl
          refine absurd ⟨List.isPrefixOf_iff_prefix.1 hp, fun _ c hc => ?_⟩ h
          rw [Option.mem_def.1 hc] at hl
          simpa using hl
    · rename_i hw
      exact absurd ⟨List.isPrefixOf_iff_prefix.1 hp, fun hn => absurd ((wordLike_iff k).2 hn) hw⟩ h
  · rename_i hp
    exact rfl

theorem matchKey_some {k br rest : Str} (h : StandsAt k (k ++ (br ++ rest))) (hb : NameLike k ∧ br = "{}".toList ∨ br = [] ∧ (NameLike k → ¬ "{}".toList <+: rest)) :
    matchKey k (k ++ (br ++ rest)) = some (k ++ br).length := by
  unfold matchKey
  have hp : k.isPrefixOf (k ++ (br ++ rest)) = true := List.isPrefixOf_iff_prefix.2 ⟨_, rfl⟩
  rw [if_pos hp, List.drop_left]
  rcases hb with ⟨h1, rfl⟩ | ⟨rfl, h1⟩
  · rw [if_pos ((wordLike_iff k).2 h1)]
    simp only
    rw [if_pos (List.isPrefixOf_iff_prefix.2 ⟨rest, rfl⟩)]
    simp
  · by_cases hw : wordLike k = true
    · rw [if_pos hw]
      simp only
      have hn := (wordLike_iff k).1 hw
      have hb : ¬ "{}".toList.isPrefixOf ([] ++ rest) = true := fun hh => h1 hn (List.isPrefixOf_iff_prefix.1 hh)
      rw [if_neg hb]
      have := h.2 hn
      rw [List.drop_left] at this
      rw [if_neg]
      · simp
      · cases hr : ([] ++ rest : Str).head? with
        | none => simp
        | some c => rw [hr] at this; simp [this c rfl]
    · rw [if_neg hw]; simp

/-- No command of the table is written here. -/
theorem symbol_none {t : List (Str × Str)} {s : Str} {p : Nat} (h : ∀ e ∈ t, passOf e.1 = p → ¬ StandsAt e.1 s) : symbol t p s = none := by
  unfold symbol
  have : matchAny (keysOf t p) s = none := by
    have hk : ∀ k ∈ keysOf t p, ¬ StandsAt k s := by
      intro k hk
      unfold keysOf at hk
      simp only [List.mem_filter, List.mem_map, Bool.and_eq_true, beq_iff_eq] at hk
      obtain ⟨⟨e, he, rfl⟩, _, hp⟩ := hk
      exact h e he hp
    generalize keysOf t p = l at hk
    induction l with
    | nil => rfl
    | cons k l ih =>
      rw [matchAny, matchKey_none (hk k (by simp))]
      exact ih fun k' hk' => hk k' (by simp [hk'])
  rw [this]; rfl

theorem holds_iff (sub : Str) (hs : sub ≠ []) : ∀ s : Str, holds sub s = true ↔ Contains s sub
  | [] => by
    unfold holds
    constructor
    · intro h; exact absurd (List.isEmpty_iff.1 h) hs
    · rintro ⟨a, b, e⟩
      simp at e
      exact absurd e.2.1 hs
  | c :: s => by
    unfold holds
    rw [Bool.or_eq_true, holds_iff sub hs s]
    constructor
    · rintro (h | ⟨a, b, rfl⟩)
      · obtain ⟨u, hu⟩ := List.isPrefixOf_iff_prefix.1 h
        exact ⟨[], u, by simpa using hu.symm⟩
      · exact ⟨c :: a, b, by simp⟩
    · rintro ⟨a, b, e⟩
      cases a with
      | nil => exact .inl (List.isPrefixOf_iff_prefix.2 ⟨b, by simpa using e.symm⟩)
      | cons x a => simp at e; exact .inr ⟨a, b, by simpa using e.2⟩

theorem passOf_pos (k : Str) : 1 ≤ passOf k ∧ passOf k ≤ 5 := by
  unfold passOf
  repeat' split
  all_goals omega

/-- A command that begins like a longer one is not replaced before it. -/
theorem passOf_prefix {e k : Str} (h : e <+: k) : passOf k ≤ passOf e := by
  have tr : ∀ w : Str, w.isPrefixOf e = true → w.isPrefixOf k = true := fun w hw => List.isPrefixOf_iff_prefix.2 ((List.isPrefixOf_iff_prefix.1 hw).trans h)
  have hf : holds "font".toList e = true → holds "font".toList k = true := by
    rw [holds_iff _ (by decide), holds_iff _ (by decide)]
    rintro ⟨a, b, rfl⟩
    obtain ⟨u, rfl⟩ := h
    exact ⟨a, b ++ u, by simp⟩
  unfold passOf
  split
  · split <;> first | omega | (repeat' split) <;> omega
  · rename_i h1
    rw [if_neg fun hh => h1 (tr _ hh)]
    split
    · repeat' split
      all_goals omega
    · rename_i h2
      rw [if_neg fun hh => h2 (tr _ hh)]
      split
      · repeat' split
        all_goals omega
      · rename_i h3
        rw [if_neg fun hh => h3 (tr _ hh)]
        split
        · split <;> omega
        · rename_i h4
          rw [if_neg fun hh => h4 (hf hh)]; exact Nat.le_refl _

theorem early_of {k : Str} (h : passOf k < 5) : Early k := by
  unfold passOf at h
  unfold Early
  split at h
  · rename_i h1; exact .inl (List.isPrefixOf_iff_prefix.1 h1)
  · split at h
    · rename_i h1; exact .inr (.inl (List.isPrefixOf_iff_prefix.1 h1))
    · split at h
      · rename_i h1; exact .inr (.inr (.inl (List.isPrefixOf_iff_prefix.1 h1)))
      · split at h
        · rename_i h1; exact .inr (.inr (.inr ((holds_iff _ (by decide) _).1 h1)))
        · omega

theorem symbol_some {t : List (Str × Str)} (ht : SymbolTable t) {k v br rest : Str} {a b : List (Str × Str)} (e : t = a ++ (k, v) :: b) (ha : ∀ e ∈ a, ¬ StandsAt e.1 (k ++ (br ++ rest)))
    (hw : StandsAt k (k ++ (br ++ rest))) (hb : NameLike k ∧ br = "{}".toList ∨ br = [] ∧ (NameLike k → ¬ "{}".toList <+: rest)) (hs : strip k = k) (hn : ¬ "{}".toList <:+ k) :
    symbol t (passOf k) (k ++ (br ++ rest)) = some ((k ++ br).length, v) := by
  have hk := ht (k, v) (by rw [e]; simp)
  have h1 : matchAny (keysOf t (passOf k)) (k ++ (br ++ rest)) = some (k ++ br).length := by
    have : ∃ l l', keysOf t (passOf k) = l ++ k :: l' ∧ ∀ x ∈ l, ¬ StandsAt x (k ++ (br ++ rest)) := by
      refine ⟨keysOf a (passOf k), keysOf b (passOf k), ?_, fun x hx => ?_⟩
      · unfold keysOf
        have : ((k.head? == some '\\' || k.head? == some '{') && passOf k == passOf k) = true := by
          rcases hk.2 with h | h <;> simp only at h <;> simp [h]
        rw [e, List.map_append, List.filter_append, List.map_cons, List.filter_cons_of_pos (by exact this)]
      · unfold keysOf at hx
        simp only [List.mem_filter, List.mem_map] at hx
        obtain ⟨⟨y, hy, rfl⟩, _⟩ := hx
        exact ha y hy
    obtain ⟨l, l', e1, e2⟩ := this
    rw [e1]
    clear e1
    induction l with
    | nil => rw [List.nil_append, matchAny, matchKey_some hw hb]
    | cons x l ih =>
      rw [List.cons_append, matchAny, matchKey_none (e2 x (by simp))]
      exact ih fun y hy => e2 y (by simp [hy])
  have h2 : lookup t k = some v := by
    unfold lookup
    rw [e, List.find?_append, List.find?_eq_none.2, Option.none_or, List.find?_cons_of_pos (by simp)]
    · rfl
    · intro x hx hh
      refine ha x hx ?_
      rw [beq_iff_eq.1 hh]; exact hw
  unfold symbol
  rw [h1, Option.map_some]
  have h3 : (k ++ (br ++ rest)).take (k ++ br).length = k ++ br := by rw [← List.append_assoc, List.take_left]
  rw [h3]
  have h4 : symbolOf t (k ++ br) = v := by
    unfold symbolOf
    rcases hb with ⟨_, rfl⟩ | ⟨rfl, _⟩
    · have hst : strip (k ++ "{}".toList) = k ++ "{}".toList := by
        have hl : (k ++ "{}".toList).getLast? = some '}' := by rw [List.getLast?_append]; rfl
        rcases hk.2 with h | h <;> simp only at h
        · exact Tab.strip_ends_eq (c := '\\') (d := '}') (by decide) (by decide) (by rw [List.head?_append, h]; rfl) hl
        · exact Tab.strip_ends_eq (c := '{') (d := '}') (by decide) (by decide) (by rw [List.head?_append, h]; rfl) hl
      simp only [hst]
      have he : endsWith (k ++ "{}".toList) "{}".toList = true := List.isSuffixOf_iff_suffix.2 ⟨k, rfl⟩
      rw [if_pos he]
      have : (k ++ "{}".toList).take ((k ++ "{}".toList).length - 2) = k := by
        rw [List.length_append, show "{}".toList.length = 2 from rfl, Nat.add_sub_cancel, List.take_left]
      rw [this, hs, h2]; rfl
    · rw [List.append_nil]
      simp only [hs]
      have he : ¬ endsWith k "{}".toList = true := fun hh => hn (List.isSuffixOf_iff_suffix.1 hh)
      rw [if_neg he, h2]; rfl
  rw [h4]

/-! ### Passes -/

theorem sub_drop (f : Str → Option (Nat × Str)) : ∀ (x r : Str), sub f x.length (x ++ r) = sub f 0 r
  | [], r => rfl
  | c :: x, r => by rw [List.cons_append, List.length_cons, sub, sub_drop f x r]

theorem sub_hit (f : Str → Option (Nat × Str)) {x r v : Str} (hx : x ≠ []) (h : f (x ++ r) = some (x.length, v)) : sub f 0 (x ++ r) = v ++ sub f 0 r := by
  cases x with
  | nil => exact absurd rfl hx
  | cons c x =>
    rw [List.cons_append] at h ⊢
    rw [sub, h]
    simp only [List.length_cons, Nat.add_sub_cancel]
    rw [sub_drop]

theorem sub_miss (f : Str → Option (Nat × Str)) {c : Char} {s : Str} (h : f (c :: s) = none) : sub f 0 (c :: s) = c :: sub f 0 s := by
  rw [sub, h]

theorem sub_through (f : Str → Option (Nat × Str)) (r : Str) : ∀ (x : Str), (∀ a b, x = a ++ b → b ≠ [] → f (b ++ r) = none) → sub f 0 (x ++ r) = x ++ sub f 0 r
  | [], _ => rfl
  | c :: x, h => by
    rw [List.cons_append, sub_miss f (c := c) (s := x ++ r) (h [] (c :: x) rfl (by simp)), sub_through f r x (fun a b e hb => h (c :: a) b (by rw [e]; rfl) hb)]
    rfl

/-- The second text is the first one with some commands replaced. -/
inductive Like : Str → Str → Prop
  | nil : Like [] []
  | same (c : Char) {s s' : Str} : Like s s' → Like (c :: s) (c :: s')
  | other (x v : Str) {s s' : Str} : (x.head? = some '\\' ∨ x.head? = some '{') → v ≠ [] → (∀ c ∈ v, Foreign c) → Like s s' → Like (x ++ s) (v ++ s')

theorem Like.prepend {s s' : Str} (h : Like s s') : ∀ x : Str, Like (x ++ s) (x ++ s')
  | [] => h
  | c :: x => .same c (h.prepend x)

theorem Like.split {s s' : Str} (h : Like s s') : ∀ k : Str, (∀ c ∈ k, c.toNat < 128) → k <+: s' → ∃ r r', s = k ++ r ∧ s' = k ++ r' ∧ Like r r' := by
  induction h with
  | nil =>
    rintro k _ ⟨u, hu⟩
    obtain rfl : k = [] := by simp at hu; exact hu.1
    exact ⟨[], [], rfl, rfl, .nil⟩
  | same c hs ih =>
    rintro k hk ⟨u, hu⟩
    cases k with
    | nil => exact ⟨_, _, rfl, rfl, .same c hs⟩
    | cons d k =>
      obtain ⟨rfl, e⟩ : d = c ∧ k ++ u = _ := by simpa using hu
      obtain ⟨r, r', e1, e2, e3⟩ := ih k (fun x hx => hk x (by simp [hx])) ⟨u, e⟩
      exact ⟨r, r', by rw [e1]; rfl, by rw [e2]; rfl, e3⟩
  | other x v hx hv hf hs ih =>
    rintro k hk ⟨u, hu⟩
    cases k with
    | nil => exact ⟨_, _, rfl, rfl, .other x v hx hv hf hs⟩
    | cons d k =>
      cases v with
      | nil => exact absurd rfl hv
      | cons y v =>
        obtain ⟨rfl, _⟩ : d = y ∧ k ++ u = _ := by simpa using hu
        have h1 := hk d (by simp)
        have h2 := hf d (by simp)
        unfold Foreign at h2
        omega

theorem letter_ascii {c : Char} (h : isLetter c = true) : c.toNat < 128 := by
  unfold isLetter at h
  simp only [Bool.or_eq_true, Bool.and_eq_true, decide_eq_true_eq] at h
  have : ∀ a b : Char, a ≤ b → a.toNat ≤ b.toNat := fun a b h => h
  rcases h with ⟨_, h⟩ | ⟨_, h⟩
  · have := this _ _ h; have : 'z'.toNat = 122 := rfl; omega
  · have := this _ _ h; have : 'Z'.toNat = 90 := rfl; omega

theorem Like.letter {s s' : Str} (h : Like s s') {c : Char} (hc : isLetter c = true) : s.head? = some c ↔ s'.head? = some c := by
  cases h with
  | nil => rfl
  | same d _ => simp
  | other x v hx hv hf _ =>
    constructor
    · intro e
      exfalso
      rcases hx with hx | hx <;> (rw [List.head?_append, hx] at e; cases e; exact absurd hc (by decide))
    · intro e
      exfalso
      cases v with
      | nil => exact hv rfl
      | cons y v =>
        have h1 := hf y (by simp)
        obtain rfl : y = c := by simpa using e
        have := letter_ascii hc
        unfold Foreign at h1
        omega

theorem Like.written {s s' k : Str} (h : Like s s') (hk : ∀ c ∈ k, c.toNat < 128) (hw : StandsAt k s') : StandsAt k s := by
  obtain ⟨r, r', e1, e2, e3⟩ := h.split k hk hw.1
  refine ⟨⟨r, e1.symm⟩, fun hn c hc => ?_⟩
  have := hw.2 hn
  rw [e2, List.drop_left] at this
  rw [e1, List.drop_left] at hc
  cases hl : isLetter c with
  | false => rfl
  | true => exact (this c ((e3.letter hl).1 hc)).symm.trans hl |>.symm

theorem written_kept {k br r r' : Str} (h : Like r r') (hw : StandsAt k (k ++ (br ++ r))) (hb : br = [] ∨ br = "{}".toList) : StandsAt k (k ++ (br ++ r')) := by
  refine ⟨⟨_, rfl⟩, fun hn c hc => ?_⟩
  have := hw.2 hn
  rw [List.drop_left] at this hc
  rcases hb with rfl | rfl
  · cases hl : isLetter c with
    | false => rfl
    | true => exact (this c ((h.letter hl).2 hc)).symm.trans hl |>.symm
  · cases hc; decide

/-- A text in which the commands of the first passes are replaced. -/
inductive Stage (t : List (Str × Str)) (p : Nat) : Str → Str → Prop
  | nil : Stage t p [] []
  | char (c : Char) (s out : Str) : (∀ e ∈ t, ¬ StandsAt e.1 (c :: s)) → Stage t p s out → Stage t p (c :: s) (c :: out)
  | symbol (k v br rest out : Str) (a b : List (Str × Str)) : p ≤ passOf k → t = a ++ (k, v) :: b → (∀ e ∈ a, ¬ StandsAt e.1 (k ++ (br ++ rest))) → (∀ e ∈ t, StandsAt e.1 (k ++ (br ++ rest)) → e.1.length ≤ k.length) →
      StandsAt k (k ++ (br ++ rest)) → (NameLike k ∧ br = "{}".toList ∨ br = [] ∧ (NameLike k → ¬ "{}".toList <+: rest)) →
      (∀ x y, k ++ br = x ++ y → x ≠ [] → y ≠ [] → ∀ e ∈ t, ¬ StandsAt e.1 (y ++ rest)) →
      strip k = k → ¬ "{}".toList <:+ k → (Early k → v ≠ [] ∧ ∀ c ∈ v, Foreign c) → Stage t p rest out → Stage t p (k ++ (br ++ rest)) (v ++ out)

theorem foreign_unwritten {t : List (Str × Str)} (ht : SymbolTable t) {c : Char} (hc : Foreign c) (s : Str) : ∀ e ∈ t, ¬ StandsAt e.1 (c :: s) := by
  rintro e he ⟨⟨u, hu⟩, _⟩
  unfold Foreign at hc
  rcases (ht e he).2 with h | h
  all_goals
    cases hk : e.1 with
    | nil => rw [hk] at h; cases h
    | cons d k =>
      rw [hk] at h hu
      simp at h hu
      rw [← hu.1, h] at hc
      exact absurd hc (by decide)

theorem Stage.chars {t : List (Str × Str)} (ht : SymbolTable t) {p : Nat} {s out : Str} (h : Stage t p s out) : ∀ v : Str, (∀ c ∈ v, Foreign c) → Stage t p (v ++ s) (v ++ out)
  | [], _ => h
  | c :: v, hv => .char c _ _ (foreign_unwritten ht (hv c (by simp)) _) (h.chars ht v fun d hd => hv d (by simp [hd]))

theorem ascii_braces : ∀ c ∈ "{}".toList, c.toNat < 128 := by decide

theorem Stage.like {t : List (Str × Str)} (ht : SymbolTable t) {q : Nat} {k v br rest rest' out : Str} {a b : List (Str × Str)} (hp : q ≤ passOf k) (e : t = a ++ (k, v) :: b)
    (h1 : ∀ e ∈ a, ¬ StandsAt e.1 (k ++ (br ++ rest))) (h2 : ∀ e ∈ t, StandsAt e.1 (k ++ (br ++ rest)) → e.1.length ≤ k.length)
    (h3 : StandsAt k (k ++ (br ++ rest))) (h4 : NameLike k ∧ br = "{}".toList ∨ br = [] ∧ (NameLike k → ¬ "{}".toList <+: rest))
    (h5 : ∀ x y, k ++ br = x ++ y → x ≠ [] → y ≠ [] → ∀ e ∈ t, ¬ StandsAt e.1 (y ++ rest)) (h6 : strip k = k) (h7 : ¬ "{}".toList <:+ k) (h8 : Early k → v ≠ [] ∧ ∀ c ∈ v, Foreign c)
    (hl : Like rest rest') (hs : Stage t q rest' out) : Stage t q (k ++ (br ++ rest')) (v ++ out) := by
  have hlk : Like (k ++ (br ++ rest)) (k ++ (br ++ rest')) := (hl.prepend br).prepend k
  refine .symbol k v br rest' out a b hp e (fun x hx hw => h1 x hx (hlk.written (ht x (by rw [e]; simp [hx])).1 hw)) (fun x hx hw => h2 x hx (hlk.written (ht x hx).1 hw))
    (written_kept hl h3 (h4.elim (fun h => .inr h.2) fun h => .inl h.1)) ?_ (fun x y e' hx hy z hz hw => h5 x y e' hx hy z hz ((hl.prepend y).written (ht z hz).1 hw)) h6 h7 h8 hs
  rcases h4 with h | ⟨h, h'⟩
  · exact .inl h
  · refine .inr ⟨h, fun hn hw => h' hn ?_⟩
    obtain ⟨r, _, e1, _, _⟩ := hl.split _ ascii_braces hw
    exact ⟨r, e1.symm⟩

/-- No command of an earlier pass is found in a command. -/
theorem kept_through {t : List (Str × Str)} {p : Nat} {k br rest : Str} (hp : p < passOf k) (h2 : ∀ e ∈ t, StandsAt e.1 (k ++ (br ++ rest)) → e.1.length ≤ k.length)
    (h5 : ∀ x y, k ++ br = x ++ y → x ≠ [] → y ≠ [] → ∀ e ∈ t, ¬ StandsAt e.1 (y ++ rest)) : sub (symbol t p) 0 (k ++ (br ++ rest)) = k ++ (br ++ sub (symbol t p) 0 rest) := by
  rw [← List.append_assoc, ← List.append_assoc]
  refine sub_through _ rest (k ++ br) fun x y e hy => symbol_none fun z hz hpz hw => ?_
  cases x with
  | nil =>
    rw [List.nil_append] at e
    rw [← e, List.append_assoc] at hw
    have h3 := h2 z hz hw
    have : z.1 <+: k := List.prefix_of_prefix_length_le hw.1 ⟨_, rfl⟩ h3
    have := passOf_prefix this
    omega
  | cons c x => exact h5 (c :: x) y e (by simp) hy z hz hw

theorem key_ne {t : List (Str × Str)} (ht : SymbolTable t) {k v : Str} {a b : List (Str × Str)} (e : t = a ++ (k, v) :: b) : k.head? = some '\\' ∨ k.head? = some '{' := (ht (k, v) (by rw [e]; simp)).2

/-- One of the first passes. -/
theorem pass_stage {t : List (Str × Str)} (ht : SymbolTable t) {p : Nat} (hp : p < 5) {s out : Str} (h : Stage t p s out) : Like s (sub (symbol t p) 0 s) ∧ Stage t (p + 1) (sub (symbol t p) 0 s) out := by
  induction h with
  | nil => exact ⟨.nil, .nil⟩
  | char c s out hw _ ih =>
    rw [sub_miss _ (symbol_none fun e he _ => hw e he)]
    exact ⟨.same c ih.1, .char c _ _ (fun e he hh => hw e he ((Like.same c ih.1).written (ht e he).1 hh)) ih.2⟩
  | symbol k v br rest out a b hk e h1 h2 h3 h4 h5 h6 h7 h8 _ ih =>
    by_cases hpk : passOf k = p
    · obtain ⟨g1, g2⟩ := h8 (early_of (by omega))
      have hs := symbol_some ht e h1 h3 h4 h6 h7
      rw [hpk] at hs
      have hne : k ++ br ≠ [] := by rcases key_ne ht e with h | h <;> (intro hh; simp at hh; rw [hh.1] at h; cases h)
      have := sub_hit (symbol t p) (x := k ++ br) (r := rest) hne (by rw [List.append_assoc]; exact hs)
      rw [List.append_assoc] at this
      rw [this]
      refine ⟨?_, ih.2.chars ht v g2⟩
      rw [← List.append_assoc]
      refine .other _ v ?_ g1 g2 ih.1
      rcases key_ne ht e with h | h
      · exact .inl (by rw [List.head?_append, h]; rfl)
      · exact .inr (by rw [List.head?_append, h]; rfl)
    · rw [kept_through (by omega) h2 h5]
      exact ⟨(ih.1.prepend br).prepend k, Stage.like ht (by omega) e h1 h2 h3 h4 h5 h6 h7 h8 ih.1 ih.2⟩

/-- The last pass. -/
theorem pass_last {t : List (Str × Str)} (ht : SymbolTable t) {s out : Str} (h : Stage t 5 s out) : sub (symbol t 5) 0 s = out := by
  induction h with
  | nil => rfl
  | char c s out hw _ ih => rw [sub_miss _ (symbol_none fun e he _ => hw e he), ih]
  | symbol k v br rest out a b hk e h1 h2 h3 h4 h5 h6 h7 h8 _ ih =>
    have hs := symbol_some ht e h1 h3 h4 h6 h7
    rw [Nat.le_antisymm (passOf_pos k).2 hk] at hs
    have hne : k ++ br ≠ [] := by rcases key_ne ht e with h | h <;> (intro hh; simp at hh; rw [hh.1] at h; cases h)
    have := sub_hit (symbol t 5) (x := k ++ br) (r := rest) hne (by rw [List.append_assoc]; exact hs)
    rw [List.append_assoc] at this
    rw [this, ih]

/-! ### Escapes -/

theorem hex_val {c : Char} {v : Nat} (h : HexVal c v) : isHex c = true ∧ hexDigit c = v := by
  have key : ∀ v < 16, (∀ c ∈ "0123456789abcdef".toList[v]?, isHex c = true ∧ hexDigit c = v) ∧ ∀ c ∈ "0123456789ABCDEF".toList[v]?, isHex c = true ∧ hexDigit c = v := by decide +kernel
  rcases h with h | h
  · have hv : v < 16 := (List.getElem?_eq_some_iff.1 h).1
    exact (key v hv).1 c h
  · have hv : v < 16 := (List.getElem?_eq_some_iff.1 h).1
    exact (key v hv).2 c h

theorem hex_iff (c : Char) : isHex c = true ↔ HexDigit c := by
  constructor
  · intro h
    have key : ∀ n < 128, isHex (Char.ofNat n) = true → ∃ v < 16, "0123456789abcdef".toList[v]? = some (Char.ofNat n) ∨ "0123456789ABCDEF".toList[v]? = some (Char.ofNat n) := by decide +kernel
    have hn : c.toNat < 128 := by
      unfold isHex Char.isDigit at h
      simp only [Bool.or_eq_true, Bool.and_eq_true, decide_eq_true_eq] at h
      have le : ∀ a b : Char, a ≤ b → a.toNat ≤ b.toNat := fun a b h => h
      rcases h with (⟨_, h⟩ | ⟨_, h⟩) | ⟨_, h⟩
      · have : c.toNat ≤ 57 := h
        omega
      · have := le _ _ h; have : 'f'.toNat = 102 := rfl; omega
      · have := le _ _ h; have : 'F'.toNat = 70 := rfl; omega
    obtain ⟨v, _, hv⟩ := key c.toNat hn (by rw [Char.ofNat_toNat]; exact h)
    rw [Char.ofNat_toNat] at hv
    exact ⟨v, hv⟩
  · rintro ⟨v, hv⟩
    exact (hex_val hv).1

theorem hex_number {d : Str} {n : Nat} (h : HexNumber d n) : hexValue d = n ∧ ∀ c ∈ d, isHex c = true := by
  induction h with
  | nil => exact ⟨rfl, by simp⟩
  | snoc d n c v _ hv ih =>
    obtain ⟨h1, h2⟩ := hex_val hv
    refine ⟨?_, fun x hx => ?_⟩
    · unfold hexValue at ih ⊢
      rw [List.foldl_append, ih.1, List.foldl_cons, List.foldl_nil, h2]
    · rcases List.mem_append.1 hx with h | h
      · exact ih.2 x h
      · rw [List.mem_singleton.1 h]; exact h1

theorem escape_none {s : Str} (h : ¬ EscapeAt s) : escape s = none := by
  unfold escape
  have : escapeDigits s = none := by
    unfold escapeDigits
    split
    · rename_i r
      simp only
      split
      · rename_i hd
        refine absurd ⟨((r.take 6).takeWhile isHex).take 4, r.drop 4, ?_, ?_, ?_⟩ h
        · have h1 : ((r.take 6).takeWhile isHex).take 4 = r.take 4 := by
            have hp : (r.take 6).takeWhile isHex <+: r := (List.takeWhile_prefix _).trans (List.take_prefix 6 r)
            obtain ⟨u, hu⟩ := hp
            conv => rhs; rw [← hu]
            rw [List.take_append_of_le_length hd]
          rw [h1, List.take_append_drop]
        · rw [List.length_take]; omega
        · intro c hc
          exact (hex_iff c).1 (List.all_eq_true.1 List.all_takeWhile c (List.mem_of_mem_take hc))
      · rfl
    · rfl
  rw [this]; rfl

theorem escape_some {d rest : Str} {c : Char} (h1 : 4 ≤ d.length) (h2 : d.length ≤ 6) (h3 : d.length < 6 → ∀ x ∈ rest.head?, ¬ HexDigit x) (h4 : HexNumber d c.toNat) :
    escape ('\\' :: 'u' :: (d ++ rest)) = some (('\\' :: 'u' :: d).length, [c]) := by
  obtain ⟨g1, g2⟩ := hex_number h4
  have hd : ((d ++ rest).take 6).takeWhile isHex = d := by
    rw [List.take_append, List.take_of_length_le h2, List.takeWhile_append_of_pos g2]
    have : (rest.take (6 - d.length)).takeWhile isHex = [] := by
      by_cases hl : d.length < 6
      · cases rest with
        | nil => simp
        | cons x rest =>
          obtain ⟨n, hn⟩ : ∃ n, 6 - d.length = n + 1 := ⟨5 - d.length, by omega⟩
          rw [hn, List.take_succ_cons, List.takeWhile_cons_of_neg]
          intro hx
          exact h3 hl x rfl ((hex_iff x).1 hx)
      · rw [show 6 - d.length = 0 by omega]; rfl
    rw [this, List.append_nil]
  unfold escape escapeDigits
  simp only [hd]
  rw [if_pos h1]
  simp only [Option.map_some, g1]
  rw [if_pos (show c.toNat.isValidChar from c.valid), Char.ofNat_toNat]
  rfl

/-- The first pass. -/
theorem pass_escapes {t : List (Str × Str)} (ht : SymbolTable t) {s out : Str} (h : Converted t s out) : Like s (sub escape 0 s) ∧ Stage t 1 (sub escape 0 s) out := by
  induction h with
  | nil => exact ⟨.nil, .nil⟩
  | char c s out hw he _ ih =>
    rw [sub_miss _ (escape_none he)]
    exact ⟨.same c ih.1, .char c _ _ (fun e he hh => hw e he ((Like.same c ih.1).written (ht e he).1 hh)) ih.2⟩
  | symbol k v br rest out a b e h1 h2 h3 h4 h0 h5 h6 h7 h8 _ ih =>
    have hsub : sub escape 0 (k ++ (br ++ rest)) = k ++ (br ++ sub escape 0 rest) := by
      rw [← List.append_assoc, ← List.append_assoc]
      refine sub_through _ rest (k ++ br) fun x y e hy => escape_none ?_
      cases x with
      | nil => rw [List.nil_append] at e; rw [← e, List.append_assoc]; exact h0
      | cons c x => exact (h5 (c :: x) y e (by simp) hy).2
    rw [hsub]
    exact ⟨(ih.1.prepend br).prepend k, Stage.like ht (passOf_pos k).1 e h1 h2 h3 h4 (fun x y e hx hy => (h5 x y e hx hy).1) h6 h7 h8 ih.1 ih.2⟩
  | escape d rest out c h1 h2 h3 h4 hc _ ih =>
    have := sub_hit escape (x := '\\' :: 'u' :: d) (r := rest) (by simp) (escape_some h1 h2 h3 h4)
    rw [show '\\' :: 'u' :: d ++ rest = '\\' :: 'u' :: (d ++ rest) from rfl] at this
    rw [this]
    have hf : ∀ x ∈ [c], Foreign x := by simpa using hc
    exact ⟨.other ('\\' :: 'u' :: d) [c] (.inl rfl) (by simp) hf ih.1, ih.2.chars ht [c] hf⟩

/-- C68: for every table, the commands in a text become their characters, and everything else stays. -/
theorem C68_convert_partial {t : List (Str × Str)} (ht : SymbolTable t) {s out : Str} (h : Converted t s out) : convert t s = out := by
  unfold convert
  have h1 := (pass_escapes ht h).2
  have h2 := (pass_stage ht (by omega) h1).2
  have h3 := (pass_stage ht (by omega) h2).2
  have h4 := (pass_stage ht (by omega) h3).2
  have h5 := (pass_stage ht (by omega) h4).2
  exact pass_last ht h5

/-- C68: a text without backslashes and braces stays as it is. -/
theorem C68_plain {t : List (Str × Str)} (ht : SymbolTable t) {s : Str} (h : ∀ c ∈ s, c ≠ '\\' ∧ c ≠ '{') : convert t s = s := by
  refine C68_convert_partial ht ?_
  induction s with
  | nil => exact .nil
  | cons c s ih =>
    obtain ⟨h1, h2⟩ := h c (by simp)
    refine .char c _ _ (fun e he hw => ?_) ?_ (ih fun d hd => h d (by simp [hd]))
    · obtain ⟨⟨u, hu⟩, _⟩ := hw
      cases hk : e.1 with
      | nil => have := (ht e he).2; rw [hk] at this; simp at this
      | cons d k =>
        have := (ht e he).2
        rw [hk] at hu this
        simp at hu this
        rw [hu.1] at this
        rcases this with h | h
        · exact h1 h
        · exact h2 h
    · rintro ⟨d, r, e, _⟩
      simp at e
      exact h1 e.1

/-- The table of the package is one. -/
theorem package_table : SymbolTable table := by
  have : table.all (fun e => e.1.all (·.toNat < 128) && (e.1.head? == some '\\' || e.1.head? == some '{')) = true := by decide +kernel
  intro e he
  have := List.all_eq_true.1 this e he
  simp only [Bool.and_eq_true, List.all_eq_true, decide_eq_true_eq, Bool.or_eq_true, beq_iff_eq] at this
  exact this

/-! ### Examples -/

/-- The same as `symbol`, quicker to compute. -/
def quick (t : List (Str × Str)) (p : Nat) (s : Str) : Option (Nat × Str) :=
  if s.head? == some '\\' || s.head? == some '{' then
    match t.find? fun e => (matchKey e.1 s).isSome && passOf e.1 == p with
    | some e => (matchKey e.1 s).map fun n => (n, symbolOf t (s.take n))
    | none => none
  else none

theorem quick_eq {t : List (Str × Str)} (ht : SymbolTable t) (p : Nat) (s : Str) : symbol t p s = quick t p s := by
  have key : ∀ l : List (Str × Str), SymbolTable l → matchAny (keysOf l p) s = match l.find? fun e => (matchKey e.1 s).isSome && passOf e.1 == p with
      | some e => matchKey e.1 s
      | none => none := by
    intro l
    induction l with
    | nil => exact fun _ => rfl
    | cons e l ih =>
      intro hl
      have ih := ih fun x hx => hl x (by simp [hx])
      have hh : (e.1.head? == some '\\' || e.1.head? == some '{') = true := by rcases (hl e (by simp)).2 with h | h <;> simp [h]
      unfold keysOf at ih ⊢
      rw [List.map_cons, List.filter_cons, hh, List.find?_cons]
      by_cases hp : passOf e.1 = p
      · simp only [hp, beq_self_eq_true, Bool.and_self, if_true, Bool.and_true]
        rw [matchAny]
        cases hm : matchKey e.1 s with
        | some n => simp [hm]
        | none => simp only [Option.isSome_none]; exact ih
      · have : (passOf e.1 == p) = false := by simpa using hp
        simp only [this, Bool.and_false, Bool.false_eq_true, if_false]
        exact ih
  unfold symbol quick
  rw [key t ht]
  by_cases hs : (s.head? == some '\\' || s.head? == some '{') = true
  · rw [if_pos hs]
    cases t.find? fun e => (matchKey e.1 s).isSome && passOf e.1 == p with
    | none => rfl
    | some e => cases he : matchKey e.1 s <;> simp [he]
  · rw [if_neg hs]
    cases hf : t.find? fun e => (matchKey e.1 s).isSome && passOf e.1 == p with
    | none => rfl
    | some e =>
      exfalso
      have hm := List.find?_some hf
      have he := List.mem_of_find?_eq_some hf
      simp only [Bool.and_eq_true] at hm
      have hw : StandsAt e.1 s := Classical.byContradiction fun hn => by rw [matchKey_none hn] at hm; exact absurd hm.1 (by simp)
      obtain ⟨⟨u, hu⟩, _⟩ := hw
      apply hs
      rcases (ht e he).2 with h | h <;> (rw [← hu, List.head?_append, h]; simp)

theorem convert_quick {t : List (Str × Str)} (ht : SymbolTable t) (s : Str) :
    convert t s = sub (quick t 5) 0 (sub (quick t 4) 0 (sub (quick t 3) 0 (sub (quick t 2) 0 (sub (quick t 1) 0 (sub escape 0 s))))) := by
  unfold convert
  rw [show symbol t 1 = quick t 1 from funext (quick_eq ht 1), show symbol t 2 = quick t 2 from funext (quick_eq ht 2), show symbol t 3 = quick t 3 from funext (quick_eq ht 3),
    show symbol t 4 = quick t 4 from funext (quick_eq ht 4), show symbol t 5 = quick t 5 from funext (quick_eq ht 5)]

/-- A character that begins no command. -/
theorem Converted.plain {t : List (Str × Str)} (ht : SymbolTable t) (c : Char) (s out : Str) (h1 : c ≠ '\\') (h2 : c ≠ '{') (h : Converted t s out) : Converted t (c :: s) (c :: out) := by
  refine .char c _ _ (fun e he hw => ?_) ?_ h
  · obtain ⟨⟨u, hu⟩, _⟩ := hw
    cases hk : e.1 with
    | nil => have := (ht e he).2; rw [hk] at this; simp at this
    | cons d k =>
      have := (ht e he).2
      rw [hk] at hu this
      simp at hu this
      rw [hu.1] at this
      rcases this with h | h
      · exact h1 h
      · exact h2 h
  · rintro ⟨d, r, e, _⟩
    simp at e
    exact h1 e.1

theorem stands_iff (k s : Str) : StandsAt k s ↔ (matchKey k s).isSome = true := by
  constructor
  · rintro ⟨⟨r, rfl⟩, h⟩
    by_cases hb : NameLike k ∧ "{}".toList <+: r
    · obtain ⟨hn, u, rfl⟩ := hb
      rw [matchKey_some (br := "{}".toList) ⟨⟨_, rfl⟩, h⟩ (.inl ⟨hn, rfl⟩)]; rfl
    · have := matchKey_some (k := k) (br := []) (rest := r) ⟨⟨_, rfl⟩, h⟩ (.inr ⟨rfl, fun hn hp => hb ⟨hn, hp⟩⟩)
      rw [List.nil_append] at this
      rw [this]; rfl
  · intro h
    exact Classical.byContradiction fun hn => by rw [matchKey_none hn] at h; cases h

theorem brace_only {k x y : Str} (hk : '{' ∉ k) (e : k ++ "{}".toList = x ++ '{' :: y) : y = ['}'] := by
  have e : k ++ ['{', '}'] = x ++ '{' :: y := e
  induction k generalizing x with
  | nil =>
    cases x with
    | nil => simp at e; exact e.symm
    | cons z x =>
      simp at e
      obtain ⟨_, e⟩ := e
      cases x with
      | nil => simp at e
      | cons z' x => simp at e
  | cons d k ih =>
    cases x with
    | nil => simp at e; exact absurd (by simp [e.1]) hk
    | cons z x =>
      simp at e
      exact ih (fun h => hk (by simp [h])) e.2 e.2

/-- Commands without a second backslash or a brace in them, by computation. -/
theorem Converted.command {t : List (Str × Str)} (ht : SymbolTable t) (k v br rest out : Str) (hf : t.filter (fun e => (matchKey e.1 (k ++ (br ++ rest))).isSome) = [(k, v)])
    (hb : NameLike k ∧ br = "{}".toList ∧ t.filter (fun e => (matchKey e.1 ("{}".toList ++ rest)).isSome) = [] ∨ br = [] ∧ (NameLike k → ¬ "{}".toList <+: rest))
    (he : ¬ EscapeAt (k ++ (br ++ rest))) (hk : ∀ c ∈ k.tail, c ≠ '\\' ∧ c ≠ '{' ∧ c ≠ '}') (hk0 : k.head? = some '\\') (hs : strip k = k) (hv : Early k → v ≠ [] ∧ ∀ c ∈ v, Foreign c) (hr : Converted t rest out) :
    Converted t (k ++ (br ++ rest)) (v ++ out) := by
  have hmem : (k, v) ∈ t.filter (fun e => (matchKey e.1 (k ++ (br ++ rest))).isSome) := by rw [hf]; simp
  have hst := (stands_iff k _).2 (List.mem_filter.1 hmem).2
  obtain ⟨a, b, e⟩ := List.append_of_mem (List.mem_filter.1 hmem).1
  have only : ∀ x ∈ t, StandsAt x.1 (k ++ (br ++ rest)) → x = (k, v) := fun x hx hw => by
    have : x ∈ t.filter (fun e => (matchKey e.1 (k ++ (br ++ rest))).isSome) := List.mem_filter.2 ⟨hx, (stands_iff _ _).1 hw⟩
    rw [hf] at this
    simpa using this
  have first : ∀ x ∈ a, ¬ StandsAt x.1 (k ++ (br ++ rest)) := fun x hx hw => by
    have h1 := only x (by rw [e]; simp [hx]) hw
    subst h1
    rw [e, List.filter_append, List.filter_cons_of_pos (by exact (stands_iff _ _).1 hst)] at hf
    have h2 : (k, v) ∈ a.filter (fun e => (matchKey e.1 (k ++ (br ++ rest))).isSome) := List.mem_filter.2 ⟨hx, (stands_iff _ _).1 hst⟩
    have := congrArg List.length hf
    have h3 := List.length_pos_of_mem h2
    simp only [List.length_append, List.length_cons, List.length_nil] at this
    omega
  refine .symbol k v br rest out a b e first (fun x hx hw => by rw [only x hx hw]; exact Nat.le_refl _) hst (hb.imp (fun h => ⟨h.1, h.2.1⟩) id) he ?_ hs ?_ hv hr
  · intro x y exy hx hy
    cases k with
    | nil => cases hk0
    | cons d k =>
      cases x with
      | nil => exact absurd rfl hx
      | cons d' x =>
        have exy' : k ++ br = x ++ y := by simp at exy; exact exy.2
        cases y with
        | nil => exact absurd rfl hy
        | cons c y =>
          have notin : (c ≠ '\\' ∧ c ≠ '{') → (∀ e ∈ t, ¬ StandsAt e.1 (c :: y ++ rest)) ∧ ¬ EscapeAt (c :: y ++ rest) := by
            rintro ⟨h1, h2⟩
            refine ⟨fun e he hw => ?_, ?_⟩
            · obtain ⟨⟨u, hu⟩, _⟩ := hw
              cases hk : e.1 with
              | nil => have := (ht e he).2; rw [hk] at this; simp at this
              | cons d k =>
                have := (ht e he).2
                rw [hk] at hu this
                simp at hu this
                rw [hu.1] at this
                rcases this with h | h
                · exact h1 h
                · exact h2 h
            · rintro ⟨d, r, e, _⟩
              simp at e
              exact h1 e.1
          have hc : c ∈ k ++ br := by rw [exy']; simp
          rcases List.mem_append.1 hc with hc | hc
          · have := hk c (by simpa using hc)
            exact notin ⟨this.1, this.2.1⟩
          · rcases hb with ⟨_, rfl, h0⟩ | ⟨rfl, _⟩
            · rcases List.mem_cons.1 hc with rfl | hc
              · have hy : y = ['}'] := by
                  exact brace_only (fun hc => (hk _ (by simpa using hc)).2.1 rfl) exy'
                subst hy
                refine ⟨fun e he hw => ?_, ?_⟩
                · have : e ∈ t.filter (fun e => (matchKey e.1 ("{}".toList ++ rest)).isSome) := List.mem_filter.2 ⟨he, (stands_iff _ _).1 hw⟩
                  rw [h0] at this; cases this
                · rintro ⟨d, r, e, _⟩
                  simp at e
              · rw [List.mem_singleton.1 hc]; exact List.mem_singleton.1 hc ▸ notin (by rw [List.mem_singleton.1 hc]; decide)
            · cases hc
  · rintro ⟨u, hu⟩
    rw [← hu] at hk hk0
    cases u with
    | nil => simp at hk0
    | cons z u => exact absurd rfl (hk '{' (by simp)).2.1

theorem early_ok {c : Char} (h : 128 ≤ c.toNat) : [c] ≠ [] ∧ ∀ x ∈ [c], Foreign x := ⟨by simp, fun x hx => by rw [List.mem_singleton.1 hx]; exact h⟩

theorem nameLike_of {k : Str} (h : wordLike k = true) : NameLike k := (wordLike_iff k).1 h

/-- `a \alpha{}b\S` with the table of the package. -/
example : Converted table "a \\alpha{}b\\S".toList ("a ".toList ++ Char.ofNat 0x3b1 :: 'b' :: [Char.ofNat 0xa7]) := by
  refine Converted.plain package_table 'a' _ _ (by decide) (by decide) (Converted.plain package_table ' ' _ _ (by decide) (by decide) ?_)
  have h2 : Converted table ("\\S".toList ++ ([] ++ [])) ([Char.ofNat 0xa7] ++ []) :=
    Converted.command package_table _ _ _ _ _ (by decide +kernel) (.inr ⟨rfl, fun _ ⟨u, hu⟩ => by simp at hu⟩) (fun ⟨d, r, e, _⟩ => by simp at e) (by decide) (by decide) (by decide) (fun _ => early_ok (by decide)) .nil
  exact Converted.command package_table "\\alpha".toList [Char.ofNat 0x3b1] "{}".toList ("b\\S".toList) _ (by decide +kernel) (.inl ⟨nameLike_of (by decide +kernel), rfl, by decide +kernel⟩)
    (fun ⟨d, r, e, _⟩ => by simp at e) (by decide) (by decide) (by decide) (fun _ => early_ok (by decide)) (Converted.plain package_table 'b' _ _ (by decide) (by decide) h2)

theorem sample : convert table "a \\alpha{}b\\S".toList = "a ".toList ++ Char.ofNat 0x3b1 :: 'b' :: [Char.ofNat 0xa7] := by
  rw [convert_quick package_table]
  decide +kernel

/-! ### Where it fails -/

/-- A command of the table that ends in a pair of braces does not become its character: it is looked up without them. -/
theorem C68_violated_braces : ("\\sqrt{}".toList, [Char.ofNat 0x221a]) ∈ table ∧ convert table "\\sqrt{}".toList = "\\sqrt".toList := by
  refine ⟨?_, ?_⟩
  · decide +kernel
  · rw [convert_quick package_table]; decide +kernel

/-- A backslash written as `\textbackslash` is taken as the beginning of a command by a later pass. -/
theorem C68_violated_twice : ("\\textbackslash".toList, ['\\']) ∈ table ∧ convert table "\\textbackslash{}alpha".toList = [Char.ofNat 0x3b1] := by
  refine ⟨?_, ?_⟩
  · decide +kernel
  · rw [convert_quick package_table]; decide +kernel

/-- A command that begins with a shorter one never becomes its own character when the shorter one comes first in the table. -/
theorem C68_violated_shadowed : ("\\int\\!\\int".toList, [Char.ofNat 0x222c]) ∈ table ∧ convert table "\\int\\!\\int".toList ≠ [Char.ofNat 0x222c] := by
  refine ⟨?_, ?_⟩
  · decide +kernel
  · rw [convert_quick package_table]; decide +kernel

end L2J.Sym
