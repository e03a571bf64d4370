import Verif.Model.Diacritics
import Verif.Spec.Diacritics
import Verif.Props.C65b
import Verif.Props.C10
import Verif.Lemmas.MinLen
/-! C67: accents. -/
namespace L2J.Psr
open Cmds Defn L2J.Spec

/-- The pattern of an accent. -/
def accentRe (k : Str) : Re := if k.all isLetter then nameAccentRe k else markRe k

theorem accents_re : ∀ a ∈ accents, a.2 = accentRe a.1 := by
  have h1 : ∀ k ∈ accentMarks ++ accentDot, k.all isLetter = false := by decide +kernel
  have h2 : ∀ k ∈ accentNames1 ++ accentNames2, k.all isLetter = true := by decide +kernel
  intro a ha
  unfold accents at ha
  unfold accentRe
  simp only [List.mem_append, List.mem_map] at ha
  rcases ha with ((⟨k, hk, rfl⟩ | ⟨k, hk, rfl⟩) | ⟨k, hk, rfl⟩) | ⟨k, hk, rfl⟩
  · simp only [h1 k (by simp [hk])]; rfl
  · simp only [h2 k (by simp [hk])]; rfl
  · simp only [h1 k (by simp [hk])]; rfl
  · simp only [h2 k (by simp [hk])]; rfl

theorem accents_keys : accents.map (·.1) = accentMarks ++ accentNames1 ++ accentDot ++ accentNames2 := by
  unfold accents
  simp [Function.comp_def]

theorem firstAccent_hit {s : Str} {k : Str} {m : Match} (hm : (accentRe k).matchAt [] s = some m) : ∀ {l : List (Str × Re)}, (∀ a ∈ l, a.2 = accentRe a.1) → k ∈ l.map (·.1) →
    (∀ k' ∈ l.map (·.1), k' ≠ k → Dead (accentRe k') s) → firstAccent s l = some (k, m)
  | a :: l, h1, h2, h3 => by
    unfold firstAccent
    by_cases ha : a.1 = k
    · rw [h1 a (by simp), ha, hm]
    · rw [h1 a (by simp), (h3 a.1 (by simp) ha).matchAt []]
      refine firstAccent_hit hm (fun b hb => h1 b (by simp [hb])) ?_ fun k' hk' => h3 k' (by simp only [List.map_cons, List.mem_cons]; exact .inr hk')
      simp only [List.map_cons, List.mem_cons] at h2
      rcases h2 with h2 | h2
      · exact absurd h2.symm ha
      · exact h2

/-- The commands of the table are those of the handler, and stand for the same characters. -/
theorem table_keys : ∀ e ∈ accentTable, e.1.toList ∈ accents.map (·.1) ∧ accentMap.find? (·.1 == e.1.toList) = some (e.1.toList, e.2) := by
  rw [accents_keys]; decide +kernel

theorem keys_table : ∀ k ∈ accents.map (·.1), k ∈ accentTable.map (·.1.toList) := by
  rw [accents_keys]; decide +kernel

theorem table_shape : ∀ k ∈ accents.map (·.1), (k.all isLetter = true ∧ k ≠ []) ∨ ∃ c, k = [c] ∧ isLetter c = false ∧ isSpace c = false := by
  rw [accents_keys]
  have : ∀ k ∈ accentMarks ++ accentNames1 ++ accentDot ++ accentNames2, (k.all isLetter && !k.isEmpty) = true ∨ (match k with | [c] => !isLetter c && !isSpace c | _ => false) = true := by decide +kernel
  intro k hk
  rcases this k hk with h | h
  · simp only [Bool.and_eq_true, Bool.not_eq_true'] at h
    exact .inl ⟨h.1, by rintro rfl; exact absurd h.2 (by decide)⟩
  · split at h
    · rename_i c; simp only [Bool.and_eq_true, Bool.not_eq_true'] at h; exact .inr ⟨c, rfl, h⟩
    · cases h

theorem names_keys : ∀ k ∈ accents.map (·.1), k.all isLetter = true → k ∈ accentNames1 ++ accentNames2 := by
  rw [accents_keys]; decide +kernel

/-- The pattern of one accent does not match another. -/
theorem other_dead {k k' arg : Str} (hk : k ∈ accents.map (·.1)) (hk' : k' ∈ accents.map (·.1)) (hne : k' ≠ k) (hr : k.all isLetter = true → ∀ c ∈ arg.head?, isLetter c = false) :
    Dead (accentRe k') ('\\' :: (k ++ arg)) := by
  unfold accentRe
  rcases table_shape k hk with ⟨h1, h2⟩ | ⟨c, rfl, hc, _⟩ <;> rcases table_shape k' hk' with ⟨h1', h2'⟩ | ⟨c', rfl, hc', _⟩
  · rw [if_pos h1']
    exact name_accent_dead (List.all_eq_true.1 h1) (hr h1) (names_keys k' hk' h1') (Ne.symm hne)
  · rw [if_neg (by simp [hc'])]
    refine Dead.seq (Dead.lit ?_)
    rintro ⟨t, ht⟩
    cases k with
    | nil => exact h2 rfl
    | cons a k =>
      simp at ht
      have := List.all_eq_true.1 h1 a (by simp)
      rw [← ht.1, hc'] at this; cases this
  · rw [if_pos h1']
    refine Dead.seq (Dead.lit ?_)
    rintro ⟨t, ht⟩
    cases k' with
    | nil => exact h2' rfl
    | cons a k' =>
      simp at ht
      have := List.all_eq_true.1 h1' a (by simp)
      rw [ht.1, hc] at this; cases this
  · rw [if_neg (by simp [hc'])]
    refine Dead.seq (Dead.lit ?_)
    rintro ⟨t, ht⟩
    simp at ht
    exact hne (by rw [ht.1])

theorem nonSpace_eats {c : Char} {rest : Str} {g} (h : isSpace c = false) : Eats nonSpace [c] rest g g := Eats.chr _ (by simp [h])

theorem open_not_space : isSpace '{' = false := by decide

/-- The match of an accent with a group. -/
theorem accent_group {k : Str} (hk : k ∈ accents.map (·.1)) {ws rest : Str} (hws : ∀ c ∈ ws, isSpace c = true) : Eats (accentRe k) ('\\' :: k ++ (ws ++ ['{'])) rest [] [] := by
  unfold accentRe
  by_cases h : k.all isLetter = true
  · rw [if_pos h]
    exact Eats.seq (g1 := []) (Eats.lit _ _ _) (Eats.left (Eats.seq (g1 := []) (Eats.spaces hws (by intro c hc; simp at hc; subst hc; exact open_not_space)) (Eats.lit _ _ _)))
  · rw [if_neg h]
    exact Eats.seq (g1 := []) (Eats.lit _ _ _) (Eats.seq (g1 := []) (Eats.spaces hws (by intro c hc; simp at hc; subst hc; exact open_not_space)) (Eats.left (Eats.lit _ _ _)))

/-- The match of an accent with a character. -/
theorem accent_char {k : Str} (hk : k ∈ accents.map (·.1)) {ws rest : Str} {c : Char} (hws : ∀ c ∈ ws, isSpace c = true) (hc : isSpace c = false) (hb : c ≠ '{')
    (hn : ws = [] → k.all isLetter = true → isNameChar c = false) : Eats (accentRe k) ('\\' :: k ++ (ws ++ [c])) rest [] [] := by
  have hh : ∀ d ∈ ([c] ++ rest).head?, isSpace d = false := by intro d hd; simp at hd; subst hd; exact hc
  unfold accentRe
  by_cases h : k.all isLetter = true
  · rw [if_pos h]
    refine Eats.seq (g1 := []) (Eats.lit _ _ _) (Eats.right ?_ ?_)
    · rw [List.append_assoc]
      exact Dead.spaces hws hh (fun d t hd => Dead.char (by simp; rintro rfl; revert hd; decide)) (Dead.char (by simp [hb]))
    · by_cases hw : ws = []
      · subst hw
        refine Eats.right ?_ ?_
        · intro rev g
          refine List.eq_nil_iff_forall_not_mem.2 fun x hx => ?_
          obtain ⟨y, hy, _⟩ := List.mem_flatMap.1 hx
          obtain ⟨z, hz, _⟩ := List.mem_flatMap.1 hy
          unfold reSpace Re.run at hz
          simp [hc] at hz
        · rw [List.nil_append]
          refine Eats.seq (x := []) (g1 := []) ?_ (nonSpace_eats hc)
          intro rev
          have : (Re.chr isNameChar).run ⟨rev, [c] ++ rest, []⟩ = [] := Dead.chr isNameChar (by intro d hd; simp at hd; subst hd; exact hn rfl h) rev []
          show (if ((Re.chr isNameChar).run ⟨rev, [c] ++ rest, []⟩).isEmpty then [_] else []).head? = _
          rw [this]; rfl
      · exact Eats.left (Eats.seq (g1 := []) (Eats.plus_chr isSpace hw hws hh) (nonSpace_eats hc))
  · rw [if_neg h]
    refine Eats.seq (g1 := []) (Eats.lit _ _ _) (Eats.seq (g1 := []) (Eats.spaces hws hh) (Eats.right (Dead.char (by simp [hb])) (nonSpace_eats hc)))

/-- An accent as it is found, at any place. -/
theorem accent_found {k : String} {mark : Nat} (hk : (k, mark) ∈ accentTable) {arg base : Str} (h : AccentArg k arg base) (rest : Str) (rev : Str) :
    ∃ m, (accentRe k.toList).matchAt rev ('\\' :: (k.toList ++ (arg ++ rest))) = some m ∧ 0 < m.len ∧ m.rev = rev ∧
      accented (rev.reverse ++ '\\' :: (k.toList ++ (arg ++ rest))) m = (base, rev.length + ('\\' :: (k.toList ++ arg)).length) := by
  have hk' := (table_keys _ hk).1
  simp only at hk'
  cases h with
  | group ws body hws hb hne =>
    have e : '\\' :: (k.toList ++ ((ws ++ '{' :: (body ++ ['}'])) ++ rest)) = ('\\' :: k.toList ++ (ws ++ ['{'])) ++ (body ++ '}' :: rest) := by simp
    refine ⟨_, by rw [e]; exact (accent_group hk' hws).matchAt rev, by simp, rfl, ?_⟩
    have hlast : (('\\' :: k.toList ++ (ws ++ ['{'])) ++ (body ++ '}' :: rest)).take ('\\' :: k.toList ++ (ws ++ ['{'])).length = '\\' :: k.toList ++ (ws ++ ['{']) := List.take_left
    unfold accented
    simp only [Match.text, Match.stop, hlast]
    rw [show ('\\' :: k.toList ++ (ws ++ ['{'])).getLast? = some '{' by rw [← List.append_assoc, List.getLast?_concat]]
    have hd : (rev.reverse ++ '\\' :: (k.toList ++ ((ws ++ '{' :: (body ++ ['}'])) ++ rest))).drop (rev.length + ('\\' :: k.toList ++ (ws ++ ['{'])).length - 1) = '{' :: (body ++ '}' :: rest) := by
      have e2 : rev.reverse ++ '\\' :: (k.toList ++ ((ws ++ '{' :: (body ++ ['}'])) ++ rest)) = (rev.reverse ++ ('\\' :: k.toList ++ ws)) ++ '{' :: (body ++ '}' :: rest) := by simp
      rw [e2]
      have : rev.length + ('\\' :: k.toList ++ (ws ++ ['{'])).length - 1 = (rev.reverse ++ ('\\' :: k.toList ++ ws)).length := by simp; omega
      rw [this, List.drop_left]
    have hx := C01_round_trip [] body rest '{' '}' (by simp) open_not_space (by decide) (by decide) hb.1 hb.2
    simp only [List.nil_append, List.length_nil, Nat.zero_add] at hx
    simp only [hd, hx]
    cases body with
    | nil => exact absurd rfl hne
    | cons x xs =>
      simp only [Prod.mk.injEq, true_and]
      simp; omega
  | char ws c hws hc hb hbs hn =>
    have e : '\\' :: (k.toList ++ ((ws ++ [c]) ++ rest)) = ('\\' :: k.toList ++ (ws ++ [c])) ++ rest := by simp
    have hn' : ws = [] → k.toList.all isLetter = true → isNameChar c = false := fun h1 h2 => hn h1 fun a ha => List.all_eq_true.1 h2 a (List.mem_of_head? ha)
    refine ⟨_, by rw [e]; exact (accent_char hk' hws hc hb hn').matchAt rev, by simp, rfl, ?_⟩
    have hlast : (('\\' :: k.toList ++ (ws ++ [c])) ++ rest).take ('\\' :: k.toList ++ (ws ++ [c])).length = '\\' :: k.toList ++ (ws ++ [c]) := List.take_left
    unfold accented
    simp only [Match.text, Match.stop, hlast]
    rw [show ('\\' :: k.toList ++ (ws ++ [c])).getLast? = some c by rw [← List.append_assoc, List.getLast?_concat]]
    split
    · rename_i h; injection h with h; exact absurd h hb
    · rename_i h; injection h with h; subst h; simp
    · rename_i h; cases h

theorem arg_head {k : String} {arg base : Str} (h : AccentArg k arg base) (rest : Str) (hk : k.toList.all isLetter = true) : ∀ c ∈ (arg ++ rest).head?, isNameChar c = false := by
  cases h with
  | group ws body hws _ _ => rw [show (ws ++ '{' :: (body ++ ['}'])) ++ rest = ws ++ '{' :: (body ++ '}' :: rest) by simp]; exact head_blank hws space_name (by simp; decide)
  | char ws c hws hc hb _ hn =>
    cases ws with
    | nil => intro d hd; simp at hd; subst hd; exact hn rfl fun a ha => List.all_eq_true.1 hk a (List.mem_of_head? ha)
    | cons a ws => intro d hd; simp at hd; subst hd; exact space_name a (hws a (by simp))

theorem name_not_letter {c : Char} (h : isNameChar c = false) : isLetter c = false := by
  cases hh : isLetter c with
  | false => rfl
  | true => rw [letter_name c hh] at h; cases h

/-- The accent that is found at the start of a text. -/
theorem first_accent {k : String} {mark : Nat} (hk : (k, mark) ∈ accentTable) {arg base : Str} (h : AccentArg k arg base) (rest : Str) :
    ∃ m, firstAccent ('\\' :: (k.toList ++ (arg ++ rest))) accents = some (k.toList, m) ∧
      accented ('\\' :: (k.toList ++ (arg ++ rest))) m = (base, ('\\' :: (k.toList ++ arg)).length) := by
  obtain ⟨m, h1, _, _, h2⟩ := accent_found hk h rest []
  refine ⟨m, ?_, by simpa using h2⟩
  refine firstAccent_hit h1 accents_re (table_keys _ hk).1 fun k' hk' hne => ?_
  exact other_dead (table_keys _ hk).1 hk' hne fun hh c hc => name_not_letter (arg_head h rest hh c hc)

theorem apply_accent (nfc : Str → Str) {k : String} {mark : Nat} (hk : (k, mark) ∈ accentTable) (base : Str) : applyAccent nfc base k.toList = withAccent nfc mark base := by
  unfold applyAccent withAccent
  cases base with
  | nil => rfl
  | cons c r => simp only [(table_keys _ hk).2]

/-- C67: an accent, written with a group or a character, becomes a text with the accent on its first character; nothing else of the text is touched. -/
theorem C67_accent_partial {V X} (cfg : Cfg V X) (p : Parse V X) (st : St V X) (toks : List Tok) {k : String} {mark : Nat}
    (hk : (k, mark) ∈ accentTable) {arg base : Str} (h : AccentArg k arg base) (rest : Str) :
    diacritics cfg p st toks ('\\' :: (k.toList ++ (arg ++ rest))) =
      some (single cfg p false st toks "text".toList (.str (withAccent cfg.nfc mark base)) [] ('\\' :: (k.toList ++ arg)).length) := by
  obtain ⟨m, h1, h2⟩ := first_accent hk h rest
  unfold diacritics
  rw [h1]
  simp only [h2, apply_accent cfg.nfc hk]

/-- The accents `\'{e}`, `\c c`, `\vec3` and `\H { o x}`. -/
example : ("'", 0x301) ∈ accentTable ∧ AccentArg "'" "{e}".toList ['e'] ∧ AccentArg "c" " c".toList ['c'] ∧ AccentArg "vec" ['3'] ['3'] ∧ AccentArg "H" " { o x}".toList "o x".toList := by
  refine ⟨by decide, ?_, ?_, ?_, ?_⟩
  · exact AccentArg.group [] ['e'] (by simp) (by unfold Wrappable Balanced; decide +kernel) (by simp)
  · exact AccentArg.char [' '] 'c' (by decide) (by decide) (by decide) (by decide) (fun h => by cases h)
  · exact AccentArg.char [] '3' (by decide) (by decide) (by decide) (by decide) fun _ _ => by decide
  · have := AccentArg.group (k := "H") [' '] " o x".toList (by decide) (by unfold Wrappable Balanced; decide +kernel) (by decide)
    exact this

/-! ### Whole texts -/

/-- A text with accents in it: what stands before each accent, the accent, and what is left. -/
inductive _root_.L2J.Spec.Accented (nfc : Str → Str) : Str → Str → Prop
  | text (t : Str) : '\\' ∉ t → Accented nfc t t
  | accent (t : Str) (k : String) (mark : Nat) (arg base rest out : Str) : '\\' ∉ t → (k, mark) ∈ accentTable → AccentArg k arg base → '\\' ∉ arg → Accented nfc rest out →
      Accented nfc (t ++ '\\' :: (k.toList ++ (arg ++ rest))) (t ++ (withAccent nfc mark base ++ out))

/-- A text in which the accents of `done` have been replaced. -/
inductive Half (nfc : Str → Str) (done : List Str) : Str → Str → Prop
  | text (t : Str) : '\\' ∉ t → Half nfc done t t
  | accent (t : Str) (k : String) (mark : Nat) (arg base rest out : Str) : '\\' ∉ t → (k, mark) ∈ accentTable → AccentArg k arg base → '\\' ∉ arg → k.toList ∉ done → Half nfc done rest out →
      Half nfc done (t ++ '\\' :: (k.toList ++ (arg ++ rest))) (t ++ (withAccent nfc mark base ++ out))

theorem Half.prepend {nfc : Str → Str} {done : List Str} {s out u : Str} (h : Half nfc done s out) (hu : '\\' ∉ u) : Half nfc done (u ++ s) (u ++ out) := by
  cases h with
  | text _ ht => exact .text _ (by simp [hu, ht])
  | accent t k mark arg base rest out ht h1 h2 h3 h4 h5 =>
    rw [← List.append_assoc u t, ← List.append_assoc u t]
    exact .accent (u ++ t) k mark arg base rest out (by simp [hu, ht]) h1 h2 h3 h4 h5

theorem re_nobs {k : Str} (c : Char) (s : Str) (hc : c ≠ '\\') : Dead (accentRe k) (c :: s) := by
  have : ¬ '\\' :: k <+: c :: s := by rintro ⟨t, ht⟩; simp at ht; exact hc ht.1.symm
  unfold accentRe
  split
  · exact Dead.seq (Dead.lit this)
  · exact Dead.seq (Dead.lit this)

theorem search_skip (r : Re) (hr : ∀ (c : Char) (s : Str), c ≠ '\\' → Dead r (c :: s)) : ∀ (t : Str) (rev s : Str), '\\' ∉ t → r.searchFrom rev (t ++ s) = r.searchFrom (t.reverse ++ rev) s
  | [], rev, s, _ => rfl
  | c :: t, rev, s, h => by
    rw [List.cons_append, Re.searchFrom, (hr c (t ++ s) (fun hh => h (by rw [hh]; simp))).matchAt rev]
    simp only
    rw [search_skip r hr t (c :: rev) s fun hh => h (by simp [hh])]
    simp

/-- No match in a text without backslashes. -/
theorem search_plain {k : Str} {t : Str} (h : '\\' ∉ t) (rev : Str) : (accentRe k).searchFrom rev t = none := by
  have := search_skip (accentRe k) (fun c s hc => re_nobs c s hc) t rev [] h
  rw [List.append_nil] at this
  rw [this, Re.searchFrom]
  have hd : Dead (accentRe k) [] := by
    unfold accentRe
    split
    · exact Dead.seq (Dead.lit (by simp))
    · exact Dead.seq (Dead.lit (by simp))
  exact hd.matchAt _

/-- The step for one command. -/
def stepOf (nfc : Str → Str) (k : Str) : Str → Match → Str × Nat := fun s m => (applyAccent nfc (accented s m).1 k, (accented s m).2)

theorem base_nobs {k : String} {arg base : Str} (h : AccentArg k arg base) (ha : '\\' ∉ arg) : '\\' ∉ base := by
  cases h with
  | group ws body hws hb hne =>
    obtain ⟨a, b, e, _, _⟩ := Content.strip_split body
    intro hc
    refine ha ?_
    simp only [List.mem_append, List.mem_cons]
    refine .inr (.inr (.inl ?_))
    rw [e]
    simp only [List.mem_append]
    exact .inr (.inl hc)
  | char ws c _ _ _ hbs _ => simp; exact fun h => hbs h.symm

theorem with_nobs {nfc : Str → Str} (hnfc : ∀ s : Str, '\\' ∉ s → '\\' ∉ nfc s) {k : String} {mark : Nat} (hk : (k, mark) ∈ accentTable) {base : Str} (h : '\\' ∉ base) : '\\' ∉ withAccent nfc mark base := by
  have key : ∀ e ∈ accentTable, Char.ofNat e.2 ≠ '\\' := by decide +kernel
  have := key _ hk
  unfold withAccent
  cases base with
  | nil => exact h
  | cons c r =>
    simp only [List.mem_append, not_or]
    refine ⟨hnfc _ ?_, fun hh => h (by simp [hh])⟩
    simp only [List.mem_cons, List.not_mem_nil, or_false, not_or]
    exact ⟨fun hh => h (by rw [hh]; simp), fun hh => this hh.symm⟩

/-- A part of a text that is searched in vain. -/
def Vain (r : Re) (u : Str) : Prop := ∀ rev s : Str, r.searchFrom rev (u ++ s) = r.searchFrom (u.reverse ++ rev) s

theorem Vain.append {r : Re} {u v : Str} (h1 : Vain r u) (h2 : Vain r v) : Vain r (u ++ v) := by
  intro rev s
  rw [List.append_assoc, h1, h2]
  simp

theorem vain_plain {k t : Str} (h : '\\' ∉ t) : Vain (accentRe k) t := fun rev s => search_skip _ (fun c s hc => re_nobs c s hc) t rev s h

theorem key_nobs : ∀ e ∈ accentTable, '\\' ∉ e.1.toList := by decide +kernel

theorem vain_other {k : Str} (hk : k ∈ accents.map (·.1)) {j : String} {mark : Nat} (hj : (j, mark) ∈ accentTable) (hne : j.toList ≠ k) {arg base : Str} (h : AccentArg j arg base) (ha : '\\' ∉ arg) :
    Vain (accentRe k) ('\\' :: (j.toList ++ arg)) := by
  intro rev s
  have hd : Dead (accentRe k) ('\\' :: (j.toList ++ (arg ++ s))) := other_dead (table_keys _ hj).1 hk (Ne.symm hne) fun hh c hc => name_not_letter (arg_head h s hh c hc)
  have e : '\\' :: (j.toList ++ arg) ++ s = '\\' :: ((j.toList ++ arg) ++ s) := rfl
  rw [e, Re.searchFrom]
  rw [← List.append_assoc] at hd
  rw [hd.matchAt rev]
  simp only
  rw [vain_plain (k := k) (t := j.toList ++ arg) (by simp [key_nobs _ hj, ha]) ('\\' :: rev) s]
  simp

/-- The first accent of one command, if there is one. -/
theorem half_first {nfc : Str → Str} (hnfc : ∀ s : Str, '\\' ∉ s → '\\' ∉ nfc s) {done : List Str} {k : Str} (hk : k ∈ accents.map (·.1)) {s out : Str} (h : Half nfc done s out) :
    ((∀ rev, (accentRe k).searchFrom rev s = none) ∧ Half nfc (k :: done) s out) ∨
      ∃ (u arg base rest out2 : Str) (j : String) (mark : Nat), j.toList = k ∧ (j, mark) ∈ accentTable ∧ AccentArg j arg base ∧ s = u ++ '\\' :: (j.toList ++ (arg ++ rest)) ∧ Vain (accentRe k) u ∧
        Half nfc done rest out2 ∧ ∀ s', Half nfc (k :: done) s' out2 → Half nfc (k :: done) (u ++ (withAccent nfc mark base ++ s')) out := by
  induction h with
  | text t ht => exact .inl ⟨fun rev => search_plain ht rev, .text t ht⟩
  | accent t j mark arg base rest out ht h1 h2 h3 h4 h5 ih =>
    by_cases hj : j.toList = k
    · refine .inr ⟨t, arg, base, rest, out, j, mark, hj, h1, h2, rfl, vain_plain ht, h5, fun s' hs' => ?_⟩
      exact (hs'.prepend (with_nobs hnfc h1 (base_nobs h2 h3))).prepend ht
    · have hv : Vain (accentRe k) (t ++ '\\' :: (j.toList ++ arg)) := (vain_plain ht).append (vain_other hk h1 hj h2 h3)
      have e : ∀ x : Str, t ++ '\\' :: (j.toList ++ (arg ++ x)) = (t ++ '\\' :: (j.toList ++ arg)) ++ x := fun x => by simp
      have hnd : j.toList ∉ k :: done := by simp [hj, h4]
      rcases ih with ⟨g1, g2⟩ | ⟨u, arg', base', rest', out2, j', mark', e1, e2, e3, e4, e5, e6, e7⟩
      · refine .inl ⟨fun rev => ?_, .accent t j mark arg base rest out ht h1 h2 h3 hnd g2⟩
        rw [e, hv]; exact g1 _
      · refine .inr ⟨(t ++ '\\' :: (j.toList ++ arg)) ++ u, arg', base', rest', out2, j', mark', e1, e2, e3, ?_, hv.append e5, e6, fun s' hs' => ?_⟩
        · rw [e, e4]; simp
        · have := Half.accent t j mark arg base _ _ ht h1 h2 h3 hnd (e7 s' hs')
          rw [e] at this
          simpa using this

/-- One pass: the accents of one command are replaced. -/
theorem pass_half {nfc : Str → Str} (hnfc : ∀ s : Str, '\\' ∉ s → '\\' ∉ nfc s) {done : List Str} {k : Str} (hk : k ∈ accents.map (·.1)) : ∀ (n : Nat) {s out : Str}, s.length ≤ n → Half nfc done s out →
    ∃ s', Half nfc (k :: done) s' out ∧ OnePass (accentRe k).search Match.start (stepOf nfc k) s s' := by
  intro n
  induction n with
  | zero =>
    intro s out hn h
    cases s with
    | cons c s => simp at hn
    | nil =>
      rcases half_first hnfc hk h with ⟨g1, g2⟩ | ⟨u, arg, base, rest, out2, j, mark, e1, e2, e3, e4, _⟩
      · exact ⟨[], g2, .done _ (g1 [])⟩
      · have := congrArg List.length e4
        simp at this
  | succ n ih =>
    intro s out hn h
    rcases half_first hnfc hk h with ⟨g1, g2⟩ | ⟨u, arg, base, rest, out2, j, mark, e1, e2, e3, e4, e5, e6, e7⟩
    · exact ⟨s, g2, .done _ (g1 [])⟩
    · obtain ⟨s', h1, h2⟩ := ih (s := rest) (by rw [e4] at hn; simp at hn; omega) e6
      subst e1
      obtain ⟨m, f1, f2, f3, f4⟩ := accent_found e2 e3 rest u.reverse
      rw [List.reverse_reverse, List.length_reverse] at f4
      have hs : (accentRe j.toList).search s = some m := by
        unfold Re.search
        rw [e4, e5, List.append_nil, Re.searchFrom, f1]
      have hst : m.start = u.length := by unfold Match.start; rw [f3, List.length_reverse]
      have hstep : stepOf nfc j.toList s m = (withAccent nfc mark base, u.length + ('\\' :: (j.toList ++ arg)).length) := by
        unfold stepOf
        rw [e4, f4, apply_accent nfc e2]
      have hdrop : s.drop (u.length + ('\\' :: (j.toList ++ arg)).length) = rest := by
        rw [e4, ← List.drop_drop, List.drop_left]
        rw [show '\\' :: (j.toList ++ (arg ++ rest)) = ('\\' :: (j.toList ++ arg)) ++ rest by simp, List.drop_left]
      have := OnePass.step (search := (accentRe j.toList).search) (start := Match.start) (f := stepOf nfc j.toList) s m s' hs (by rw [hstep, hdrop]; exact h2)
      rw [hstep, hst] at this
      refine ⟨_, e7 s' h1, ?_⟩
      rw [e4, List.take_left] at this
      rw [e4]
      simpa using this

theorem half_all {nfc : Str → Str} {s out : Str} (h : Half nfc (accents.map (·.1)) s out) : s = out := by
  cases h with
  | text t _ => rfl
  | accent t k mark arg base rest out _ h1 _ _ h4 _ => exact absurd (table_keys _ h1).1 h4

theorem half_of {nfc : Str → Str} {s out : Str} (h : Accented nfc s out) : Half nfc [] s out := by
  induction h with
  | text t ht => exact .text t ht
  | accent t k mark arg base rest out h1 h2 h3 h4 _ ih => exact .accent t k mark arg base rest out h1 h2 h3 h4 (by simp) ih

theorem half_mono {nfc : Str → Str} {d d' : List Str} (hd : ∀ k ∈ d', k ∈ d) {s out : Str} (h : Half nfc d s out) : Half nfc d' s out := by
  induction h with
  | text t ht => exact .text t ht
  | accent t k mark arg base rest out h1 h2 h3 h4 h5 _ ih => exact .accent t k mark arg base rest out h1 h2 h3 h4 (fun hh => h5 (hd _ hh)) ih

theorem passes_all {nfc : Str → Str} (hnfc : ∀ s : Str, '\\' ∉ s → '\\' ∉ nfc s) : ∀ (l : List (Str × Re)) (done : List Str), (∀ a ∈ l, a.1 ∈ accents.map (·.1) ∧ a.2 = accentRe a.1) → ∀ {s out : Str},
    Half nfc done s out → ∃ s', Half nfc (l.map (·.1) ++ done) s' out ∧ Spec.Passes Match.start (l.map fun a => (a.2.search, stepOf nfc a.1)) s s'
  | [], done, _, s, out, h => ⟨s, h, .nil _⟩
  | a :: l, done, ha, s, out, h => by
    obtain ⟨h1, h2⟩ := ha a (by simp)
    obtain ⟨s1, g1, g2⟩ := pass_half hnfc h1 s.length (Nat.le_refl _) h
    obtain ⟨s2, g3, g4⟩ := passes_all hnfc l (a.1 :: done) (fun b hb => ha b (by simp [hb])) g1
    refine ⟨s2, half_mono (fun k hk => ?_) g3, ?_⟩
    · simp only [List.map_cons, List.cons_append, List.mem_cons, List.mem_append] at hk ⊢
      rcases hk with h | h | h
      · exact .inr (.inl h)
      · exact .inl h
      · exact .inr (.inr h)
    · rw [List.map_cons]
      refine .cons _ _ _ _ s1 _ ?_ g4
      rw [h2]; exact g2

theorem accent_minLen (k : Str) : 2 ≤ (accentRe k).minLen := by
  unfold accentRe
  split
  · simp only [nameAccentRe, Re.minLen, minLen_lit, Re.plus, nonSpace, reSpace, List.length_cons]; simp
  · simp only [markRe, Re.minLen, minLen_lit, nonSpace, List.length_cons]; simp

theorem accented_end (s : Str) (m : Match) : m.stop - 1 ≤ (accented s m).2 := by
  unfold accented
  split
  · split
    · simp only; omega
    · simp only; omega
  · simp only; omega
  · simp only; omega

/-- C67: `convert_tex_diacritics` ends and replaces each accent of a text by the accented text, and nothing else. -/
theorem C67_convert_partial {nfc : Str → Str} (hnfc : ∀ s : Str, '\\' ∉ s → '\\' ∉ nfc s) {s out : Str} (h : Accented nfc s out) : convertAccents nfc s = some out := by
  obtain ⟨s', h1, h2⟩ := passes_all hnfc accents [] (fun a ha => ⟨List.mem_map_of_mem ha, accents_re a ha⟩) (half_of h)
  rw [List.append_nil] at h1
  rw [half_all h1] at h2
  unfold convertAccents
  refine (C10_patterns _ ?_ s out).2 h2
  intro p hp
  obtain ⟨a, ha, rfl⟩ := List.mem_map.1 hp
  rw [accents_re a ha]
  refine ⟨goodSearch_re _ (nonEmpty_of_minLen _ (by have := accent_minLen a.1; omega)), ?_⟩
  intro t m hm
  have h1 := Re.search_minLen _ t m hm
  have h2 := accent_minLen a.1
  have h3 := accented_end t m
  have h4 : m.len ≤ m.stop := by unfold Match.stop; omega
  show 1 ≤ (accented t m).2
  omega

/-- `a \'{e} b\c c` is converted. -/
example : convertAccents id "a \\'{e} b\\c c!".toList = some ("a e".toList ++ Char.ofNat 0x301 :: (" bc".toList ++ Char.ofNat 0x327 :: ['!'])) :=
  C67_convert_partial (fun _ h => h) (Accented.accent "a ".toList "'" 0x301 "{e}".toList ['e'] " b\\c c!".toList (" bc".toList ++ Char.ofNat 0x327 :: ['!']) (by decide) (by decide)
    (AccentArg.group [] ['e'] (by simp) (by unfold Wrappable Balanced; decide +kernel) (by simp)) (by decide)
    (Accented.accent " b".toList "c" 0x327 " c".toList ['c'] ['!'] ['!'] (by decide) (by decide) (AccentArg.char [' '] 'c' (by decide) (by decide) (by decide) (by decide) (fun h => by cases h))
      (by decide) (.text ['!'] (by decide))))

/-- An accent on nothing, `\'{}`, is put on the brace, and the closing brace stays; an accent on a command, `\'\i`, is put on the backslash. -/
theorem C67_violated_empty_group :
    (firstAccent "\\'{}".toList accents).map (fun a => accented "\\'{}".toList a.2) = some (['{'], 3) ∧
      (firstAccent "\\'\\i".toList accents).map (fun a => accented "\\'\\i".toList a.2) = some (['\\'], 3) := by
  constructor <;> decide +kernel

end L2J.Psr
