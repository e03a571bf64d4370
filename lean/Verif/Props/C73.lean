import Verif.Lemmas.Utf8
/-! C73: the text of a file. -/
namespace L2J.Enc
open L2J.Spec

theorem toByteArray_inj {a b : Bytes} (h : a.toByteArray = b.toByteArray) : a = b := by
  have := congrArg (fun x : ByteArray => x.data.toList) h
  simpa [List.toList_data_toByteArray] using this

theorem firstChar_iff {b : Bytes} {c : Char} : firstChar b = some c ↔ ∃ r, b = String.utf8EncodeChar c ++ r := by
  unfold firstChar
  constructor
  · intro h
    obtain ⟨l, hl⟩ := ByteArray.exists_of_utf8DecodeChar?_eq_some h
    refine ⟨l.data.toList, toByteArray_inj ?_⟩
    rw [hl, List.toByteArray_append]
    congr 1
    apply ByteArray.ext
    simp [List.data_toByteArray]
  · rintro ⟨r, rfl⟩
    rw [List.toByteArray_append]
    exact ByteArray.utf8DecodeChar?_utf8EncodeChar_append

theorem first_char (c : Char) (r : Bytes) : firstChar (String.utf8EncodeChar c ++ r) = some c := firstChar_iff.2 ⟨r, rfl⟩

theorem enc_drop (c : Char) (r : Bytes) : (String.utf8EncodeChar c ++ r).drop c.utf8Size = r := by
  rw [← String.length_utf8EncodeChar, List.drop_left]

theorem enc_cons (c : Char) : ∃ x xs, String.utf8EncodeChar c = x :: xs := by
  cases h : String.utf8EncodeChar c with
  | nil =>
    have := congrArg List.length h
    rw [String.length_utf8EncodeChar] at this
    have := c.utf8Size_pos
    simp at *
  | cons x xs => exact ⟨x, xs, rfl⟩

theorem utf8Go_bytes : ∀ (s : Str) (n : Nat), (utf8Bytes s).length ≤ n → utf8Go n (utf8Bytes s) = some s
  | [], n, _ => by cases n <;> rfl
  | c :: s, n, hn => by
    obtain ⟨x, xs, hx⟩ := enc_cons c
    have e : utf8Bytes (c :: s) = String.utf8EncodeChar c ++ utf8Bytes s := rfl
    rw [e] at hn ⊢
    cases n with
    | zero => rw [hx] at hn; simp at hn
    | succ n =>
      have ih := utf8Go_bytes s n (by rw [hx] at hn; simp at hn; omega)
      have : String.utf8EncodeChar c ++ utf8Bytes s = x :: (xs ++ utf8Bytes s) := by rw [hx]; rfl
      rw [this, utf8Go, ← this, first_char]
      · simp only [enc_drop, ih]; rfl
      · simp

theorem utf8_bytes (s : Str) : utf8 (utf8Bytes s) = some s := utf8Go_bytes s _ (Nat.le_refl _)

theorem newlines_spec : ∀ s, Newlines s (newlines s)
  | [] => .done
  | [c] => by
    unfold newlines
    by_cases h : c = '\r'
    · rw [if_pos h, h]; exact .cr (by simp) .done
    · rw [if_neg h]; exact .other c h .done
  | c :: d :: s => by
    unfold newlines
    by_cases h : c = '\r'
    · rw [if_pos h, h]
      by_cases hd : d = '\n'
      · rw [if_pos hd, hd]; exact .crlf (newlines_spec s)
      · rw [if_neg hd]; exact .cr (by simpa using hd) (newlines_spec (d :: s))
    · rw [if_neg h]; exact .other c h (newlines_spec (d :: s))

theorem newlines_unique {s t} (h : Newlines s t) : newlines s = t := by
  induction h with
  | done => rfl
  | crlf h ih => rw [newlines]; simp [ih]
  | @cr s t hn h ih =>
    cases s with
    | nil => cases h; rfl
    | cons d s =>
      have : d ≠ '\n' := by simpa using hn
      rw [newlines, if_pos rfl, if_neg this, ih]
  | @other c s t hc h ih =>
    cases s with
    | nil => cases h; simp [newlines, hc]
    | cons d s => rw [newlines, if_neg hc, ih]

theorem badLen_pos (b : Bytes) : 1 ≤ badLen b ∧ badLen b ≤ 3 := by
  unfold badLen
  repeat' split
  all_goals omega

theorem badLen_le {x : UInt8} {b : Bytes} : badLen (x :: b) ≤ (x :: b).length := by
  unfold badLen
  split
  · next h => rw [h]; simp; split <;> (try split) <;> omega
  · next h => rw [h]; simp; split <;> omega
  · simp

theorem replaceGo_damaged : ∀ (n : Nat) (b : Bytes), b.length ≤ n → Damaged b (replaceGo n b)
  | n, [], _ => by cases n <;> exact .done
  | 0, x :: b, h => by simp at h
  | n + 1, x :: b, h => by
    rw [replaceGo]
    · cases hc : firstChar (x :: b) with
      | none =>
        have h1 := badLen_pos (x :: b)
        have h2 := @badLen_le x b
        have ih := replaceGo_damaged n ((x :: b).drop (badLen (x :: b))) (by simp at h ⊢; omega)
        have hn : ∀ c, ¬ String.utf8EncodeChar c <+: x :: b := by
          rintro c ⟨r, hr⟩
          rw [firstChar_iff.2 ⟨r, hr.symm⟩] at hc
          cases hc
        have := Damaged.bad ((x :: b).take (badLen (x :: b))) _ ?_ (badLen_begins (by simp)) ?_ ?_ ih
        · rwa [List.take_append_drop] at this
        · intro h
          have := congrArg List.length h
          rw [List.length_take] at this
          simp at this h2
          omega
        · rw [List.take_append_drop]
          rintro p hp ⟨c, hc⟩
          have := badLen_longest (hn c) hp hc
          rw [List.length_take]
          omega
        · rw [List.take_append_drop]
          exact hn
      | some c =>
        obtain ⟨r, hr⟩ := firstChar_iff.1 hc
        obtain ⟨y, ys, hy⟩ := enc_cons c
        simp only [hr, enc_drop]
        refine .char c (replaceGo_damaged n r ?_)
        have := congrArg List.length hr
        rw [hy] at this
        simp at this h
        omega
    · simp

/-- C73: a file in UTF-8 whose first 10000 bytes look like ASCII or UTF-8 (or like nothing) is read as it was written, newlines apart, however long it is and wherever
its characters beyond ASCII are. -/
theorem C73_utf8 (chardet : Chardet) (other : Codecs) (s : Str) (h : LooksUtf8 chardet (utf8Bytes s)) : ∃ t, Newlines s t ∧ readFile chardet other (utf8Bytes s) = .ok t := by
  refine ⟨_, newlines_spec s, ?_⟩
  have : detect chardet (utf8Bytes s) = "utf-8" := by
    unfold detect
    by_cases h0 : (utf8Bytes s).take 10000 = []
    · simp [h0]
    · simp only [h0, if_false]
      rcases h with h | h | h | h | h
      · rw [h] at h0; exact absurd rfl h0
      · simp only [h]; decide
      · cases hh : (chardet ((utf8Bytes s).take 10000)).1 <;> simp only [h, if_true] <;> decide
      · simp only [h]; split <;> decide
      · simp only [h]; split <;> decide
  unfold readFile
  rw [this]
  simp [codec, utf8_bytes]

/-- C73: a file that looks like Latin-1 is read as Latin-1. -/
theorem C73_latin1 (chardet : Chardet) (other : Codecs) (file : Bytes) (h : Looks chardet file "ISO-8859-1") :
    ∃ t, Newlines (file.map fun x => Char.ofNat x.toNat) t ∧ readFile chardet other file = .ok t := by
  refine ⟨_, newlines_spec _, ?_⟩
  obtain ⟨h0, h1, h2⟩ := h
  have : detect chardet file = "latin-1" := by
    unfold detect
    have : file.take 10000 ≠ [] := by simp [h0]
    simp only [this, h1, h2, if_false]
    decide
  unfold readFile
  rw [this]
  simp [codec, latin1]

/-- The name under which Python is asked for an encoding that is not UTF-8 or Latin-1. -/
def _root_.L2J.Spec.pythonName (e : String) : String := if e = "Windows-1252" then "cp1252" else e

theorem detect_other {chardet : Chardet} {file : Bytes} {e : String} (h : Looks chardet file e) (he : e ∉ ["ascii", "utf-8", "ISO-8859-1", "latin-1"]) (other : Codecs) :
    codec other (detect chardet file) = other (pythonName e) := by
  obtain ⟨h0, h1, h2⟩ := h
  have : file.take 10000 ≠ [] := by simp [h0]
  simp only [List.mem_cons, List.not_mem_nil, or_false, not_or] at he
  obtain ⟨a1, a2, a3, a4⟩ := he
  have : detect chardet file = pythonName e := by
    unfold detect
    simp [this, h1, h2, a1, a3, pythonName]
  rw [this]
  unfold codec pythonName
  by_cases hw : e = "Windows-1252"
  · simp [hw]
  · simp [hw, a2, a4]

/-- C73: a file in any other encoding that Python knows is read in that encoding, if all of it is in that encoding. -/
theorem C73_other (chardet : Chardet) (other : Codecs) (file : Bytes) (e : String) (h : Looks chardet file e) (he : e ∉ ["ascii", "utf-8", "ISO-8859-1", "latin-1"])
    {d : Bytes → Option Str} (hd : other (pythonName e) = some d) {s : Str} (hs : d file = some s) : ∃ t, Newlines s t ∧ readFile chardet other file = .ok t := by
  refine ⟨_, newlines_spec s, ?_⟩
  unfold readFile
  rw [detect_other h he, hd]
  simp [hs]

/-- C73: whatever the bytes are, if the encoding is known a text is read: that of the encoding, or the text of the file taken as UTF-8, in which only what is not
UTF-8 is replaced. -/
theorem C73_reads (chardet : Chardet) (other : Codecs) (file : Bytes) {d : Bytes → Option Str} (hd : codec other (detect chardet file) = some d) :
    ∃ s t, (d file = some s ∨ d file = none ∧ Damaged file s) ∧ Newlines s t ∧ readFile chardet other file = .ok t := by
  unfold readFile
  rw [hd]
  cases h : d file with
  | some s => exact ⟨s, _, .inl rfl, newlines_spec s, by simp only [h]⟩
  | none => exact ⟨_, _, .inr ⟨rfl, replaceGo_damaged _ _ (Nat.le_refl _)⟩, newlines_spec _, by simp only [h]; rfl⟩

/-- C73: what stands before the first damage is kept. -/
theorem C73_before_damage (s : Str) (b : Bytes) (t : Str) (h : Damaged (utf8Bytes s ++ b) t) : ∃ u, t = s ++ u ∧ Damaged b u := by
  induction s generalizing t with
  | nil => exact ⟨t, rfl, h⟩
  | cons c s ih =>
    have e : utf8Bytes (c :: s) ++ b = String.utf8EncodeChar c ++ (utf8Bytes s ++ b) := by simp [utf8Bytes]
    rw [e] at h
    generalize hx : String.utf8EncodeChar c ++ (utf8Bytes s ++ b) = x at h
    cases h with
    | done =>
      obtain ⟨y, ys, hy⟩ := enc_cons c
      rw [hy] at hx
      cases hx
    | @char c' b' s' h =>
      have h1 := first_char c (utf8Bytes s ++ b)
      rw [hx, first_char] at h1
      cases h1
      obtain ⟨u, rfl, hu⟩ := ih _ (by rwa [← List.append_cancel_left hx] at h)
      exact ⟨u, rfl, hu⟩
    | bad y b' _ _ _ hn _ => exact absurd ⟨_, hx⟩ (hn c)

theorem Damaged_unique {b : Bytes} {s t : Str} (h1 : Damaged b s) (h2 : Damaged b t) : s = t := by
  induction h1 generalizing t with
  | done =>
    generalize hx : ([] : Bytes) = x at h2
    cases h2 with
    | done => rfl
    | char c _ => obtain ⟨y, ys, hy⟩ := enc_cons c; rw [hy] at hx; cases hx
    | bad x b hx0 => exact absurd (List.append_eq_nil_iff.1 hx.symm).1 hx0
  | @char c b s _ ih =>
    obtain ⟨u, rfl, hu⟩ := C73_before_damage [c] b t (by simpa [utf8Bytes] using h2)
    rw [ih hu]; rfl
  | @bad x b s hx0 hx1 hx2 hn _ ih =>
    generalize hx : x ++ b = z at h2
    cases h2 with
    | done => exact absurd (List.append_eq_nil_iff.1 hx).1 hx0
    | char c _ => exact absurd ⟨_, hx.symm⟩ (hn c)
    | bad y d hy0 hy1 hy2 _ h2 =>
      have l1 : 0 < x.length := List.length_pos_iff.2 hx0
      have l2 : 0 < y.length := List.length_pos_iff.2 hy0
      have e1 : y.length ≤ x.length := by
        rcases hy1 with h | h
        · omega
        · exact hx2 y (hx ▸ List.prefix_append _ _) h
      have e2 : x.length ≤ y.length := by
        rcases hx1 with h | h
        · omega
        · exact hy2 x (hx ▸ List.prefix_append _ _) h
      obtain ⟨rfl, rfl⟩ := List.append_inj hx (by omega)
      rw [ih h2]

/-- C73: what is read from damaged UTF-8 is determined by its bytes. -/
theorem C73_damage_determined (b : Bytes) : ∃ t, Damaged b t ∧ ∀ u, Damaged b u → u = t :=
  ⟨_, replaceGo_damaged _ _ (Nat.le_refl _), fun _ h => Damaged_unique h (replaceGo_damaged _ _ (Nat.le_refl _))⟩

/-- The first two bytes of the euro sign (three), then a letter; the first two of a pair that begins a surrogate: two marks. -/
example : Damaged [0xE2, 0x82, 0x41, 0xED, 0xA0] "\uFFFDA\uFFFD\uFFFD".toList ∧ ¬ Damaged [0xE2, 0x82, 0x41] "\uFFFD\uFFFDA".toList := by
  constructor
  · have := replaceGo_damaged 5 [0xE2, 0x82, 0x41, 0xED, 0xA0] (by decide)
    rwa [show replaceGo 5 [0xE2, 0x82, 0x41, 0xED, 0xA0] = "\uFFFDA\uFFFD\uFFFD".toList from by decide +kernel] at this
  · intro h
    have := Damaged_unique h (replaceGo_damaged 3 _ (by decide))
    rw [show replaceGo 3 [0xE2, 0x82, 0x41] = "\uFFFDA".toList from by decide +kernel] at this
    exact absurd this (by decide)

/-- C73: reading raises exactly when the encoding that the file looks like is not one that Python knows. -/
theorem C73_raises_iff (chardet : Chardet) (other : Codecs) (file : Bytes) : readFile chardet other file = .error () ↔
    ∃ e, Looks chardet file e ∧ e ∉ ["ascii", "utf-8", "ISO-8859-1", "latin-1"] ∧ other (pythonName e) = none := by
  constructor
  · intro h
    have hc : codec other (detect chardet file) = none := by
      unfold readFile at h
      cases hc : codec other (detect chardet file) with
      | none => rfl
      | some d =>
        simp only [hc] at h
        split at h <;> cases h
    by_cases h0 : file = []
    · subst h0
      exact absurd hc (by simp [detect, codec])
    by_cases h2 : (chardet (file.take 10000)).2 < 1 / 2
    · obtain ⟨d, hd⟩ : ∃ d, codec other (detect chardet file) = some d := by
        refine ⟨utf8, ?_⟩
        unfold detect
        have : file.take 10000 ≠ [] := by simp [h0]
        cases hh : (chardet (file.take 10000)).1 <;> simp only [this, h2, hh, if_true, if_false] <;> rfl
      rw [hd] at hc; cases hc
    cases h1 : (chardet (file.take 10000)).1 with
    | none =>
      have : detect chardet file = "utf-8" := by
        unfold detect
        have : file.take 10000 ≠ [] := by simp [h0]
        simp only [this, h1, if_false]
        decide
      rw [this] at hc
      simp [codec] at hc
    | some e =>
      have hl : Looks chardet file e := ⟨h0, h1, h2⟩
      have hne : e ∉ ["ascii", "utf-8", "ISO-8859-1", "latin-1"] := by
        intro he
        have : file.take 10000 ≠ [] := by simp [h0]
        have hd : detect chardet file = "utf-8" ∨ detect chardet file = "latin-1" := by
          unfold detect
          simp only [this, h1, h2, if_false]
          simp only [List.mem_cons, List.not_mem_nil, or_false] at he
          rcases he with rfl | rfl | rfl | rfl <;> decide
        rcases hd with hd | hd <;> rw [hd] at hc <;> simp [codec] at hc
      refine ⟨e, hl, hne, ?_⟩
      rwa [detect_other hl hne] at hc
  · rintro ⟨e, hl, he, hn⟩
    unfold readFile
    rw [detect_other hl he, hn]

/-- C73, violated: a file in an encoding that chardet knows and Python does not (EUC-TW is one) is not read at all, although "latin-1 can read any byte sequence". -/
theorem C73_violated_unknown (chardet : Chardet) (other : Codecs) (file : Bytes) (h : Looks chardet file "EUC-TW") (hn : other "EUC-TW" = none) :
    readFile chardet other file = .error () :=
  (C73_raises_iff chardet other file).2 ⟨_, h, by decide, hn⟩

theorem ascii_bytes {c : Char} (h : c.toNat < 128) : String.utf8EncodeChar c = [UInt8.ofNat c.toNat] := by
  unfold String.utf8EncodeChar
  have : c.val.toNat ≤ 0x7f := by have : c.toNat = c.val.toNat := rfl; omega
  simp only [if_pos this]
  rfl

theorem not_lead {x : UInt8} {q : Bytes} (hx : 128 ≤ x.toNat) (hq : ∀ y ∈ q.head?, y.toNat < 128) (c : Char) : ¬ String.utf8EncodeChar c <+: x :: q := by
  rintro ⟨r, hr⟩
  have key : ∀ (a n : Nat) (l : Bytes), UInt8.ofNat a :: UInt8.ofNat (n % 0x40 + 0x80) :: (l ++ r) ≠ x :: q := by
    intro a n l h
    injection h with _ h
    have := hq (UInt8.ofNat (n % 0x40 + 0x80)) (by rw [← h]; rfl)
    simp at this
    omega
  unfold String.utf8EncodeChar at hr
  simp only at hr
  split at hr
  · next h =>
    injection hr with h1 _
    rw [← h1] at hx
    have : c.toNat = c.val.toNat := rfl
    simp at hx
    omega
  split at hr
  · exact key _ _ [] hr
  split at hr
  · exact key _ _ [_] hr
  · exact key _ _ [_, _] hr

theorem utf8Go_refuses {b : Bytes} (hb : b ≠ []) (hf : firstChar b = none) : ∀ (s : Str) (n : Nat), utf8Go n (utf8Bytes s ++ b) = none
  | [], n => by
    cases n with
    | zero => unfold utf8Go; split <;> simp_all [utf8Bytes]
    | succ n =>
      show utf8Go (n + 1) b = none
      rw [utf8Go, hf]
      exact hb
  | c :: s, n => by
    obtain ⟨x, xs, hx⟩ := enc_cons c
    have e : utf8Bytes (c :: s) ++ b = String.utf8EncodeChar c ++ (utf8Bytes s ++ b) := by simp [utf8Bytes]
    rw [e]
    cases n with
    | zero => rw [hx]; rfl
    | succ n =>
      have : String.utf8EncodeChar c ++ (utf8Bytes s ++ b) = x :: (xs ++ (utf8Bytes s ++ b)) := by rw [hx]; rfl
      rw [this, utf8Go, ← this, first_char]
      · simp only [enc_drop, utf8Go_refuses hb hf s n]; rfl
      · simp

theorem replaceGo_bytes : ∀ (s : Str) (n : Nat) (b : Bytes), replaceGo (s.length + n) (utf8Bytes s ++ b) = s ++ replaceGo n b
  | [], n, b => by simp [utf8Bytes]
  | c :: s, n, b => by
    obtain ⟨x, xs, hx⟩ := enc_cons c
    have e : utf8Bytes (c :: s) ++ b = String.utf8EncodeChar c ++ (utf8Bytes s ++ b) := by simp [utf8Bytes]
    rw [e]
    have : String.utf8EncodeChar c ++ (utf8Bytes s ++ b) = x :: (xs ++ (utf8Bytes s ++ b)) := by rw [hx]; rfl
    rw [this, show (c :: s).length + n = (s.length + n) + 1 from by simp; omega, replaceGo, ← this, first_char]
    · simp only [enc_drop, replaceGo_bytes s n b]; rfl
    · simp

/-- The bytes of a text in Latin-1. -/
def _root_.L2J.Spec.latin1Bytes (s : Str) : Bytes := s.map fun c => UInt8.ofNat c.toNat

theorem ascii_latin1 : ∀ {s : Str}, (∀ c ∈ s, c.toNat < 128) → utf8Bytes s = latin1Bytes s
  | [], _ => rfl
  | c :: s, h => by
    have := ascii_latin1 (s := s) (fun d hd => h d (List.mem_cons_of_mem _ hd))
    show String.utf8EncodeChar c ++ utf8Bytes s = _
    rw [ascii_bytes (h c List.mem_cons_self), this]
    rfl

theorem second_ascii {x y : UInt8} (h : y.toNat < 128) : second x y = false := by
  have : ∀ k : UInt8, 128 ≤ k.toNat → ¬ k ≤ y := by
    intro k hk hle
    have := UInt8.le_iff_toNat_le.1 hle
    omega
  unfold second
  repeat' split
  all_goals simp [this]

theorem badLen_one {x : UInt8} {q : Bytes} (hq : ∀ y ∈ q.head?, y.toNat < 128) : badLen (x :: q) = 1 := by
  unfold badLen
  split
  · next h => injection h with _ h; rw [if_neg]; rw [second_ascii (hq _ (by rw [h]; rfl))]; simp
  · next h => injection h with _ h; rw [if_neg]; rw [second_ascii (hq _ (by rw [h]; rfl))]; simp
  · rfl

theorem newlines_plain : ∀ {s : Str}, '\r' ∉ s → newlines s = s
  | [], _ => rfl
  | c :: s, h => by
    have h1 : c ≠ '\r' := fun e => h (by simp [e])
    exact newlines_unique (.other c h1 (by
      have := newlines_plain (s := s) (fun hm => h (List.mem_cons_of_mem _ hm))
      have h2 := newlines_spec s
      rwa [this] at h2))

/-- Letters beyond ASCII made into U+FFFD. -/
def _root_.L2J.Spec.blot (s : Str) : Str := s.map fun c => if c.toNat < 128 then c else '\uFFFD'

/-- No two letters beyond ASCII side by side. -/
def _root_.L2J.Spec.Isolated (s : Str) : Prop := ∀ a c d b, s = a ++ c :: d :: b → 128 ≤ c.toNat → d.toNat < 128

theorem lone_refused {c : Char} {q : Str} (hc : 128 ≤ c.toNat ∧ c.toNat < 256) (hq : ∀ d ∈ q.head?, d.toNat < 128) :
    firstChar (UInt8.ofNat c.toNat :: latin1Bytes q) = none ∧ badLen (UInt8.ofNat c.toNat :: latin1Bytes q) = 1 := by
  have hx : 128 ≤ (UInt8.ofNat c.toNat).toNat := by simp; omega
  have hhead : ∀ y ∈ (latin1Bytes q).head?, y.toNat < 128 := by
    intro y hy
    cases q with
    | nil => cases hy
    | cons d q =>
      have := hq d rfl
      have e : UInt8.ofNat d.toNat = y := by injection hy
      rw [← e]
      simp
      omega
  refine ⟨?_, badLen_one hhead⟩
  cases h : firstChar (UInt8.ofNat c.toNat :: latin1Bytes q) with
  | none => rfl
  | some d =>
    obtain ⟨r, hr⟩ := firstChar_iff.1 h
    exact absurd ⟨r, hr.symm⟩ (not_lead hx hhead d)

theorem replaceGo_isolated : ∀ (q : Str) (n : Nat), q.length ≤ n → (∀ d ∈ q, d.toNat < 256) → Isolated q → replaceGo n (latin1Bytes q) = blot q
  | [], n, _, _, _ => by cases n <;> rfl
  | c :: q, 0, h, _, _ => by simp at h
  | c :: q, n + 1, h, h1, h2 => by
    have ih := replaceGo_isolated q n (by simpa using h) (fun d hd => h1 d (List.mem_cons_of_mem _ hd))
      (fun a x y b e hx => h2 (c :: a) x y b (by rw [e]; rfl) hx)
    show replaceGo (n + 1) (UInt8.ofNat c.toNat :: latin1Bytes q) = (if c.toNat < 128 then c else '\uFFFD') :: blot q
    rw [replaceGo]
    · by_cases hc : c.toNat < 128
      · have e := ascii_bytes hc
        have : firstChar (UInt8.ofNat c.toNat :: latin1Bytes q) = some c := firstChar_iff.2 ⟨latin1Bytes q, by rw [e]; rfl⟩
        have hd := enc_drop c (latin1Bytes q)
        rw [e] at hd
        simp only [this, if_pos hc]
        rw [← ih]
        exact congrArg (fun b => c :: replaceGo n b) hd
      · have hl := lone_refused (c := c) (q := q) ⟨by omega, h1 c List.mem_cons_self⟩ (by
          intro d hd
          cases q with
          | nil => cases hd
          | cons x q =>
            have e : x = d := by injection hd
            exact e ▸ h2 [] c x q rfl (by omega))
        simp only [hl.1, hl.2, if_neg hc, List.drop_succ_cons, List.drop_zero, ih]
    · simp

/-- C73, violated: a file in Latin-1 whose first letter beyond ASCII comes after the first 10000 bytes, where chardet does not look, is taken as UTF-8: every letter beyond
ASCII (none right behind another) is lost, and U+FFFD stands for it. -/
theorem C73_violated_late (chardet : Chardet) (other : Codecs) (hd : ∀ b, (∀ x ∈ b, x.toNat < 128) → (chardet b).1 = some "ascii") (p q : Str) (c : Char)
    (hp : ∀ d ∈ p, d.toNat < 128 ∧ d ≠ '\r') (hl : 10000 ≤ p.length) (hc : 128 ≤ c.toNat) (hq : ∀ d ∈ c :: q, d.toNat < 256 ∧ d ≠ '\r') (hi : Isolated (c :: q)) :
    readFile chardet other (latin1Bytes (p ++ c :: q)) = .ok (p ++ '\uFFFD' :: blot q) := by
  have hb : blot (c :: q) = '\uFFFD' :: blot q := by
    show (if c.toNat < 128 then c else '\uFFFD') :: blot q = _
    rw [if_neg (by omega)]
  have e : latin1Bytes (p ++ c :: q) = utf8Bytes p ++ latin1Bytes (c :: q) := by
    rw [ascii_latin1 fun d hd => (hp d hd).1]
    simp [latin1Bytes]
  have hlen : (utf8Bytes p).length = p.length := by
    rw [ascii_latin1 fun d hd => (hp d hd).1]; simp [latin1Bytes]
  have hf : firstChar (latin1Bytes (c :: q)) = none := (lone_refused (c := c) (q := q) ⟨hc, (hq c List.mem_cons_self).1⟩ (by
    intro d hd
    cases q with
    | nil => cases hd
    | cons x q =>
      have e : x = d := by injection hd
      exact e ▸ hi [] c x q rfl hc)).1
  have hdet : detect chardet (latin1Bytes (p ++ c :: q)) = "utf-8" := by
    have ht : (latin1Bytes (p ++ c :: q)).take 10000 = (latin1Bytes p).take 10000 := by
      rw [show latin1Bytes (p ++ c :: q) = latin1Bytes p ++ latin1Bytes (c :: q) from by simp [latin1Bytes]]
      exact List.take_append_of_le_length (by simpa [latin1Bytes] using hl)
    have ha : (chardet ((latin1Bytes p).take 10000)).1 = some "ascii" := hd _ (by
      intro x hx
      obtain ⟨d, hd, rfl⟩ := List.mem_map.1 (List.mem_of_mem_take hx)
      have := (hp d hd).1
      simp
      omega)
    unfold detect
    simp only [ht, ha]
    split
    · rfl
    · split <;> decide
  have hn : utf8 (latin1Bytes (p ++ c :: q)) = none := by
    unfold utf8
    generalize (latin1Bytes (p ++ c :: q)).length = n
    rw [e]
    exact utf8Go_refuses (by simp [latin1Bytes]) hf p n
  have hr : utf8Replace (latin1Bytes (p ++ c :: q)) = p ++ '\uFFFD' :: blot q := by
    unfold utf8Replace
    rw [e, show (utf8Bytes p ++ latin1Bytes (c :: q)).length = p.length + (c :: q).length from by rw [List.length_append, hlen]; simp [latin1Bytes], replaceGo_bytes,
      replaceGo_isolated _ _ (Nat.le_refl _) (fun d hd => (hq d hd).1) hi, hb]
  unfold readFile
  rw [hdet]
  simp only [codec, if_true, hn, hr]
  rw [newlines_plain]
  intro hm
  rcases List.mem_append.1 hm with hm | hm
  · exact (hp _ hm).2 rfl
  rcases List.mem_cons.1 hm with hm | hm
  · revert hm; decide
  · obtain ⟨d, hd, e⟩ := List.mem_map.1 hm
    split at e
    · exact (hq d (List.mem_cons_of_mem _ hd)).2 e
    · revert e; decide

/-! Cases that meet the hypotheses. -/

/-- One that finds ASCII everywhere but in what has a byte beyond it. -/
def exDet : Chardet := fun b => if b.all (fun x => x.toNat < 128) then (some "ascii", 1) else if b.contains 0xE9 then (some "ISO-8859-1", 3 / 4) else if b.contains 0xA4 then (some "EUC-TW", 1) else (some "utf-8", 1)

example : ∃ t, Newlines "x\r\né∑".toList t ∧ readFile exDet (fun _ => none) (utf8Bytes "x\r\né∑".toList) = .ok t ∧ t = "x\né∑".toList := by
  obtain ⟨t, h1, h2⟩ := C73_utf8 exDet (fun _ => none) "x\r\né∑".toList (.inr (.inr (.inr (.inr (by decide +kernel)))))
  exact ⟨t, h1, h2, (newlines_unique h1).symm.trans (by decide +kernel)⟩

example : readFile exDet (fun _ => none) [0x61, 0xE9] = .ok ['a', 'é'] := by
  obtain ⟨t, h1, h2⟩ := C73_latin1 exDet (fun _ => none) [0x61, 0xE9] ⟨by simp, by decide +kernel, by decide +kernel⟩
  rw [h2, ← newlines_unique h1]
  exact congrArg Except.ok (by decide +kernel)

example : readFile exDet (fun _ => none) [0xA4, 0xA1] = .error () := C73_violated_unknown _ _ _ ⟨by simp, by decide +kernel, by decide +kernel⟩ rfl

example : readFile exDet (fun _ => none) (latin1Bytes (List.replicate 10000 'a' ++ 'é' :: "té".toList)) = .ok (List.replicate 10000 'a' ++ '\uFFFD' :: "t\uFFFD".toList) := by
  refine C73_violated_late exDet _ ?_ _ "té".toList _ ?_ (by rw [List.length_replicate]; exact Nat.le_refl _) (by decide) (by decide) ?_
  · intro b hb
    have : b.all (fun x => x.toNat < 128) = true := by simpa using hb
    simp [exDet, this]
  · intro d hd
    rw [List.eq_of_mem_replicate hd]
    decide
  · intro a c d b e hc
    match a, e with
    | [], e => cases e; decide
    | [_], e => cases e; exact absurd hc (by decide)
    | _ :: _ :: a, e =>
      have := congrArg List.length e
      simp at this
      omega

end L2J.Enc
