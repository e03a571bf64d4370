import Verif.Lemmas.Eats
import Verif.Props.C29
import Verif.Spec.Definitions
/-! C61: a definition is read as it is written. -/
namespace L2J.Defn
open Cmds L2J.Spec

/-! The words at the beginning. -/

def allWords : List Str := order.flatMap Kind.words

theorem words_next : ∀ w ∈ allWords, ∀ v ∈ allWords, w <+: v → w = v ∨ ∀ c ∈ (v.drop w.length).head?, isLetter c = true := by decide +kernel

theorem mem_all {k : Kind} {w : Str} (h : w ∈ k.words) : w ∈ allWords := by
  unfold allWords
  rw [List.mem_flatMap]
  exact ⟨k, by cases k <;> decide, h⟩

/-- A word that does not begin the text. -/
theorem word_miss {v w X : Str} (hv : v ∈ allWords) (hw : w ∈ allWords) (hX : ∀ c ∈ X.head?, isLetter c = false) (h : ¬ v <+: w) : ¬ v <+: w ++ X := by
  intro hp
  rcases List.prefix_or_prefix_of_prefix hp (List.prefix_append w X) with h1 | h1
  · exact h h1
  · rcases words_next w hw v hv h1 with h2 | h2
    · exact h (h2 ▸ List.prefix_rfl)
    · obtain ⟨t, rfl⟩ := h1
      have ht : t <+: X := (List.prefix_append_right_inj w).1 hp
      rw [List.drop_left] at h2
      cases t with
      | nil => exact h (by simp)
      | cons c t =>
        obtain ⟨u, rfl⟩ := ht
        have h3 := h2 c (by simp)
        rw [hX c (by simp)] at h3; cases h3

theorem anyOf_dead {ws : List Str} {s : Str} (h : ∀ v ∈ ws, ¬ v <+: s) : Dead (anyOf ws) s := by
  induction ws with
  | nil => intro rev g; rfl
  | cons v ws ih => exact Dead.alt (Dead.lit (h v (by simp))) (ih fun u hu => h u (by simp [hu]))

theorem anyOf_hit {w X : Str} {g} : ∀ {ws : List Str}, w ∈ ws → (∀ v ∈ ws, v ≠ w → ¬ v <+: w ++ X) → Eats (anyOf ws) w X g g
  | [], h, _ => by cases h
  | v :: ws, h, hm => by
    by_cases hv : v = w
    · subst hv; exact Eats.left (Eats.lit _ _ _)
    · exact Eats.right (Dead.lit (hm v (by simp) hv)) (anyOf_hit (by simpa [Ne.symm hv] using h) (fun u hu => hm u (by simp [hu])))

theorem words_apart : ∀ k ∈ order, ∀ w ∈ k.words, ∀ v ∈ k.words, v <+: w → v = w := by decide +kernel

theorem kind_order (k : Kind) : k ∈ order := by cases k <;> decide

theorem word_hit {k : Kind} {w X : Str} {g} (hw : w ∈ k.words) (hX : ∀ c ∈ X.head?, isLetter c = false) : Eats (anyOf k.words) w X g g :=
  anyOf_hit hw fun v hv hne => word_miss (mem_all hv) (mem_all hw) hX fun hp => hne (words_apart k (kind_order k) w hw v hv hp)

theorem kind_dead {k : Kind} {w X : Str} (hw : w ∈ allWords) (hX : ∀ c ∈ X.head?, isLetter c = false) (h : ∀ v ∈ k.words, ¬ v <+: w) : Dead k.re (w ++ X) :=
  Dead.seq (Dead.group 0 (anyOf_dead fun v hv => word_miss (mem_all hv) hw hX (h v hv)))

/-- The kinds tried before a kind. -/
def before (k : Kind) : List Kind := order.takeWhile (· ≠ k)

theorem order_split (k : Kind) : ∃ l, order = before k ++ k :: l := by
  cases k <;> exact ⟨_, rfl⟩

theorem words_before : ∀ k ∈ order, ∀ k' ∈ before k, ∀ w ∈ k.words, ∀ v ∈ k'.words, v <+: w →
    (k' = .def_ ∧ k = .definecolor) ∨ (k' = .newtheorem ∧ k = .theoremstyle) := by decide +kernel

theorem firstKind_hit {s : Str} {k : Kind} {m : Match} : ∀ (a b : List Kind), (∀ k' ∈ a, k'.re.matchAt [] s = none) → k.re.matchAt [] s = some m →
    firstKind s (a ++ k :: b) = some (k, m)
  | [], b, _, h => by simp [firstKind, h]
  | k' :: a, b, h0, h => by
    simp only [List.cons_append, firstKind, h0 k' (by simp)]
    exact firstKind_hit a b (fun x hx => h0 x (by simp [hx])) h

/-- The pattern of a kind decides. -/
theorem kind_hit {k : Kind} {w X t rest : Str} {g} (hw : w ∈ k.words) (hX : X = t ++ rest) (hl : ∀ c ∈ X.head?, isLetter c = false)
    (ht : Eats k.tail t rest [(0, w)] g) (hk : k ≠ .definecolor ∧ k ≠ .theoremstyle) :
    firstKind (w ++ X) order = some (k, ⟨[], w ++ X, w.length + t.length, g⟩) := by
  obtain ⟨l, hl2⟩ := order_split k
  have hm : k.re.matchAt [] (w ++ X) = some ⟨[], w ++ X, w.length + t.length, g⟩ := by
    subst hX
    have := (Eats.seq (Eats.group 0 (word_hit (g := []) hw hl)) ht).matchAt []
    rw [List.append_assoc, List.length_append] at this
    exact this
  rw [hl2]
  refine firstKind_hit _ _ (fun k' hk' => (kind_dead (mem_all hw) hl fun v hv hp => ?_).matchAt []) hm
  rcases words_before k (kind_order k) k' hk' w hw v hv hp with h | h
  · exact hk.1 h.2
  · exact hk.2 h.2

/-- The kinds that are read at once. -/
theorem handleN_of {s : Str} {k : Kind} {m : Match} {t : Option Tok} {e : Nat} (h : firstKind s order = some (k, m))
    (h1 : k ≠ .expandafter ∧ k ≠ .endcsname ∧ k ≠ .namedef) (hrun : k.run s m = .ok (t, e)) (n : Nat) : handleN (n + 1) s = .ok (t, (e : Int)) := by
  unfold handleN
  rw [h]
  simp only
  rw [if_neg (fun hh => hh.elim h1.1 h1.2.1)]
  unfold Kind.runInt
  rw [if_neg h1.2.2, hrun]

theorem handle_of {s : Str} {k : Kind} {m : Match} {t : Option Tok} {e : Nat} (h : firstKind s order = some (k, m))
    (h1 : k ≠ .expandafter ∧ k ≠ .endcsname ∧ k ≠ .namedef) (hrun : k.run s m = .ok (t, e)) : handle s = .ok (t, (e : Int)) := handleN_of h h1 hrun s.length

/-- The pattern of a kind decides. -/
theorem kind_run {k : Kind} {w t rest : Str} {g} {x : Option Tok} {e : Nat}
    (hrun : k.run (w ++ (t ++ rest)) ⟨[], w ++ (t ++ rest), w.length + t.length, g⟩ = .ok (x, e))
    (hw : w ∈ k.words) (hl : ∀ c ∈ (t ++ rest).head?, isLetter c = false)
    (ht : Eats k.tail t rest [(0, w)] g) (hk : k ≠ .definecolor ∧ k ≠ .theoremstyle) (h1 : k ≠ .expandafter ∧ k ≠ .endcsname ∧ k ≠ .namedef) :
    handle (w ++ (t ++ rest)) = .ok (x, (e : Int)) :=
  handle_of (kind_hit hw rfl hl ht hk) h1 hrun

/-! `\newcommand`. -/

theorem name_head {n : Str} (h : NameWord n) : ∃ c t, n = c :: t ∧ isNameChar c = true := by
  obtain ⟨h0, h1⟩ := h
  cases n with
  | nil => exact absurd rfl h0
  | cons c t => exact ⟨c, t, rfl, h1 c (by simp)⟩

theorem cmdRe_hit {n rest : Str} {g} (k : Nat) (hn : NameWord n) (hr : ∀ c ∈ rest.head?, isNameChar c = false) :
    Eats (cmdRe k) ('\\' :: n) rest g ((k, n) :: g) :=
  Eats.seq (x := ['\\']) (Eats.lit _ _ _) (Eats.group k (Eats.left (Eats.plus_chr isNameChar hn.1 hn.2 hr)))

theorem head_blank {P : Char → Prop} {ws r : Str} (hws : Blank ws) (h1 : ∀ c, isSpace c = true → P c) (h2 : ∀ c ∈ r.head?, P c) : ∀ c ∈ (ws ++ r).head?, P c := by
  cases ws with
  | nil => exact h2
  | cons d ws => intro c hc; simp at hc; subst hc; exact h1 _ (hws _ (by simp))

theorem space_name (c : Char) (h : isSpace c = true) : isNameChar c = false := by
  cases hc : isNameChar c with
  | false => rfl
  | true => rw [space_not_name c hc] at h; cases h

theorem space_letter (c : Char) (h : isSpace c = true) : isLetter c = false := by
  cases hc : isLetter c with
  | false => rfl
  | true => have := space_name c h; simp [isNameChar, hc] at this

theorem bracket_eats {ws d rest : Str} {g} (hw : Blank ws) (hd : ']' ∉ d) : Eats bracketRe (ws ++ '[' :: (d ++ [']'])) rest g g := by
  unfold bracketRe
  refine Eats.seq (Eats.spaces hw (by simp; decide)) (Eats.seq (x := ['[']) (Eats.lit _ _ _) (Eats.seq (Eats.star_chr _ ?_ (by simp)) (Eats.lit _ _ _)))
  intro c hc; simp; rintro rfl; exact hd hc

theorem wrapAll_flatten (o c : Char) : ∀ (l : List (Str × Str)), wrapAll o c l = (l.map fun e => e.1 ++ o :: (e.2 ++ [c])).flatten
  | [] => rfl
  | (w, a) :: l => by simp [wrapAll, wrapAll_flatten o c l]

theorem brackets_eat {l : List (Str × Str)} {rest ws : Str} {g} (h : ∀ d ∈ l, Blank d.1 ∧ ']' ∉ d.2) (hws : Blank ws) :
    Eats (.star bracketRe) (wrapAll '[' ']' l) (ws ++ '{' :: rest) g g := by
  rw [wrapAll_flatten]
  refine Eats.star _ _ (by intro x hx; obtain ⟨e, _, rfl⟩ := List.mem_map.1 hx; simp) (fun l1 x l2 he => ?_) (Dead.spaces_char hws (by simp; decide) (by decide) (by simp))
  have hx : x ∈ l.map fun e => e.1 ++ '[' :: (e.2 ++ [']']) := by rw [he]; simp
  obtain ⟨e, hm, rfl⟩ := List.mem_map.1 hx
  exact bracket_eats (h e hm).1 (h e hm).2

theorem lazy_flatMap {β} (p : Char → Bool) (c : Char) (rest : Str) (g : List (Nat × Str)) (k : MSt → List β)
    (hk : ∀ rev x r, x ≠ c → k ⟨rev, x :: r, g⟩ = []) : ∀ (d rev : Str) (n : Nat), c ∉ d → (∀ x ∈ d, p x = true) → d.length ≤ n →
    k ⟨d.reverse ++ rev, c :: rest, g⟩ ≠ [] →
    ((iterLazy (Re.chr p).run n ⟨rev, d ++ c :: rest, g⟩).flatMap k).head? = (k ⟨d.reverse ++ rev, c :: rest, g⟩).head?
  | [], rev, n, _, _, _, hne => by
    have hx : ∃ l, iterLazy (Re.chr p).run n ⟨rev, [] ++ c :: rest, g⟩ = ⟨rev, c :: rest, g⟩ :: l := by
      cases n with
      | zero => exact ⟨[], rfl⟩
      | succ n => exact ⟨_, rfl⟩
    obtain ⟨l, hl⟩ := hx
    rw [hl, List.flatMap_cons, List.head?_append]
    cases hh : k ⟨rev, c :: rest, g⟩ with
    | nil => exact absurd hh hne
    | cons y m => show _ = (k ⟨rev, c :: rest, g⟩).head?; rw [hh]; rfl
  | x :: d, rev, n, hc, hp, hn, hne => by
    cases n with
    | zero => simp at hn
    | succ n =>
      have e : Re.run (.chr p) ⟨rev, x :: d ++ c :: rest, g⟩ = [⟨x :: rev, d ++ c :: rest, g⟩] := by simp [Re.run, hp x (by simp)]
      rw [iterLazy, e, List.flatMap_cons, show x :: d ++ c :: rest = x :: (d ++ c :: rest) from rfl, hk rev x _ (by rintro rfl; exact hc (by simp))]
      have ih := lazy_flatMap p c rest g k hk d (x :: rev) n (by simp at hc; exact hc.2) (fun y hy => hp y (by simp [hy])) (by simpa using hn)
        (by simpa using hne)
      simpa using ih

theorem Eats.lazy (p : Char → Bool) (n : Nat) (c : Char) {d rest : Str} {g} (h1 : c ∉ d) (h2 : ∀ x ∈ d, p x = true) :
    Eats (.seq (.group n (.lazyStar (.chr p))) (.lit [c])) (d ++ [c]) rest g ((n, d) :: g) := by
  intro rev
  unfold Hd
  show ((((iterLazy (Re.chr p).run (d ++ [c] ++ rest).length ⟨rev, d ++ [c] ++ rest, g⟩).map _)).flatMap (Re.lit [c]).run).head? = _
  rw [List.flatMap_map, show d ++ [c] ++ rest = d ++ c :: rest by simp]
  have hmatch : (Re.lit [c]).run ⟨d.reverse ++ rev, c :: rest, (n, d) :: g⟩ = [⟨c :: (d.reverse ++ rev), rest, (n, d) :: g⟩] := by
    rw [Re.run_lit, if_pos (by simp)]; rfl
  rw [lazy_flatMap p c rest g _ ?_ d rev _ h1 h2 (by simp) ?_]
  · simp [hmatch]
  · intro rev x r hx
    rw [Re.run_lit, if_neg (by rw [List.isPrefixOf_iff_prefix]; rintro ⟨t, ht⟩; simp at ht; exact hx ht.1.symm)]
  · simp [hmatch]

theorem findIter_blank {ws : Str} (hws : Blank ws) (b : Str) : ∀ rev, defaultRe.findIter 0 rev (ws ++ b) = defaultRe.findIter 0 (ws.reverse ++ rev) b := by
  induction ws with
  | nil => intro rev; rfl
  | cons c ws ih =>
    intro rev
    have hd : Dead defaultRe (c :: (ws ++ b)) := Dead.seq (Dead.char (by
      intro he; simp at he; have := hws c (by simp); rw [he] at this; exact absurd this (by decide)))
    rw [List.cons_append, Re.findIter_none _ _ _ _ (hd.matchAt _), ih (fun x hx => hws x (by simp [hx]))]
    simp

/-- The defaults are found again in the text of the brackets. -/
theorem defaults_found : ∀ (l : List (Str × Str)) (rev : Str), (∀ d ∈ l, Blank d.1 ∧ ']' ∉ d.2 ∧ '\n' ∉ d.2) →
    (defaultRe.findIter 0 rev (wrapAll '[' ']' l)).map (fun d => (d.group 1).getD []) = l.map (·.2)
  | [], rev, _ => by simp [wrapAll, Re.findIter]
  | (ws, d) :: l, rev, h => by
    have h0 := h (ws, d) (by simp)
    rw [wrapAll, findIter_blank h0.1]
    have he : Eats defaultRe ('[' :: (d ++ [']'])) (wrapAll '[' ']' l) [] [(1, d)] :=
      Eats.seq (x := ['[']) (Eats.lit _ _ _) (Eats.lazy _ 1 ']' h0.2.1 (by intro x hx; simp; rintro rfl; exact h0.2.2 hx))
    have hm := he.matchAt (ws.reverse ++ rev)
    rw [show '[' :: (d ++ ']' :: wrapAll '[' ']' l) = '[' :: (d ++ [']']) ++ wrapAll '[' ']' l by simp, Re.findIter_match _ _ _ _ _ (by simp) hm rfl]
    rw [List.map_cons, defaults_found l _ (fun e he => h e (by simp [he]))]
    rfl

theorem digitsVal_natStr (n : Nat) : digitsVal (natStr n) = n := natStr_val n

/-- What follows the name. -/
def _root_.L2J.Spec.NewCommandText.after (c : NewCommandText) (rest : Str) : Str :=
  c.numText ++ (wrapAll '[' ']' c.defaults ++ (c.ws2 ++ '{' :: (c.body ++ '}' :: rest)))

/-- The groups of the match. -/
def groupsOf (c : NewCommandText) : List (Nat × Str) :=
  (4, wrapAll '[' ']' c.defaults) :: ((match c.num with | none => [] | some (_, n) => [(3, natStr n)]) ++ [(if c.braced then 1 else 2, c.name), (0, c.word.toList)])

theorem number_eats {ws r : Str} {n : Nat} {g} (hw : Blank ws) :
    Eats (.seq spaces (.seq (.lit ['[']) (.seq (.group 3 (.plus (.chr isDigit))) (.lit [']'])))) (ws ++ '[' :: (natStr n ++ [']'])) r g ((3, natStr n) :: g) :=
  Eats.seq (Eats.spaces hw (by simp; decide)) (Eats.seq (x := ['[']) (Eats.lit _ _ _)
    (Eats.seq (Eats.group 3 (Eats.plus_chr isDigit (natStr_ne_nil n) isDigit_nat (by simp; decide))) (Eats.lit _ _ _)))

theorem postNew_eats (c : NewCommandText) (h : c.Ok) (rest : Str) :
    Eats postNew ((if c.star then ['*'] else []) ++ (c.ws ++ (c.target ++ (c.numText ++ (wrapAll '[' ']' c.defaults ++ (c.ws2 ++ ['{']))))))
      (c.body ++ '}' :: rest) [(0, c.word.toList)] (groupsOf c) := by
  obtain ⟨-, hws, hn, hnum, hdef, hd, hws2, -⟩ := h
  have htail : ∀ c' ∈ (c.numText ++ (wrapAll '[' ']' c.defaults ++ (c.ws2 ++ '{' :: (c.body ++ '}' :: rest)))).head?, isNameChar c' = false := by
    have h3 : ∀ x ∈ (c.ws2 ++ '{' :: (c.body ++ '}' :: rest)).head?, isNameChar x = false := head_blank hws2 space_name (by simp; decide)
    have h2 : ∀ x ∈ (wrapAll '[' ']' c.defaults ++ (c.ws2 ++ '{' :: (c.body ++ '}' :: rest))).head?, isNameChar x = false := by
      cases hl : c.defaults with
      | nil => simpa [wrapAll] using h3
      | cons e l =>
        obtain ⟨w, a⟩ := e
        rw [wrapAll, List.append_assoc]
        exact head_blank (hd (w, a) (by rw [hl]; simp)).1 space_name (by simp; decide)
    unfold NewCommandText.numText
    cases hc : c.num with
    | none => exact h2
    | some x =>
      obtain ⟨w, n⟩ := x
      simp only [List.append_assoc]
      exact head_blank (hnum (w, n) (by rw [hc]; simp)) space_name (by simp; decide)
  have htarget : Eats (.alt (.seq (.lit ['{']) (.seq (cmdRe 1) (.lit ['}']))) (cmdRe 2)) c.target (c.numText ++ (wrapAll '[' ']' c.defaults ++ (c.ws2 ++ '{' :: (c.body ++ '}' :: rest))))
      [(0, c.word.toList)] [(if c.braced then 1 else 2, c.name), (0, c.word.toList)] := by
    unfold NewCommandText.target
    cases hb : c.braced with
    | true =>
      refine Eats.left (Eats.seq (x := ['{']) (y := '\\' :: (c.name ++ ['}'])) (Eats.lit _ _ _) ?_)
      have := Eats.seq (rest := c.numText ++ (wrapAll '[' ']' c.defaults ++ (c.ws2 ++ '{' :: (c.body ++ '}' :: rest)))) (cmdRe_hit (g := [(0, c.word.toList)]) 1 hn (rest := ['}'] ++ _) (by simp; decide)) (Eats.lit ['}'] _ _)
      exact this
    | false => exact Eats.right (Dead.seq (Dead.char (by simp))) (cmdRe_hit 2 hn htail)
  have hnumber : Eats (.opt (.seq spaces (.seq (.lit ['[']) (.seq (.group 3 (.plus (.chr isDigit))) (.lit [']']))))) c.numText (wrapAll '[' ']' c.defaults ++ (c.ws2 ++ '{' :: (c.body ++ '}' :: rest)))
      [(if c.braced then 1 else 2, c.name), (0, c.word.toList)]
      ((match c.num with | none => [] | some (_, n) => [(3, natStr n)]) ++ [(if c.braced then 1 else 2, c.name), (0, c.word.toList)]) := by
    unfold NewCommandText.numText
    cases hc : c.num with
    | none =>
      rw [hdef hc]
      simp only [wrapAll, List.nil_append]
      exact Eats.optNone (Dead.spaces_char hws2 (by simp; decide) (by decide) (by simp))
    | some x =>
      obtain ⟨w, n⟩ := x
      exact Eats.optSome (number_eats (hnum (w, n) (by rw [hc]; simp)))
  unfold postNew
  refine Eats.seq (g1 := [(0, c.word.toList)]) ?_ (Eats.seq (Eats.spaces hws ?_) (Eats.seq (g1 := [(if c.braced then 1 else 2, c.name), (0, c.word.toList)]) ?_ (Eats.seq (g1 := (match c.num with | none => [] | some (_, n) => [(3, natStr n)]) ++ [(if c.braced then 1 else 2, c.name), (0, c.word.toList)]) ?_ (Eats.seq (g1 := groupsOf c) ?_ (Eats.seq (Eats.spaces hws2 ?_) (Eats.lit _ _ _))))))
  · cases c.star with
    | true => exact Eats.optSome (Eats.lit _ _ _)
    | false =>
      refine Eats.optNone (Dead.char ?_)
      have := head_blank (P := fun x => x ≠ '*') (r := c.target ++ (c.numText ++ (wrapAll '[' ']' c.defaults ++ (c.ws2 ++ ['{']))) ++ (c.body ++ '}' :: rest)) hws (by rintro x hx rfl; exact absurd hx (by decide)) (by unfold NewCommandText.target; cases c.braced <;> simp)
      intro he
      rw [List.append_assoc] at he
      exact this '*' he rfl
  · unfold NewCommandText.target; cases c.braced <;> simp <;> decide
  · simpa [List.append_assoc] using htarget
  · simpa [List.append_assoc] using hnumber
  · have := Eats.group 4 (brackets_eat (rest := c.body ++ '}' :: rest) (g := (match c.num with | none => [] | some (_, n) => [(3, natStr n)]) ++ [(if c.braced then 1 else 2, c.name), (0, c.word.toList)]) (fun d hx => ⟨(hd d hx).1, (hd d hx).2.1⟩) hws2)
    simpa [List.append_assoc, groupsOf] using this
  · simp; decide

/-- The token a definition should give. -/
def _root_.L2J.Spec.NewCommandText.meaning (c : NewCommandText) : Tok :=
  .cmd (.newcommand c.name c.body ((c.num.map (·.2)).getD 0) (c.defaults.map (·.2)) (c.word == "\\DeclareMathOperator"))

/-- C61: a written `\newcommand` gives a definition with exactly its name, number of arguments, defaults and body, and exactly its text is
used up. -/
theorem C61_newcommand (c : NewCommandText) (h : c.Ok) (rest : Str) : handle (c.written ++ rest) = .ok (some c.meaning, c.written.length) := by
  have hp := postNew_eats c h rest
  generalize ht : (if c.star then ['*'] else []) ++ (c.ws ++ (c.target ++ (c.numText ++ (wrapAll '[' ']' c.defaults ++ (c.ws2 ++ ['{']))))) = t at hp
  have hwr : c.written ++ rest = c.word.toList ++ (t ++ (c.body ++ '}' :: rest)) := by
    rw [← ht]; simp [NewCommandText.written]
  have hlen : c.written.length = c.word.toList.length + t.length + c.body.length + 1 := by
    rw [← ht]; simp [NewCommandText.written]; omega
  have hhead : ∀ x ∈ (t ++ (c.body ++ '}' :: rest)).head?, isLetter x = false := by
    rw [← ht]
    cases c.star with
    | true => simp; decide
    | false =>
      have : ∀ x ∈ ((c.ws ++ ((c.target ++ (c.numText ++ (wrapAll '[' ']' c.defaults ++ (c.ws2 ++ ['{'])))) ++ (c.body ++ '}' :: rest)))).head?, isLetter x = false :=
        head_blank h.2.1 space_letter (by unfold NewCommandText.target; cases c.braced <;> simp <;> decide)
      intro x hx
      exact this x (by simpa [List.append_assoc] using hx)
  have hlast : ∃ t', t = t' ++ ['{'] := ⟨(if c.star then ['*'] else []) ++ (c.ws ++ (c.target ++ (c.numText ++ (wrapAll '[' ']' c.defaults ++ c.ws2)))), by rw [← ht]; simp only [List.append_assoc]⟩
  have hbody : extractNestedContent ((c.word.toList ++ (t ++ (c.body ++ '}' :: rest))).drop (c.word.toList.length + t.length - 1)) '{' '}' = some (c.body, c.body.length + 2) := by
    obtain ⟨t', rfl⟩ := hlast
    have e : c.word.toList ++ (t' ++ ['{'] ++ (c.body ++ '}' :: rest)) = (c.word.toList ++ t') ++ '{' :: (c.body ++ '}' :: rest) := by simp
    rw [e, show c.word.toList.length + (t' ++ ['{']).length - 1 = (c.word.toList ++ t').length by simp, List.drop_left]
    have := C01_round_trip [] c.body rest '{' '}' (by simp) (by decide) (by decide) (by decide) h.2.2.2.2.2.2.2.1 h.2.2.2.2.2.2.2.2
    simpa using this
  have hpos : 1 ≤ t.length := by obtain ⟨t', rfl⟩ := hlast; simp
  have htok : ∀ b, newcommandTok (c.word.toList ++ (t ++ (c.body ++ '}' :: rest))) ⟨[], c.word.toList ++ (t ++ (c.body ++ '}' :: rest)), c.word.toList.length + t.length, groupsOf c⟩ b =
      (some (.cmd (.newcommand c.name c.body ((c.num.map (·.2)).getD 0) (c.defaults.map (·.2)) b)), c.written.length) := by
    intro b
    unfold newcommandTok
    have hs : Match.stop ⟨[], c.word.toList ++ (t ++ (c.body ++ '}' :: rest)), c.word.toList.length + t.length, groupsOf c⟩ = c.word.toList.length + t.length := by
      simp [Match.stop]
    rw [hs, hbody]
    have g12 : ((Match.group ⟨[], c.word.toList ++ (t ++ (c.body ++ '}' :: rest)), c.word.toList.length + t.length, groupsOf c⟩ 1).orElse
        fun _ => Match.group ⟨[], c.word.toList ++ (t ++ (c.body ++ '}' :: rest)), c.word.toList.length + t.length, groupsOf c⟩ 2) = some c.name := by
      unfold Match.group groupsOf
      cases c.num <;> cases c.braced <;> simp
    have g3 : (Match.group ⟨[], c.word.toList ++ (t ++ (c.body ++ '}' :: rest)), c.word.toList.length + t.length, groupsOf c⟩ 3) = c.num.map fun x => natStr x.2 := by
      unfold Match.group groupsOf
      cases c.num <;> cases c.braced <;> simp
    have g4 : (Match.group ⟨[], c.word.toList ++ (t ++ (c.body ++ '}' :: rest)), c.word.toList.length + t.length, groupsOf c⟩ 4) = some (wrapAll '[' ']' c.defaults) := by
      unfold Match.group groupsOf; simp
    simp only [g12, g3, g4, Option.getD_some]
    rw [defaults_found _ _ h.2.2.2.2.2.1, hlen]
    refine Prod.ext ?_ (by simp; omega)
    cases c.num <;> simp [digitsVal_natStr]
  rw [hwr]
  have hword := h.1
  unfold NewCommandText.meaning
  simp only [newCommandWords, List.mem_cons, List.not_mem_nil, or_false] at hword
  have fin : ∀ (k : Kind) (b : Bool), c.word.toList ∈ k.words → k.tail = postNew → k ≠ .definecolor ∧ k ≠ .theoremstyle → k ≠ .expandafter ∧ k ≠ .endcsname ∧ k ≠ .namedef →
      (∀ s m, k.run s m = .ok (newcommandTok s m b)) → (c.word == "\\DeclareMathOperator") = b →
      handle (c.word.toList ++ (t ++ (c.body ++ '}' :: rest))) =
        .ok (some (.cmd (.newcommand c.name c.body ((c.num.map (·.2)).getD 0) (c.defaults.map (·.2)) (c.word == "\\DeclareMathOperator"))), c.written.length) := by
    intro k b h1 h2 h3 h4 h5 h6
    refine kind_run (g := groupsOf c) ?_ h1 hhead (h2 ▸ hp) h3 h4
    rw [h5, htok, h6]
  rcases hword with e | e | e | e | e
  · exact fin .newcommand false (by rw [e]; decide +kernel) rfl (by decide) (by decide) (fun _ _ => rfl) (by rw [e]; decide +kernel)
  · exact fin .newcommand false (by rw [e]; decide +kernel) rfl (by decide) (by decide) (fun _ _ => rfl) (by rw [e]; decide +kernel)
  · exact fin .newcommand false (by rw [e]; decide +kernel) rfl (by decide) (by decide) (fun _ _ => rfl) (by rw [e]; decide +kernel)
  · exact fin .robust false (by rw [e]; decide +kernel) rfl (by decide) (by decide) (fun _ _ => rfl) (by rw [e]; decide +kernel)
  · exact fin .operator true (by rw [e]; decide +kernel) rfl (by decide) (by decide) (fun _ _ => rfl) (by rw [e]; decide +kernel)

/-! `\let` and `\def`. -/

theorem expand_dead {n rest : Str} (h : OrdinaryName n) (hr : ∀ c ∈ rest.head?, isNameChar c = false) : Dead skipExpand ('\\' :: (n ++ rest)) := by
  have key : ∀ w : Str, (∀ c ∈ w, isNameChar c = true) → ¬ w <+: n → ¬ w <+: n ++ rest := by
    intro w hw hn hp
    rcases List.prefix_or_prefix_of_prefix hp (List.prefix_append n rest) with h1 | h1
    · exact hn h1
    · obtain ⟨t, rfl⟩ := h1
      have ht : t <+: rest := (List.prefix_append_right_inj n).1 hp
      cases t with
      | nil => exact hn (by simp)
      | cons c t =>
        obtain ⟨u, rfl⟩ := ht
        have h1 := hr c (by simp)
        rw [hw c (by simp)] at h1; cases h1
  have hd : Dead expandRe ('\\' :: (n ++ rest)) :=
    Dead.after_lit (t := ['\\']) (Dead.seq (Dead.alt (Dead.lit (key _ (by decide +kernel) h.2.1)) (Dead.lit (key _ (by decide +kernel) h.2.2.1))))
  exact Dead.spaces (ws := []) (by simp) (by simp; decide) (fun c t hc => Dead.seq (Dead.char (by intro he; simp at he; rw [he] at hc; exact absurd hc (by decide)))) hd

theorem csname_dead {n rest : Str} (h : OrdinaryName n) (hr : ∀ c ∈ rest.head?, isNameChar c = false) : concatCsname ('\\' :: (n ++ rest)) = none := by
  have hd : Dead startCsname ('\\' :: (n ++ rest)) := by
    apply Dead.seq
    apply Dead.lit
    rw [show "\\csname".toList = '\\' :: "csname".toList from rfl, List.cons_prefix_cons]
    rintro ⟨-, hp⟩
    rcases List.prefix_or_prefix_of_prefix hp (List.prefix_append n rest) with h1 | h1
    · exact h.2.2.2 h1
    · obtain ⟨t, ht'⟩ := h1
      have hw : ∀ c ∈ "csname".toList, isNameChar c = true := by decide +kernel
      rw [← ht'] at hp hw
      have ht : t <+: rest := (List.prefix_append_right_inj n).1 hp
      cases t with
      | nil => exact h.2.2.2 (by rw [← ht']; simp)
      | cons c t =>
        obtain ⟨u, rfl⟩ := ht
        have h1 := hr c (by simp)
        rw [hw c (by simp)] at h1; cases h1
  unfold concatCsname
  rw [hd.matchAt]

theorem csnames_none {pre n rest : Str} (k m : Nat) (h : OrdinaryName n) (hr : ∀ c ∈ rest.head?, isNameChar c = false) :
    csnames (pre ++ '\\' :: (n ++ rest)) k (m + 1) pre.length [] = some (pre.length, []) := by
  unfold csnames
  rw [if_neg (by simp), List.drop_left, (expand_dead h hr).matchAt, csname_dead h hr]
  simp only
  split <;> rfl

/-- `\let` and `\def` without `\csname`. -/
theorem defPrefix_plain (isLet : Bool) {w ws n rest : Str} {g} (h : OrdinaryName n) (hr : ∀ c ∈ rest.head?, isNameChar c = false) :
    defPrefix isLet (w ++ (ws ++ '\\' :: (n ++ rest))) ⟨[], w ++ (ws ++ '\\' :: (n ++ rest)), w.length + (ws.length + 1), g⟩ =
      (if isLet then
        match letFull.matchAt [] (w ++ (ws ++ '\\' :: (n ++ rest))) with
        | none => .ok (none, 0)
        | some fm => .ok (some (letTok fm none), fm.stop)
      else
        match defFull.matchAt [] (w ++ (ws ++ '\\' :: (n ++ rest))) with
        | none => .ok (none, 0)
        | some fm => defTok (w ++ (ws ++ '\\' :: (n ++ rest))) fm (w.length + ws.length + 1) none) := by
  have hpos : Match.stop ⟨[], w ++ (ws ++ '\\' :: (n ++ rest)), w.length + (ws.length + 1), g⟩ - 1 = (w ++ ws).length := by
    simp [Match.stop]
  have htext : (Match.text ⟨[], w ++ (ws ++ '\\' :: (n ++ rest)), w.length + (ws.length + 1), g⟩).dropLast = w ++ ws := by
    unfold Match.text
    rw [show w ++ (ws ++ '\\' :: (n ++ rest)) = (w ++ ws ++ ['\\']) ++ (n ++ rest) by simp,
      List.take_left' (by simp)]
    simp
  have hat : (w ++ (ws ++ '\\' :: (n ++ rest)))[(w ++ ws).length]? = some '\\' := by
    rw [show w ++ (ws ++ '\\' :: (n ++ rest)) = (w ++ ws) ++ '\\' :: (n ++ rest) by simp]; simp
  have hs : w ++ ws ++ ['\\'] ++ (w ++ (ws ++ '\\' :: (n ++ rest))).drop ((w ++ ws).length + 1) = w ++ (ws ++ '\\' :: (n ++ rest)) := by
    rw [show w ++ (ws ++ '\\' :: (n ++ rest)) = (w ++ ws ++ ['\\']) ++ (n ++ rest) by simp,
      List.drop_left' (by simp <;> omega)]
  unfold defPrefix
  rw [hpos, htext]
  have := csnames_none (pre := w ++ ws) (if isLet then 2 else 1) ((w ++ (ws ++ '\\' :: (n ++ rest))).length) h hr
  rw [show w ++ (ws ++ '\\' :: (n ++ rest)) = (w ++ ws) ++ '\\' :: (n ++ rest) by simp] at this ⊢
  rw [this]
  rw [show w ++ (ws ++ '\\' :: (n ++ rest)) = (w ++ ws) ++ '\\' :: (n ++ rest) by simp] at hat hs
  simp only [List.isEmpty_nil, if_true, List.head?_nil, hat, hs]
  have hlen : (w ++ ws ++ ['\\']).length = (w ++ ws).length + 1 := by rw [List.length_append]; rfl
  cases isLet with
  | true =>
    simp only [if_true]
    cases letFull.matchAt [] (w ++ ws ++ '\\' :: (n ++ rest)) with
    | none => rfl
    | some fm => simp only [hlen]; rw [Nat.add_sub_cancel_left]
  | false =>
    simp only [Bool.false_eq_true, if_false]
    cases defFull.matchAt [] (w ++ ws ++ '\\' :: (n ++ rest)) with
    | none => rfl
    | some fm =>
      simp only [hlen]
      rw [show (w ++ ws).length + 1 = w.length + ws.length + 1 by simp]
      cases hx : defTok (w ++ ws ++ '\\' :: (n ++ rest)) fm (w.length + ws.length + 1) none with
      | error e => rfl
      | ok r => simp only; rw [Nat.add_sub_cancel_left]

theorem strip_id {s : Str} (h2 : ∀ c ∈ s, isSpace c = false) : strip s = s := by
  have key : ∀ t : Str, (∀ c ∈ t, isSpace c = false) → t.dropWhile isSpace = t := by
    intro t ht
    cases t with
    | nil => rfl
    | cons c t => rw [List.dropWhile_cons_of_neg (by rw [ht c (by simp)]; simp)]
  unfold strip lstrip rstrip
  rw [key s h2, key _ (by simpa using h2)]
  simp

theorem name_char_facts {c : Char} (h : isNameChar c = true) : isSpace c = false ∧ c ≠ '{' ∧ c ≠ '\\' ∧ c ≠ '=' ∧ c ≠ '#' ∧ c ≠ '}' ∧ c ≠ '[' := by
  refine ⟨space_not_name c h, ?_, ?_, ?_, ?_, ?_, ?_⟩ <;> (rintro rfl; revert h; decide)

theorem letWords_hit {X : Str} {g} (hX : ∀ c ∈ X.head?, isLetter c = false) : Eats (anyOf letWords) "\\let".toList X g g :=
  word_hit (k := .let_) (by decide +kernel) hX

/-- The name and the target of a `\let`. -/
theorem letFull_hit (l : LetText) (h : l.Ok) (rest : Str) (hr : ∀ c ∈ rest.head?, isSpace c = true ∨ c = '{') (g) :
    Eats letFull l.written rest g ((2, '\\' :: l.target) :: (1, l.name ++ l.eq.takeWhile (· == '=')) :: g) := by
  obtain ⟨hws, hn, heq, ht0, ht⟩ := h
  unfold letFull LetText.written
  have hsplit : ∃ b, Blank b ∧ l.eq = l.eq.takeWhile (· == '=') ++ b ∧ ∀ c ∈ l.eq.takeWhile (· == '='), c = '=' := by
    rcases heq with hb | ⟨b, hb, he⟩
    · have hnil : l.eq.takeWhile (· == '=') = [] := by
        cases hl : l.eq with
        | nil => rfl
        | cons c t =>
          rw [List.takeWhile_cons_of_neg]
          intro hc; simp at hc; subst hc
          have := hb '=' (by rw [hl]; simp)
          exact absurd this (by decide)
      exact ⟨l.eq, hb, by rw [hnil]; rfl, by rw [hnil]; simp⟩
    · have hnil : b.takeWhile (· == '=') = [] := by
        cases hl : b with
        | nil => rfl
        | cons c t =>
          rw [List.takeWhile_cons_of_neg]
          intro hc; simp at hc; subst hc
          have := hb '=' (by rw [hl]; simp)
          exact absurd this (by decide)
      refine ⟨b, hb, ?_, ?_⟩ <;> rw [he, List.takeWhile_cons_of_pos (by simp), hnil] <;> simp
  obtain ⟨b, hb, he, hch⟩ := hsplit
  generalize l.eq.takeWhile (· == '=') = q at he hch ⊢
  rw [he]
  rw [show l.name ++ (q ++ b ++ '\\' :: l.target) = (l.name ++ q) ++ (b ++ '\\' :: l.target) by simp]
  have hname : ∀ c ∈ l.name ++ q, (!isSpace c && c != '{' && c != '\\') = true := by
    intro c hc
    rcases List.mem_append.1 hc with hc | hc
    · have := name_char_facts (hn.1.2 c hc); simp [this.1, this.2.1, this.2.2.1]
    · rw [hch c hc]; decide
  refine Eats.seq (letWords_hit ?_) (Eats.seq (Eats.spaces hws ?_) (Eats.seq (x := ['\\']) (Eats.lit _ _ _) (Eats.seq (Eats.group 1 (Eats.plus_chr _ ?_ hname ?_)) (Eats.seq (Eats.spaces hb ?_) (Eats.group 2 (Eats.right (Dead.seq (Dead.char ?_)) (Eats.seq (x := ['\\']) (Eats.lit _ _ _) (Eats.plus_chr _ ht0 ?_ ?_))))))))
  · rw [List.append_assoc]; exact head_blank hws space_letter (by simp; decide)
  · simp; decide
  · have := hn.1.1; simp [this]
  · rw [List.append_assoc]; exact head_blank (P := fun c => (!isSpace c && c != '{' && c != '\\') = false) hb (fun c hc => by simp [hc]) (by simp)
  · simp; decide
  · simp
  · intro c hc; simp [ht c hc]
  · intro c hc; rcases hr c hc with h | h <;> simp [h]

theorem endsWith_eq (n : Str) (h : ∀ c ∈ n, c ≠ '=') : endsWith n ['='] = false := by
  unfold endsWith
  cases hx : (['='] : Str).isSuffixOf n with
  | false => rfl
  | true =>
    rw [List.isSuffixOf_iff_suffix] at hx
    exact absurd rfl (h '=' (hx.subset (by simp)))

/-- C61: a written `\let` gives a definition with exactly its name and its target, if white space, an opening brace or the end of the text
follows. -/
theorem C61_let (l : LetText) (h : l.Ok) (rest : Str) (hr : ∀ c ∈ rest.head?, isSpace c = true ∨ c = '{') :
    handle (l.written ++ rest) = .ok (some (.cmd (.let_ l.name ('\\' :: l.target) none)), l.written.length) := by
  have hm := (letFull_hit l h rest hr []).matchAt []
  obtain ⟨hws, hn, heq, ht0, ht⟩ := h
  have hfirst : firstKind (l.written ++ rest) order = some (.let_, ⟨[], l.written ++ rest, "\\let".toList.length + (l.ws ++ ['\\']).length, [(0, "\\let".toList)]⟩) := by
    unfold LetText.written
    rw [List.append_assoc]
    refine kind_hit (k := .let_) (rest := l.name ++ (l.eq ++ '\\' :: l.target) ++ rest) (by decide +kernel) (by simp) ?_ ?_ (by decide)
    · rw [List.append_assoc]; exact head_blank hws space_letter (by simp; decide)
    · exact Eats.seq (Eats.spaces hws (by simp; decide)) (Eats.lit _ _ _)
  refine handle_of hfirst (by decide) ?_
  show defPrefix true _ _ = _
  have hafter : ∀ c ∈ (l.eq ++ '\\' :: (l.target ++ rest)).head?, isNameChar c = false := by
    rcases heq with hb | ⟨b, hb, he⟩
    · exact head_blank hb space_name (by simp; decide)
    · rw [he]; simp; decide
  have hp := defPrefix_plain true (w := "\\let".toList) (ws := l.ws) (g := [(0, "\\let".toList)]) hn hafter
  rw [if_pos rfl, show "\\let".toList ++ (l.ws ++ '\\' :: (l.name ++ (l.eq ++ '\\' :: (l.target ++ rest)))) = l.written ++ rest by simp [LetText.written], hm] at hp
  rw [show (l.ws ++ ['\\']).length = l.ws.length + 1 by simp, hp]
  have hnc : ∀ c ∈ l.name, isSpace c = false ∧ c ≠ '=' := fun c hc => ⟨(name_char_facts (hn.1.2 c hc)).1, (name_char_facts (hn.1.2 c hc)).2.2.2.1⟩
  have hq : l.eq.takeWhile (· == '=') = [] ∨ l.eq.takeWhile (· == '=') = ['='] := by
    have hnil : ∀ b, Blank b → b.takeWhile (· == '=') = [] := by
      intro b hb
      cases b with
      | nil => rfl
      | cons c t =>
        rw [List.takeWhile_cons_of_neg]
        intro hc; simp at hc; subst hc
        exact absurd (hb '=' (by simp)) (by decide)
    rcases heq with hb | ⟨b, hb, he⟩
    · exact Or.inl (hnil _ hb)
    · right; rw [he, List.takeWhile_cons_of_pos (by simp), hnil b hb]
  have htok : letTok ⟨[], l.written ++ rest, l.written.length, [(2, '\\' :: l.target), (1, l.name ++ l.eq.takeWhile (· == '='))]⟩ none =
      .cmd (.let_ l.name ('\\' :: l.target) none) := by
    have g1 : Match.group ⟨[], l.written ++ rest, l.written.length, [(2, '\\' :: l.target), (1, l.name ++ l.eq.takeWhile (· == '='))]⟩ 1 = some (l.name ++ l.eq.takeWhile (· == '=')) := by
      simp [Match.group]
    have g2 : Match.group ⟨[], l.written ++ rest, l.written.length, [(2, '\\' :: l.target), (1, l.name ++ l.eq.takeWhile (· == '='))]⟩ 2 = some ('\\' :: l.target) := by
      simp [Match.group]
    have hfut : startsWith (Match.text ⟨[], l.written ++ rest, l.written.length, [(2, '\\' :: l.target), (1, l.name ++ l.eq.takeWhile (· == '='))]⟩) "\\futurelet".toList = false := by
      unfold Match.text
      rw [List.take_left]
      unfold LetText.written startsWith
      rw [show "\\let".toList = ['\\', 'l', 'e', 't'] from rfl, show "\\futurelet".toList = '\\' :: 'f' :: "uturelet".toList from rfl]
      simp [List.isPrefixOf]
    unfold letTok
    rw [g1, g2]
    simp only [Option.getD_some]
    rw [strip_id (s := '\\' :: l.target) (by intro c hc; rcases List.mem_cons.1 hc with rfl | hc; decide; exact (ht c hc).1)]
    rw [strip_id (s := l.name ++ l.eq.takeWhile (· == '=')) (by
      intro c hc
      rcases List.mem_append.1 hc with hc | hc
      · exact (hnc c hc).1
      · rcases hq with h | h <;> rw [h] at hc <;> simp at hc; rw [hc]; decide)]
    rw [show startsWith ('\\' :: l.target) ['='] = false from by simp [startsWith, List.isPrefixOf]]
    simp only [Bool.false_eq_true, if_false, hfut]
    rcases hq with h | h
    · rw [h, List.append_nil, endsWith_eq _ (fun c hc => (hnc c hc).2)]; rfl
    · rw [h, show endsWith (l.name ++ ['=']) ['='] = true from by simp [endsWith, List.isSuffixOf_iff_suffix]]
      simp
  simp only [htok]
  simp [Match.stop]

/-! `\def`. -/

/-- One item of a parameter text. -/
def paramRe : Re := .alt (.seq (.lit ['#']) (.plus (.chr isDigit))) (.chr (· != '{'))

theorem takeDigits (d : Str) : (∀ c ∈ d.takeWhile isDigit, isDigit c = true) ∧ ∀ c ∈ (d.dropWhile isDigit).head?, isDigit c = false := by
  constructor
  · intro c hc
    have := List.all_takeWhile (l := d) (p := isDigit)
    rw [List.all_eq_true] at this
    exact this c hc
  · intro c hc
    have h := List.head?_dropWhile_not isDigit d
    rw [Option.mem_def.1 hc] at h
    simpa using h

/-- The items of a parameter text. -/
theorem params_items (r : Str) (g : List (Nat × Str)) : ∀ (n : Nat) (p : Str), p.length ≤ n → '{' ∉ p → ∃ l : List Str, l.flatten = p ∧ (∀ x ∈ l, x ≠ []) ∧
    (∀ l1 x l2, l = l1 ++ x :: l2 → Eats paramRe x (l2.flatten ++ '{' :: r) g g)
  | _, [], _, _ => ⟨[], rfl, by simp, by simp⟩
  | 0, _ :: _, h, _ => by simp at h
  | n + 1, c :: p, h, hb => by
    have hc : c ≠ '{' := by rintro rfl; exact hb (by simp)
    have hp : '{' ∉ p := fun hx => hb (by simp [hx])
    by_cases hd : c = '#' ∧ p.takeWhile isDigit ≠ []
    · obtain ⟨rfl, hd⟩ := hd
      have hdec : p.takeWhile isDigit ++ p.dropWhile isDigit = p := List.takeWhile_append_dropWhile
      obtain ⟨l, hl, h1, h2⟩ := params_items r g n (p.dropWhile isDigit) (by
        have := (List.dropWhile_sublist (l := p) isDigit).length_le; simp at h; omega) (fun hx => hp ((List.dropWhile_sublist (l := p) isDigit).subset hx))
      refine ⟨('#' :: p.takeWhile isDigit) :: l, by simp [hl, hdec], by simp; exact h1, ?_⟩
      intro l1 x l2 he
      cases l1 with
      | nil =>
        simp at he
        obtain ⟨rfl, rfl⟩ := he
        refine Eats.left (Eats.seq (x := ['#']) (Eats.lit _ _ _) (Eats.plus_chr isDigit hd (takeDigits p).1 ?_))
        rw [hl]
        cases hq : p.dropWhile isDigit with
        | nil => simp; decide
        | cons d q => have := (takeDigits p).2; rw [hq] at this; simpa using this
      | cons y l1 => simp at he; exact h2 l1 x l2 he.2
    · obtain ⟨l, hl, h1, h2⟩ := params_items r g n p (by simp at h; omega) hp
      refine ⟨[c] :: l, by simp [hl], by simp; exact h1, ?_⟩
      intro l1 x l2 he
      cases l1 with
      | nil =>
        simp at he
        obtain ⟨rfl, rfl⟩ := he
        refine Eats.right ?_ (Eats.chr _ (by simp [hc]))
        rw [hl]
        by_cases hx : c = '#'
        · subst hx
          have hnil : p.takeWhile isDigit = [] := by
            cases hq : p.takeWhile isDigit with
            | nil => rfl
            | cons a b => exact absurd ⟨rfl, by rw [hq]; simp⟩ hd
          refine Dead.after_lit (t := ['#']) (Dead.seq (Dead.chr _ ?_))
          cases p with
          | nil => simp; decide
          | cons d q =>
            intro y hy; simp at hy; subst hy
            cases hi : isDigit d with
            | false => rfl
            | true => rw [List.takeWhile_cons_of_pos hi] at hnil; cases hnil
        · exact Dead.seq (Dead.char (by simp [hx]))
      | cons y l1 => simp at he; exact h2 l1 x l2 he.2

theorem params_eat {p r : Str} {g} (hp : '{' ∉ p) : Eats (.star paramRe) p ('{' :: r) g g := by
  obtain ⟨l, hl, h1, h2⟩ := params_items r g p.length p (Nat.le_refl _) hp
  rw [← hl]
  exact Eats.star l _ h1 h2 (Dead.alt (Dead.seq (Dead.char (by simp))) (Dead.chr _ (by simp)))

theorem def_words_eq : defWords = defTextWords.map String.toList := by decide +kernel

/-- The parts of a `\def`, for a name written with `\csname` too. -/
theorem defFull_hit (d : DefText) (hw : d.word ∈ defTextWords) (hws : Blank d.ws) (hn0 : d.name ≠ []) (hn : ∀ c ∈ d.name, isSpace c = false ∧ c ≠ '{' ∧ c ≠ '#')
    (hph : ∀ c ∈ d.params.head?, isSpace c = true ∨ c = '#') (hp : '{' ∉ d.params) (rest : Str) (g) :
    Eats defFull (d.word.toList ++ (d.ws ++ '\\' :: (d.name ++ (d.params ++ ['{'])))) (d.body ++ '}' :: rest) g ((3, d.params) :: (1, d.name) :: g) := by
  unfold defFull
  refine Eats.seq (word_hit (k := .def_) ?_ ?_) (Eats.seq (Eats.spaces hws ?_) (Eats.seq (x := ['\\']) (Eats.lit _ _ _) (Eats.seq (Eats.group 1 (Eats.plus_chr _ hn0 ?_ ?_)) (Eats.seq (Eats.group 3 (params_eat hp)) (Eats.seq (x := []) (Eats.spaces (by simp) ?_) (Eats.lit _ _ _))))))
  · show d.word.toList ∈ defWords
    rw [def_words_eq]; exact List.mem_map_of_mem hw
  · rw [List.append_assoc]; exact head_blank hws space_letter (by simp; decide)
  · simp; decide
  · intro c hc; have := hn c hc; simp [this.1, this.2.1, this.2.2]
  · cases hq : d.params with
    | nil => simp
    | cons a q =>
      intro c hc; simp at hc; subst hc
      rcases hph a (by rw [hq]; simp) with h | h <;> simp [h]
  · simp; decide

theorem cutParam_skip : ∀ (a q : Str), a ≠ [] → '#' ∉ a → (cutParam (a ++ q)).map (·.1) ≠ some []
  | [], _, h, _ => absurd rfl h
  | c :: a, q, _, h => by
    have hc : c ≠ '#' := by rintro rfl; exact h (by simp)
    rw [List.cons_append, cutParam]
    · cases cutParam (a ++ q) <;> simp
    · exact hc

theorem infix_before {u w t : Str} {f : Char} (h : Contains (w ++ t) (u ++ [f])) (hf : f ∉ t) : Contains w (u ++ [f]) := by
  obtain ⟨a, b, he⟩ := h
  rw [show a ++ (u ++ [f]) ++ b = (a ++ (u ++ [f])) ++ b from rfl] at he
  rcases List.append_eq_append_iff.1 he with ⟨c, h1, h2⟩ | ⟨c, h1, h2⟩
  · rcases List.eq_nil_or_concat c with rfl | ⟨c', x, rfl⟩
    · exact ⟨a, [], by rw [List.append_nil] at h1; rw [← h1]; simp⟩
    · have hx : x = f := by
        have := congrArg List.getLast? h1
        simp at this; exact this.symm
      subst hx
      exact absurd (by rw [h2]; simp) hf
  · exact ⟨a, c, by rw [h1]⟩

/-- The words that expand the body. -/
def _root_.L2J.Spec.expandsBody (w : String) : Bool := w == "\\edef" || w == "\\long\\edef"

theorem edef_flag (d : DefText) (hw : d.word ∈ defTextWords) (hws : Blank d.ws) (X : Str) :
    (findSub "\\edef".toList ((d.word.toList ++ (d.ws ++ '\\' :: X)).take (d.word.toList.length + d.ws.length + 1))).isSome = expandsBody d.word := by
  rw [show d.word.toList ++ (d.ws ++ '\\' :: X) = (d.word.toList ++ (d.ws ++ ['\\'])) ++ X by simp, List.take_left' (by simp; omega)]
  have hf : 'f' ∉ d.ws ++ ['\\'] := by
    intro hx
    rcases List.mem_append.1 hx with hx | hx
    · exact absurd (hws _ hx) (by decide)
    · simp at hx
  have key : ∀ w ∈ defTextWords, (findSub "\\edef".toList w.toList).isSome = expandsBody w := by decide +kernel
  rw [← key _ hw, Bool.eq_iff_iff, findSub_contains _ (by simp), findSub_contains _ (by simp)]
  constructor
  · intro hc
    exact infix_before (u := "\\ede".toList) (f := 'f') hc hf
  · rintro ⟨a, b, he⟩
    exact ⟨a, b ++ (d.ws ++ ['\\']), by rw [he]; simp⟩

/-- The match of a `\def` is read. -/
theorem def_read (d : DefText) (cs : Option Str) (hw : d.word ∈ defTextWords) (hws : Blank d.ws) (hn0 : d.name ≠ [])
    (hn : ∀ c ∈ d.name, isSpace c = false ∧ c ≠ '{' ∧ c ≠ '#') (hbs : '\\' ∉ d.name) (hph : ∀ c ∈ d.params.head?, isSpace c = true ∨ c = '#') (hp : '{' ∉ d.params)
    (hb : Wrappable '{' '}' d.body) (rest : Str) :
    ∃ fm, defFull.matchAt [] (d.word.toList ++ (d.ws ++ '\\' :: (d.name ++ (d.params ++ '{' :: (d.body ++ '}' :: rest))))) = some fm ∧
      defTok (d.word.toList ++ (d.ws ++ '\\' :: (d.name ++ (d.params ++ '{' :: (d.body ++ '}' :: rest))))) fm (d.word.toList.length + d.ws.length + 1) cs =
        .ok (some (.cmd (.def_ d.name (strip d.params) d.body (expandsBody d.word) cs)), d.written.length) := by
  have hm := (defFull_hit d hw hws hn0 hn hph hp rest []).matchAt []
  have hedef := edef_flag d hw hws (d.name ++ (d.params ++ '{' :: (d.body ++ '}' :: rest)))
  have htxt : d.word.toList ++ (d.ws ++ '\\' :: (d.name ++ (d.params ++ ['{']))) ++ (d.body ++ '}' :: rest) =
      d.word.toList ++ (d.ws ++ '\\' :: (d.name ++ (d.params ++ '{' :: (d.body ++ '}' :: rest)))) := by simp
  rw [htxt] at hm
  refine ⟨_, hm, ?_⟩
  unfold defTok
  have hbody : extractNestedContent ((d.word.toList ++ (d.ws ++ '\\' :: (d.name ++ (d.params ++ '{' :: (d.body ++ '}' :: rest))))).drop
      (Match.stop ⟨[], d.word.toList ++ (d.ws ++ '\\' :: (d.name ++ (d.params ++ '{' :: (d.body ++ '}' :: rest)))),
        (d.word.toList ++ (d.ws ++ '\\' :: (d.name ++ (d.params ++ ['{'])))).length, [(3, d.params), (1, d.name)]⟩ - 1)) '{' '}' = some (d.body, d.body.length + 2) := by
    have e : d.word.toList ++ (d.ws ++ '\\' :: (d.name ++ (d.params ++ '{' :: (d.body ++ '}' :: rest)))) =
      (d.word.toList ++ (d.ws ++ '\\' :: (d.name ++ d.params))) ++ '{' :: (d.body ++ '}' :: rest) := by simp
    rw [show Match.stop ⟨[], d.word.toList ++ (d.ws ++ '\\' :: (d.name ++ (d.params ++ '{' :: (d.body ++ '}' :: rest)))),
        (d.word.toList ++ (d.ws ++ '\\' :: (d.name ++ (d.params ++ ['{'])))).length, [(3, d.params), (1, d.name)]⟩ - 1 =
        (d.word.toList ++ (d.ws ++ '\\' :: (d.name ++ d.params))).length by simp [Match.stop]; omega, e, List.drop_left]
    have := C01_round_trip [] d.body rest '{' '}' (by simp) (by decide) (by decide) (by decide) hb.1 hb.2
    simpa using this
  rw [hbody]
  have g1 : Match.group ⟨[], d.word.toList ++ (d.ws ++ '\\' :: (d.name ++ (d.params ++ '{' :: (d.body ++ '}' :: rest)))),
        (d.word.toList ++ (d.ws ++ '\\' :: (d.name ++ (d.params ++ ['{'])))).length, [(3, d.params), (1, d.name)]⟩ 1 = some d.name := by simp [Match.group]
  have g3 : Match.group ⟨[], d.word.toList ++ (d.ws ++ '\\' :: (d.name ++ (d.params ++ '{' :: (d.body ++ '}' :: rest)))),
        (d.word.toList ++ (d.ws ++ '\\' :: (d.name ++ (d.params ++ ['{'])))).length, [(3, d.params), (1, d.name)]⟩ 3 = some d.params := by simp [Match.group]
  have hst : startsWith d.name ['\\'] = false := by
    cases hq : d.name with
    | nil => rfl
    | cons a q =>
      have : a ≠ '\\' := by rintro rfl; exact hbs (by rw [hq]; simp)
      simp [startsWith, List.isPrefixOf, Ne.symm this]
  simp only [g1, g3, Option.getD_some, hst, Bool.false_eq_true, if_false, hedef]
  rw [if_neg (cutParam_skip d.name _ hn0 (fun hx => (hn _ hx).2.2 rfl))]
  refine congrArg Except.ok (Prod.ext rfl ?_)
  simp [Match.stop, DefText.written]; omega

theorem def_first {w ws X : Str} (hw : w ∈ defWords) (hws : Blank ws) : firstKind (w ++ (ws ++ '\\' :: X)) order =
      some (.def_, ⟨[], w ++ (ws ++ '\\' :: X), w.length + (ws ++ ['\\']).length, [(0, w)]⟩) := by
  refine kind_hit (k := .def_) (rest := X) hw (by simp) ?_ ?_ (by decide)
  · exact head_blank hws space_letter (by simp; decide)
  · exact Eats.seq (Eats.spaces hws (by simp; decide)) (Eats.lit _ _ _)

/-- The token a `\def` should give. -/
def _root_.L2J.Spec.DefText.meaning (d : DefText) : Tok := .cmd (.def_ d.name (strip d.params) d.body (expandsBody d.word) none)

/-- C61: a written `\def` gives a definition with exactly its name, parameter text and body, and exactly its text is used up. -/
theorem C61_def (d : DefText) (h : d.Ok) (rest : Str) : handle (d.written ++ rest) = .ok (some d.meaning, d.written.length) := by
  obtain ⟨hw, hws, hn, hph, hp, hb⟩ := h
  obtain ⟨fm, h1, h2⟩ := def_read d none hw hws hn.1.1 (fun c hc => ⟨(name_char_facts (hn.1.2 c hc)).1, (name_char_facts (hn.1.2 c hc)).2.1, (name_char_facts (hn.1.2 c hc)).2.2.2.2.1⟩)
    (fun hx => (name_char_facts (hn.1.2 _ hx)).2.2.1 rfl) hph hp hb rest
  have hwr : d.written ++ rest = d.word.toList ++ (d.ws ++ '\\' :: (d.name ++ (d.params ++ '{' :: (d.body ++ '}' :: rest)))) := by
    simp [DefText.written]
  rw [hwr]
  refine handle_of (def_first (by rw [def_words_eq]; exact List.mem_map_of_mem hw) hws) (by decide) ?_
  show defPrefix false _ _ = _
  have hafter : ∀ c ∈ (d.params ++ '{' :: (d.body ++ '}' :: rest)).head?, isNameChar c = false := by
    cases hq : d.params with
    | nil => simp; decide
    | cons a q =>
      intro c hc; simp at hc; subst hc
      rcases hph a (by rw [hq]; simp) with h | h
      · exact space_name a h
      · rw [h]; decide
  have hpl := defPrefix_plain false (w := d.word.toList) (ws := d.ws) (g := [(0, d.word.toList)]) hn hafter
  rw [show (d.ws ++ ['\\']).length = d.ws.length + 1 by simp, hpl, h1]
  simp only [Bool.false_eq_true, if_false]
  exact h2

end L2J.Defn
