import Verif.Props.C61d
import Verif.Props.C24
import Verif.Props.C02
/-! C61, continued: what is read is part of the text, and something is read. -/
namespace L2J.Defn
open Cmds L2J.Spec

theorem nestLoop_bounds (b e : Re) (hb : NonEmptyRe b) (he : NonEmptyRe e) (text : Str) :
    ∀ (fuel p d x y : Nat), p ≤ text.length → nestLoop b e text fuel p d = some (x, y) → p ≤ x ∧ x < y ∧ y ≤ text.length := by
  intro fuel
  induction fuel with
  | zero => intro p d x y _ h; cases h
  | succ fuel ih =>
    intro p d x y hp h
    unfold nestLoop at h
    split at h
    · cases hes : e.searchPos text p with
      | none => rw [hes] at h; cases h
      | some r =>
        obtain ⟨es, ee⟩ := r
        have h1 := searchPos_bounds e he text p es ee hp hes
        rw [hes] at h
        simp only at h
        have key : (if d - 1 = 0 then some (es, ee) else nestLoop b e text fuel ee (d - 1)) = some (x, y) → p ≤ x ∧ x < y ∧ y ≤ text.length := by
          intro h
          split at h
          · injection h with h; injection h with ha hb'; subst ha; subst hb'; exact h1
          · have := ih _ _ _ _ (by omega) h; omega
        cases hbs : b.searchPos text p with
        | none => rw [hbs] at h; exact key h
        | some r =>
          obtain ⟨bs, be⟩ := r
          have h2 := searchPos_bounds b hb text p bs be hp hbs
          rw [hbs] at h
          simp only at h
          split at h
          · exact key h
          · have := ih _ _ _ _ (by omega) h; omega
    · cases h

theorem subAux_len (r : Re) : ∀ (s : Str) (k : Nat) (rev : Str), (r.subAux (fun _ => []) k rev s).length ≤ s.length := by
  intro s
  induction s with
  | nil => intro k rev; cases k <;> simp [Re.subAux]
  | cons x s ih =>
    intro k rev
    cases k with
    | succ k => have := ih k (x :: rev); simp only [Re.subAux, List.length_cons]; omega
    | zero =>
      unfold Re.subAux
      split
      · split
        · rename_i m _ _; have := ih (m.len - 1) (x :: rev); simp only [List.nil_append, List.length_cons]; omega
        · have := ih 0 (x :: rev); simp only [List.length_cons]; omega
      · have := ih 0 (x :: rev); simp only [List.length_cons]; omega

theorem concat_bounds {s inner : Str} {e : Nat} (h : concatCsname s = some (inner, e)) : inner.length + 2 ≤ e ∧ e ≤ s.length := by
  have hb : NonEmptyRe startCsname := nonEmpty_of_minLen _ (by decide)
  have he : NonEmptyRe endCsname := nonEmpty_of_minLen _ (by decide)
  unfold concatCsname at h
  split at h
  · cases h
  · split at h
    · cases h
    · rename_i bs ee content hx
      injection h with h; injection h with h1 h2
      subst h2
      unfold extractNestedPattern at hx
      split at hx
      · cases hx
      · rename_i bs' be hs
        have hb1 := searchPos_bounds _ hb s 0 bs' be (Nat.zero_le _) hs
        split at hx
        · cases hx
        · rename_i es ee' hn
          injection hx with hx; injection hx with hx1 hx2; injection hx2 with hx2 hx3
          subst hx1; subst hx2; subst hx3
          have hb2 := nestLoop_bounds _ _ hb he s _ _ _ _ _ hb1.2.2 hn
          have l1 := subAux_len expandRe (endCsname.sub (fun _ => []) (startCsname.sub (fun _ => []) (slice s be es))) 0 []
          have l2 := subAux_len endCsname (startCsname.sub (fun _ => []) (slice s be es)) 0 []
          have l3 := subAux_len startCsname (slice s be es) 0 []
          have l4 : (slice s be es).length ≤ es - be := by unfold slice; simp; omega
          unfold Re.sub at *
          rw [← h1]
          omega

/-- The room that texts of `\csname`s need. -/
def room : List Str → Nat
  | [] => 0
  | i :: l => 1 + i.length + room l

theorem room_append (a : List Str) (i : Str) : room (a ++ [i]) = room a + (1 + i.length) := by
  induction a with
  | nil => simp [room]
  | cons x a ih => simp only [List.cons_append, room, ih]; omega

theorem csnames_bounds (s : Str) (mb : Nat) : ∀ (fuel p : Nat) (acc : List Str) (p' : Nat) (acc' : List Str),
    csnames s mb fuel p acc = some (p', acc') → p' < s.length ∧ p + room acc' ≤ p' + room acc := by
  intro fuel
  induction fuel with
  | zero => intro p acc p' acc' h; cases h
  | succ fuel ih =>
    intro p acc p' acc' h
    unfold csnames at h
    split at h
    · cases h
    · split at h
      · split at h
        · rename_i m hm; have := ih _ _ _ _ h; omega
        · split at h
          · rename_i inner n hx
            have h1 := ih _ _ _ _ h
            have h2 := concat_bounds hx
            rw [room_append] at h1
            omega
          · injection h with h; injection h with h1 h2; subst h1; subst h2; omega
      · injection h with h; injection h with h1 h2; subst h1; subst h2; omega

theorem noBlanks_len (s : Str) : (noBlanks s).length ≤ s.length := List.length_filter_le _ _

theorem names_len (l : List Str) : (l.flatMap fun i => '\\' :: noBlanks i).length ≤ room l := by
  induction l with
  | nil => simp [room]
  | cons i l ih =>
    have := noBlanks_len i
    simp only [List.flatMap_cons, List.length_append, List.length_cons, room]
    omega

theorem match_bounds {r : Re} {s : Str} {m : Match} (h : r.matchAt [] s = some m) : r.minLen ≤ m.stop ∧ m.stop ≤ s.length := by
  have h1 := Re.matchAt_minLen r [] s m h
  unfold Match.stop
  rw [(match_rev h).1]
  simpa using h1

theorem extract_le {t v : Str} {n : Nat} (h : extractNestedContent t '{' '}' = some (v, n)) : 2 ≤ n ∧ n ≤ t.length :=
  ⟨extract_bound h, (C01_content_balanced t '{' '}' (by decide) v n h).2.1⟩

theorem defTok_bounds {s : Str} {m : Match} {pl : Nat} {cs : Option Str} {t : Option Tok} {n : Nat} (h1 : 2 ≤ m.stop) (h2 : m.stop ≤ s.length)
    (h : defTok s m pl cs = .ok (t, n)) : 2 ≤ n ∧ n ≤ s.length := by
  unfold defTok at h
  split at h
  · injection h with h; injection h with ha hb; subst hb; exact ⟨h1, h2⟩
  · rename_i body e hx
    have hb := extract_le hx
    rw [List.length_drop] at hb
    dsimp only at h
    generalize (if startsWith ((m.group 1).getD []) ['\\'] = true then ((m.group 1).getD []).drop 1 else (m.group 1).getD []) = nm at h
    split at h
    · cases h
    · injection h with h; injection h with ha hb'; subst hb'; omega

theorem defPrefix_bounds {isLet : Bool} {s : Str} {m : Match} {t : Option Tok} {n : Nat} (hr : m.rev = []) (hrest : m.rest = s) (h0 : 0 < m.stop)
    (hle : m.stop ≤ s.length) (h : defPrefix isLet s m = .ok (t, n)) : n ≤ s.length ∧ (t.isSome → 0 < n) := by
  have hlen : m.text.dropLast.length = m.stop - 1 := by
    unfold Match.text
    rw [hrest, List.length_dropLast, List.length_take]
    unfold Match.stop at hle ⊢
    rw [hr] at hle ⊢
    simp at hle ⊢
    omega
  unfold defPrefix at h
  dsimp only at h
  split at h
  · injection h with h; injection h with ha hb; subst ha; subst hb; simp
  · rename_i pos inners hc
    have hb := csnames_bounds _ _ _ _ _ _ _ hc
    have hprefix : (m.text.dropLast ++ (if inners.isEmpty then ['\\'] else inners.flatMap fun i => '\\' :: noBlanks i)).length ≤ pos + 1 := by
      rw [List.length_append, hlen]
      cases inners with
      | nil => simp [room] at hb ⊢; omega
      | cons i l =>
        have := names_len (i :: l)
        simp only [List.isEmpty_cons, Bool.false_eq_true, if_false]
        simp only [room] at hb this
        omega
    generalize m.text.dropLast ++ (if inners.isEmpty then ['\\'] else inners.flatMap fun i => '\\' :: noBlanks i) = pf at h hprefix
    have hp : ∃ q, (if s[pos]? = some '\\' then pos + 1 else pos) = q ∧ pos ≤ q ∧ q ≤ s.length := by
      split
      · exact ⟨_, rfl, by omega, by omega⟩
      · exact ⟨_, rfl, by omega, by omega⟩
    obtain ⟨q, hq, hq1, hq2⟩ := hp
    rw [hq] at h
    have htl : (pf ++ s.drop q).length = pf.length + (s.length - q) := by simp
    split at h
    · split at h
      · injection h with h; injection h with ha hb'; subst ha; subst hb'; simp
      · rename_i fm hf
        have hm := match_bounds hf
        have h2 : 2 ≤ letFull.minLen := by decide
        injection h with h; injection h with ha hb'; subst hb'
        exact ⟨by omega, fun _ => by omega⟩
    · split at h
      · injection h with h; injection h with ha hb'; subst ha; subst hb'; simp
      · rename_i fm hf
        have hm := match_bounds hf
        have h2 : 2 ≤ defFull.minLen := by decide
        split at h
        · cases h
        · rename_i t' e' hd
          have hd' := defTok_bounds (by omega) hm.2 hd
          injection h with h; injection h with ha hb'; subst hb'
          exact ⟨by omega, fun _ => by omega⟩

theorem newcommand_bounds {s : Str} {m : Match} {b : Bool} (h0 : 0 < m.stop) (hle : m.stop ≤ s.length) :
    (newcommandTok s m b).2 ≤ s.length ∧ ((newcommandTok s m b).1.isSome → 0 < (newcommandTok s m b).2) := by
  unfold newcommandTok
  split
  · simp [hle]
  · rename_i body e hx
    have hb := extract_le hx
    rw [List.length_drop] at hb
    simp only
    exact ⟨by omega, fun _ => by omega⟩

/-- Each kind reads within the text, and something if it defines something. -/
theorem run_bounds {s : Str} {k : Kind} {m : Match} {t : Option Tok} {n : Nat} (hf : firstKind s order = some (k, m)) (h : k.run s m = .ok (t, n)) :
    n ≤ s.length ∧ (t.isSome → 0 < n) := by
  obtain ⟨h0, hle⟩ := first_bounds hf
  obtain ⟨hr, hrest⟩ := match_rev (firstKind_match hf)
  have blocks : ∀ c, (seqBlocks (s.drop (m.stop - 1)) '{' '}' (some c)).2 + (m.stop - 1) ≤ s.length := by
    intro c
    have := (C02_position (s.drop (m.stop - 1)) '{' '}' (by decide) c).1
    rw [List.length_drop] at this
    omega
  have one : (match extractNestedContent (s.drop (m.stop - 1)) '{' '}' with | some (_, e) => e | none => 0) + (m.stop - 1) ≤ s.length := by
    split
    · rename_i a e hx; have := extract_le hx; rw [List.length_drop] at this; omega
    · omega
  have plain : ∀ x : Option Tok, (Except.ok (x, m.stop) : Except Unit (Option Tok × Nat)) = .ok (t, n) → n ≤ s.length ∧ (t.isSome → 0 < n) := by
    intro x hx; injection hx with hx; injection hx with ha hb; subst hb; exact ⟨hle, fun _ => h0⟩
  cases k with
  | newcommand => have := newcommand_bounds (b := false) h0 hle; injection h with h; rw [h] at this; exact this
  | robust => have := newcommand_bounds (b := false) h0 hle; injection h with h; rw [h] at this; exact this
  | operator => have := newcommand_bounds (b := true) h0 hle; injection h with h; rw [h] at this; exact this
  | let_ => exact defPrefix_bounds hr hrest h0 hle h
  | def_ => exact defPrefix_bounds hr hrest h0 hle h
  | paired =>
    unfold Kind.run at h
    dsimp only at h
    have hb := blocks 2
    have h2 := C02_position (s.drop (m.stop - 1)) '{' '}' (by decide) 2
    split at h
    · rename_i l r e hx
      rw [hx] at hb h2
      injection h with h; injection h with ha hb'; subst hb'
      simp at hb h2
      exact ⟨by omega, fun _ => by omega⟩
    · injection h with h; injection h with ha hb'; subst ha; subst hb'; exact ⟨by omega, by simp⟩
  | alphabets =>
    unfold Kind.run at h
    dsimp only at h
    generalize (if (m.group 0).getD [] = "\\DeclareMathAlphabet".toList then 5 else 2) = c at h
    have hb := blocks c
    have h2 := C02_position (s.drop (m.stop - 1)) '{' '}' (by decide) c
    split at h
    · rename_i e hx
      rw [hx] at hb
      injection h with h; injection h with ha hb'; subst ha; subst hb'; exact ⟨hb, by simp⟩
    · rename_i a l e hx
      rw [hx] at hb h2
      injection h with h; injection h with ha hb'; subst hb'
      simp at hb h2
      exact ⟨hb, fun _ => by omega⟩
  | definecolor =>
    unfold Kind.run at h
    dsimp only at h
    have hb := blocks 3
    have h2 := C02_position (s.drop (m.stop - 1)) '{' '}' (by decide) 3
    split at h
    · rename_i a b c e hx
      rw [hx] at hb h2
      injection h with h; injection h with ha hb'; subst hb'
      simp at hb h2
      exact ⟨by omega, fun _ => by omega⟩
    · injection h with h; injection h with ha hb'; subst ha; subst hb'; exact ⟨by omega, by simp⟩
  | theoremstyle =>
    injection h with h; injection h with ha hb'; subst ha; subst hb'; exact ⟨blocks 9, by simp⟩
  | columntype =>
    injection h with h; injection h with ha hb'; subst ha; subst hb'; exact ⟨one, by simp⟩
  | setlength =>
    unfold Kind.run at h
    dsimp only at h
    injection h with h; injection h with ha hb'
    subst hb'
    refine ⟨one, fun _ => ?_⟩
    have : 2 ≤ m.stop := by
      have hm := match_bounds (firstKind_match hf)
      have : 2 ≤ Kind.setlength.re.minLen := by decide
      omega
    omega
  | font => exact plain _ h
  | newtoks => exact plain _ h
  | newtheorem => exact plain _ h
  | crefname => exact plain _ h
  | newif => exact plain _ h
  | newlength => exact plain _ h
  | newfam => exact plain _ h
  | newother => exact plain _ h
  | newcounter => exact plain _ h
  | setcounter => exact plain _ h
  | floatname => exact plain _ h
  | newboolean => exact plain _ h
  | expandafter => exact plain _ h
  | endcsname => exact plain _ h
  | namedef => exact plain _ h

theorem kind_word {s : Str} {k : Kind} {m : Match} (h : k.re.matchAt [] s = some m) : ∃ w ∈ k.words, w <+: s := by
  refine Classical.byContradiction fun hn => ?_
  have : Dead k.re s := Dead.seq (Dead.group 0 (anyOf_dead (fun v hv hp => hn ⟨v, hv, hp⟩)))
  rw [this.matchAt] at h
  cases h

theorem handleN_bounds : ∀ (fuel : Nat) (s : Str) (t : Option Tok) (n : Int), handleN fuel s = .ok (t, n) →
    n ≤ s.length ∧ (¬ Contains s "\\@namedef".toList → 0 ≤ n ∧ (t.isSome → 0 < n)) := by
  intro fuel
  induction fuel with
  | zero => intro s t n h; unfold handleN at h; injection h with h; injection h with ha hb; subst ha; subst hb; simp
  | succ fuel ih =>
    intro s t n h
    unfold handleN at h
    cases hf : firstKind s order with
    | none => rw [hf] at h; injection h with h; injection h with ha hb; subst ha; subst hb; simp
    | some km =>
      obtain ⟨k, m⟩ := km
      rw [hf] at h
      simp only at h
      obtain ⟨h0, hle⟩ := first_bounds hf
      obtain ⟨hr, hrest⟩ := match_rev (firstKind_match hf)
      split at h
      · cases hx : handleN fuel (s.drop m.stop) with
        | error e => rw [hx] at h; cases h
        | ok r =>
          obtain ⟨t', n'⟩ := r
          rw [hx] at h
          injection h with h; injection h with ha hb; subst ha; subst hb
          have := ih _ _ _ hx
          rw [List.length_drop] at this
          refine ⟨by omega, fun hc => ?_⟩
          have h2 := this.2 (fun ⟨a, b, hab⟩ => hc ⟨s.take m.stop ++ a, b, by rw [List.append_assoc, List.append_assoc, ← List.append_assoc a, ← hab, List.take_append_drop]⟩)
          exact ⟨by omega, fun ht => by have := h2.2 ht; omega⟩
      · unfold Kind.runInt at h
        split at h
        · rename_i _ hk
          refine ⟨?_, fun hc => ?_⟩
          · unfold namedefTok at h
            dsimp only at h
            generalize "\\def\\csname ".toList ++ (m.group 1).getD [] ++ " \\endcsname ".toList = pre at h
            split at h
            · injection h with h; injection h with ha hb; subst hb; omega
            · rename_i dm hdm
              have hd := match_bounds hdm
              have h1 : 1 ≤ (Re.seq (anyOf defWords) (.seq spaces (.lit ['\\']))).minLen := by decide
              obtain ⟨hr', hrest'⟩ := match_rev hdm
              split at h
              · cases h
              · rename_i t' total hx
                injection h with h; injection h with ha hb; subst hb
                have := (defPrefix_bounds hr' hrest' (by omega) hd.2 hx).1
                rw [List.length_append, List.length_drop] at this
                omega
          · obtain ⟨w, hw, hp⟩ := kind_word (firstKind_match hf)
            subst hk
            simp only [Kind.words, List.mem_singleton] at hw
            subst hw
            obtain ⟨b, hb⟩ := hp
            exact absurd ⟨[], b, hb.symm⟩ hc
        · split at h
          · cases h
          · rename_i t' e' hx
            injection h with h; injection h with ha hb; subst ha; subst hb
            have := run_bounds hf hx
            exact ⟨by omega, fun _ => ⟨by omega, fun ht => by have := this.2 ht; omega⟩⟩

/-- C61: a definition is read from the beginning of the text and not beyond its end; without `\@namedef`, whatever is defined uses up something. -/
theorem C61_progress (s : Str) (t : Option Tok) (n : Int) (h : handle s = .ok (t, n)) :
    n ≤ s.length ∧ (¬ Contains s "\\@namedef".toList → 0 ≤ n ∧ (t.isSome → 0 < n)) := handleN_bounds _ s t n h

end L2J.Defn
