import Verif.Model.BibItem
import Verif.Spec.BibItem
import Verif.Props.C62
import Verif.Props.C64d
import Verif.Props.C47
import Verif.Props.C29
/-! C66: `\bibitem` bibliographies. -/
namespace L2J.BibI
open Cmds Defn L2J.Spec

/-- A command that starts within `v` and would reach into a text that starts with a backslash. -/
theorem no_overlap {w v r : Str} (hw : '\\' ∉ w) (hv : v ≠ []) (h : '\\' :: w <+: v ++ '\\' :: r) : '\\' :: w <+: v := by
  obtain ⟨t, ht⟩ := h
  rcases List.append_eq_append_iff.1 ht with ⟨z, hz, hz'⟩ | ⟨z, hz, hz'⟩
  · exact ⟨z, hz.symm⟩
  · cases z with
    | nil => exact ⟨[], by simpa using hz⟩
    | cons c z =>
      simp only [List.cons_append, List.cons.injEq] at hz'
      cases v with
      | nil => exact absurd rfl hv
      | cons a v =>
        simp only [List.cons_append, List.cons.injEq] at hz
        exact absurd (by rw [hz.2, ← hz'.1]; simp) hw

theorem Eats.lazyAny (p : Char → Bool) (n : Nat) {b : Re} {d y rest : Str} {g g'} (h1 : ∀ u v, d = u ++ v → v ≠ [] → Dead b (v ++ (y ++ rest))) (h2 : ∀ x ∈ d, p x = true)
    (h : Eats b y rest ((n, d) :: g) g') : Eats (.seq (.group n (.lazyStar (.chr p))) b) (d ++ y) rest g g' := by
  intro rev
  unfold Hd
  show ((((iterLazy (Re.chr p).run (d ++ y ++ rest).length ⟨rev, d ++ y ++ rest, g⟩).map _)).flatMap b.run).head? = _
  rw [List.flatMap_map, List.append_assoc]
  have hh := h (d.reverse ++ rev)
  unfold Hd at hh
  have e : List.take ((d ++ (y ++ rest)).length - (y ++ rest).length) (d ++ (y ++ rest)) = d := by
    rw [show (d ++ (y ++ rest)).length - (y ++ rest).length = d.length by simp, List.take_left]
  rw [Pre.lazy_flatMap' p (y ++ rest) g _ d rev _ ?_ h2 (by simp) ?_]
  · simp only [e]; rw [hh]; simp
  · intro u v hd hv
    exact h1 u v hd hv _ _
  · simp only [e]
    intro hc
    rw [hc] at hh
    cases hh

theorem Eats.look {a : Re} {rest : Str} {g} (h : ∀ rev, (a.run ⟨rev, rest, g⟩) ≠ []) : Eats (.look a) [] rest g g := by
  intro rev
  show (if (a.run ⟨rev, rest, g⟩).isEmpty then [] else [_]).head? = _
  rw [if_neg (by simpa using h rev)]
  rfl

theorem Dead.look {a : Re} {s : Str} (h : Dead a s) : Dead (.look a) s := by
  intro rev g
  show (if (a.run ⟨rev, s, g⟩).isEmpty then [] else [_]) = _
  rw [h rev g]
  rfl

theorem Dead.eos {s : Str} (h1 : s ≠ []) (h2 : s ≠ ['\n']) : Dead .eos s := by
  intro rev g
  show (if _ then _ else _) = _
  rw [if_neg (by simp [h1, h2])]

theorem no_slash : '\\' ∉ "bibitem".toList := by decide

/-- What ends an item: `next` is the rest of the content, `t1` what is left of the text of the item. -/
structure Stop (t1 next : Str) : Prop where
  ends : next = [] ∨ "\\bibitem".toList <+: next
  left : t1 = [] ∨ (t1 = ['\n'] ∧ next = [])

theorem stop_split {d next : Str} (hn : next = [] ∨ "\\bibitem".toList <+: next) : ∃ d' t1, d = d' ++ t1 ∧ Stop t1 next ∧ (next = [] → d'.getLast? ≠ some '\n' ∨ t1 ≠ []) := by
  by_cases h : next = [] ∧ d.getLast? = some '\n'
  · obtain ⟨h1, h2⟩ := h
    obtain ⟨hne, hl⟩ := List.getLast?_eq_some_iff.1 h2
    exact ⟨_, ['\n'], hl, ⟨hn, .inr ⟨rfl, h1⟩⟩, fun _ => .inr (by simp)⟩
  · refine ⟨d, [], by simp, ⟨hn, .inl rfl⟩, fun hh => .inl fun hc => h ⟨hh, hc⟩⟩

theorem look_eats {t1 next : Str} (h : Stop t1 next) (g) : Eats (.look (.alt (.lit "\\bibitem".toList) .eos)) [] (t1 ++ next) g g := by
  refine Eats.look fun rev hc => ?_
  have hc : (Re.lit "\\bibitem".toList).run ⟨rev, t1 ++ next, g⟩ ++ Re.eos.run ⟨rev, t1 ++ next, g⟩ = [] := hc
  rw [List.append_eq_nil_iff] at hc
  have he : ∀ s : Str, s = [] ∨ s = ['\n'] → Re.eos.run ⟨rev, s, g⟩ ≠ [] := by
    intro s hs
    show (if _ then _ else _) ≠ _
    rw [if_pos hs]; simp
  rcases h.left with rfl | ⟨rfl, rfl⟩
  · rcases h.ends with rfl | hp
    · exact he _ (.inl rfl) hc.2
    · rw [List.nil_append, Re.run_lit, if_pos (by rw [List.isPrefixOf_iff_prefix]; exact hp)] at hc
      cases hc.1
  · exact he _ (.inr rfl) hc.2

theorem look_dead {t1 next d v u : Str} (h : Stop t1 next) (hd : d = u ++ v) (hv : v ≠ []) (hc : ¬ Contains (d ++ t1) "\\bibitem".toList) (hl : next = [] → d.getLast? ≠ some '\n' ∨ t1 ≠ []) :
    Dead (.look (.alt (.lit "\\bibitem".toList) .eos)) (v ++ (t1 ++ next)) := by
  have key : ∀ (x : Str), "\\bibitem".toList <+: v ++ x → x <+: t1 ∨ (∃ r, x = '\\' :: r) → False := by
    rintro x hx (⟨t, ht⟩ | ⟨r, rfl⟩)
    · obtain ⟨z, hz⟩ := hx
      exact hc ⟨u, z ++ t, by rw [hd, ← ht]; simp only [List.append_assoc]; rw [← List.append_assoc v, ← hz]; simp⟩
    · obtain ⟨z, hz⟩ := no_overlap (w := "bibitem".toList) no_slash hv hx
      exact hc ⟨u, z ++ t1, by rw [hd, ← hz]; simp⟩
  refine Dead.look (Dead.alt (Dead.lit fun hp => ?_) (Dead.eos (by simp [hv]) fun he => ?_))
  · rcases h.left with rfl | ⟨rfl, rfl⟩
    · rcases h.ends with rfl | ⟨r, rfl⟩
      · exact key _ hp (.inl (by simp))
      · exact key _ hp (.inr ⟨"bibitem".toList ++ r, rfl⟩)
    · exact key _ hp (.inl (by simp))
  · obtain ⟨a, v', rfl⟩ := List.exists_cons_of_ne_nil hv
    simp only [List.cons_append, List.cons.injEq, List.append_eq_nil_iff] at he
    obtain ⟨rfl, rfl, rfl, rfl⟩ := he
    rcases hl rfl with h | h
    · exact h (by rw [hd]; simp)
    · exact h rfl

theorem Eats.assoc {a b c : Re} {x rest : Str} {g g'} (h : Eats (.seq a (.seq b c)) x rest g g') : Eats (.seq (.seq a b) c) x rest g g' := by
  intro rev
  have := h rev
  unfold Hd at *
  rw [← this]
  show (((a.run _).flatMap b.run).flatMap c.run).head? = ((a.run _).flatMap fun st => (b.run st).flatMap c.run).head?
  rw [List.flatMap_assoc]

theorem Eats.optSeq {a c : Re} {x rest : Str} {g g'} (h : Eats (.seq a c) x rest g g') : Eats (.seq (.opt a) c) x rest g g' := by
  intro rev
  have := h rev
  unfold Hd at *
  show ((a.run _ ++ _).flatMap c.run).head? = _
  rw [List.flatMap_append, List.head?_append]
  have : ((a.run ⟨rev, x ++ rest, g⟩).flatMap c.run).head? = _ := this
  rw [this]
  rfl

theorem key_eats {key lead d t1 next : Str} {g} (hk : '}' ∉ key) (hs : Stop t1 next) (hl : ∀ c ∈ lead, isSpace c = true) (hd : ∀ c ∈ d.head?, isSpace c = false)
    (hd' : d = [] → t1 = []) (hc : ¬ Contains (d ++ t1) "\\bibitem".toList) (hn : next = [] → d.getLast? ≠ some '\n' ∨ t1 ≠ []) :
    Eats keyRe ('{' :: (key ++ '}' :: (lead ++ d))) (t1 ++ next) g ((3, d) :: (2, key) :: g) := by
  unfold keyRe
  refine Eats.seq (x := ['{']) (g1 := g) (Eats.lit _ _ _) ?_
  refine Eats.lazyAny _ 2 ?_ (fun _ _ => rfl) ?_
  · rintro u v rfl hv
    refine Dead.seq (Dead.char ?_)
    obtain ⟨a, v, rfl⟩ := List.exists_cons_of_ne_nil hv
    rintro h
    simp only [List.cons_append, List.head?_cons, Option.some.injEq] at h
    subst h
    exact hk (by simp)
  · refine Eats.seq (x := ['}']) (g1 := (2, key) :: g) (Eats.lit _ _ _) ?_
    refine Eats.seq (x := lead) (g1 := (2, key) :: g) (Eats.spaces hl ?_) ?_
    · intro c hcc
      cases d with
      | cons a d => exact hd c (by simpa using hcc)
      | nil =>
        rw [hd' rfl] at hcc
        rcases hs.ends with rfl | ⟨r, rfl⟩
        · cases hcc
        · simp at hcc; subst hcc; decide
    · have h := Eats.lazyAny (b := .look (.alt (.lit "\\bibitem".toList) .eos)) (fun _ => true) 3 (d := d) (y := []) (rest := t1 ++ next) (g := (2, key) :: g)
        (fun u v hd hv => by rw [List.nil_append]; exact look_dead hs hd hv hc hn) (fun _ _ => rfl) (look_eats hs _)
      rw [List.append_nil] at h
      exact h

/-- The groups of the match of an item. -/
def groupsOf (i : BibItemText) (d : Str) : List (Nat × Str) :=
  (3, d) :: (2, i.key) :: (match i.label with | some (l, _) => [(1, l)] | none => [])

theorem item_eats {i : BibItemText} (hi : i.Ok) {lead d t1 next : Str} (ht : i.text = lead ++ (d ++ t1)) (hs : Stop t1 next) (hl : ∀ c ∈ lead, isSpace c = true)
    (hd : ∀ c ∈ d.head?, isSpace c = false) (hd' : d = [] → t1 = []) (hn : next = [] → d.getLast? ≠ some '\n' ∨ t1 ≠ []) :
    Eats bibitemRe ("\\bibitem".toList ++ (i.before ++ (i.labelText ++ '{' :: (i.key ++ '}' :: (lead ++ d))))) (t1 ++ next) [] (groupsOf i d) := by
  have hc : ¬ Contains (d ++ t1) "\\bibitem".toList := by
    rintro ⟨a, b, h⟩
    exact hi.text ⟨lead ++ a, b, by rw [ht, h]; simp⟩
  have hk : ∀ g, Eats keyRe ('{' :: (i.key ++ '}' :: (lead ++ d))) (t1 ++ next) g ((3, d) :: (2, i.key) :: g) := fun g => key_eats hi.key hs hl hd hd' hc hn
  unfold bibitemRe groupsOf
  refine Eats.seq (g1 := []) (Eats.lit _ _ _) (Eats.seq (g1 := []) (Eats.spaces hi.before ?_) ?_)
  · intro c hcc
    unfold BibItemText.labelText at hcc
    cases hlab : i.label with
    | none => rw [hlab] at hcc; simp at hcc; subst hcc; decide
    | some p => rw [hlab] at hcc; simp at hcc; subst hcc; decide
  · unfold BibItemText.labelText
    cases hlab : i.label with
    | none =>
      simp only [List.nil_append]
      refine Eats.seq (x := []) (g1 := []) (Eats.optNone (a := .seq (.lit ['[']) (.seq (.group 1 (.lazyStar anyRe)) (.lit [']']))) (Dead.seq (Dead.char (by simp)))) ?_
      exact Eats.seq (x := []) (g1 := []) (Eats.spaces (by simp) (by intro c hcc; simp at hcc; subst hcc; decide)) (hk [])
    | some p =>
      obtain ⟨l, ws⟩ := p
      obtain ⟨hws, hlb⟩ := hi.label l ws hlab
      have e : '[' :: (l ++ ']' :: ws) ++ '{' :: (i.key ++ '}' :: (lead ++ d)) = ['['] ++ (l ++ ([']'] ++ (ws ++ '{' :: (i.key ++ '}' :: (lead ++ d))))) := by simp
      simp only [e]
      refine Eats.optSeq (Eats.assoc ?_)
      refine Eats.seq (x := ['[']) (g1 := []) (Eats.lit _ _ _) (Eats.assoc ?_)
      refine Eats.lazyAny _ 1 ?_ (fun _ _ => rfl) ?_
      · rintro u v rfl hv
        obtain ⟨a, v, rfl⟩ := List.exists_cons_of_ne_nil hv
        by_cases ha : a = ']'
        · subst ha
          refine Dead.after_lit (t := [']']) ?_
          have h1 := hlb u v rfl
          have e2 : v ++ ([']'] ++ (ws ++ '{' :: (i.key ++ '}' :: (lead ++ d))) ++ (t1 ++ next)) =
              v.takeWhile isSpace ++ (v.dropWhile isSpace ++ ([']'] ++ (ws ++ '{' :: (i.key ++ '}' :: (lead ++ d))) ++ (t1 ++ next))) := by
            rw [← List.append_assoc (v.takeWhile isSpace), List.takeWhile_append_dropWhile]
          show Dead _ (v ++ _)
          rw [e2]
          unfold keyRe
          refine Dead.spaces_char (takeWhile_all v) ?_ (by decide) ?_
          · intro c hcc
            cases hv : v.dropWhile isSpace with
            | nil => rw [hv] at hcc; simp at hcc; subst hcc; decide
            | cons b r =>
              rw [hv] at hcc
              simp at hcc
              subst hcc
              exact dropWhile_head hv
          · cases hv : v.dropWhile isSpace with
            | nil => simp
            | cons b r => rw [hv] at h1; simpa using h1
        · exact Dead.seq (Dead.char (by simp [ha]))
      · refine Eats.seq (x := [']']) (g1 := [(1, l)]) (Eats.lit _ _ _) (Eats.seq (x := ws) (g1 := [(1, l)]) (Eats.spaces hws (by intro c hcc; simp at hcc; subst hcc; decide)) (hk _))

/-! ### Replacing a command -/

theorem command_eats {w : Str} {rest : Str} (h : MayFollow noWord rest) : Eats (.seq (.lit w) Fmt.wordEnd) w rest [] [] := by
  have h2 : Eats Fmt.wordEnd [] rest [] [] := by
    intro rev
    have : (Re.chr isWord).run ⟨rev, rest, []⟩ = [] := Dead.chr isWord (fun c hc => by simpa [noWord] using h c hc) rev []
    show (if ((Re.chr isWord).run ⟨rev, rest, []⟩).isEmpty then [_] else []).head? = _
    rw [this]
    rfl
  have := Eats.seq (x := w) (y := []) (rest := rest) (g1 := []) (Eats.lit w _ _) h2
  rwa [List.append_nil] at this

theorem command_dead {w s : Str} (h : ¬ StartsCommand noWord w s) : Dead (.seq (.lit w) Fmt.wordEnd) s := by
  by_cases hp : w <+: s
  · obtain ⟨r, rfl⟩ := hp
    refine Dead.after_lit fun rev g => ?_
    cases r with
    | nil => exact absurd ⟨[], rfl, rfl⟩ h
    | cons c r =>
      have hc : isWord c = true := by
        cases hw : isWord c with
        | true => rfl
        | false => exact absurd ⟨c :: r, rfl, by simp [noWord, hw]⟩ h
      show (if ((Re.chr isWord).run ⟨rev, c :: r, g⟩).isEmpty then [_] else []) = _
      have : (Re.chr isWord).run ⟨rev, c :: r, g⟩ = [⟨c :: rev, r, g⟩] := by
        show (if isWord c then _ else _) = _
        rw [if_pos hc]
      rw [this]
      rfl
  · exact Dead.seq (Dead.lit hp)

/-- A command does not start in a part of a text that is free of it. -/
theorem free_part {w t v u R : Str} (hw : '\\' ∉ w) (ht : CommandFree noWord ('\\' :: w) t) (hR : R = [] ∨ R.head? = some '\\') (hu : t = u ++ v) (hv : v ≠ []) :
    ¬ StartsCommand noWord ('\\' :: w) (v ++ R) := by
  rintro ⟨r, hr, ho⟩
  rcases hR with rfl | hR
  · exact ht u v hu ⟨r, by simpa using hr, ho⟩
  · obtain ⟨R', rfl⟩ : ∃ R', R = '\\' :: R' := by
      cases R with
      | nil => cases hR
      | cons a R => simp at hR; exact ⟨R, by rw [hR]⟩
    obtain ⟨z, hz⟩ := no_overlap (v := v) (r := R') hw hv ⟨r, hr.symm⟩
    refine ht u v hu ⟨z, hz.symm, ?_⟩
    have : r = z ++ '\\' :: R' := by
      rw [← hz, List.append_assoc] at hr
      exact (List.append_cancel_left hr).symm
    rw [this] at ho
    cases z with
    | nil => rfl
    | cons a z => simpa using ho

theorem sub_free {w : Str} (hw : '\\' ∉ w) (f : Match → Str) {t : Str} (ht : CommandFree noWord ('\\' :: w) t) {R : Str} (hR : R = [] ∨ R.head? = some '\\') :
    ∀ (v rev : Str), (∃ u, t = u ++ v) → (Re.seq (.lit ('\\' :: w)) Fmt.wordEnd).subAux f 0 rev (v ++ R) = v ++ (Re.seq (.lit ('\\' :: w)) Fmt.wordEnd).subAux f 0 (v.reverse ++ rev) R
  | [], rev, _ => by simp
  | c :: v, rev, ⟨u, hu⟩ => by
    have hd := command_dead (free_part hw ht hR hu (by simp))
    have := (Re.subAux_none _ f c rev (v ++ R) (hd.matchAt rev))
    rw [List.cons_append, this, sub_free hw f ht hR v (c :: rev) ⟨u ++ [c], by simp [hu]⟩]
    simp

theorem flat_head {w : Str} : ∀ ts : List Str, ts.flatMap (('\\' :: w) ++ ·) = [] ∨ (ts.flatMap (('\\' :: w) ++ ·)).head? = some '\\'
  | [] => .inl rfl
  | t :: ts => .inr rfl

theorem sub_pieces {w : Str} (hw : '\\' ∉ w) (r : Str) : ∀ (ts : List Str) (rev : Str), (∀ x ∈ ts, CommandFree noWord ('\\' :: w) x) → (∀ x ∈ ts, MayFollow noWord x) →
    (Re.seq (.lit ('\\' :: w)) Fmt.wordEnd).subAux (fun _ => r) 0 rev (ts.flatMap (('\\' :: w) ++ ·)) = ts.flatMap (r ++ ·)
  | [], rev, _, _ => rfl
  | t :: ts, rev, h1, h2 => by
    rw [List.flatMap_cons, List.flatMap_cons, List.append_assoc]
    have hm : MayFollow noWord (t ++ ts.flatMap (('\\' :: w) ++ ·)) := by
      intro x hx
      cases t with
      | cons a t => exact h2 (a :: t) (by simp) x (by simpa using hx)
      | nil =>
        rcases flat_head (w := w) ts with h | h
        · rw [List.nil_append, h] at hx; cases hx
        · rw [List.nil_append, h] at hx; simp at hx; subst hx; rfl
    have he := (command_eats (w := '\\' :: w) hm).matchAt rev
    rw [Re.subAux_match _ _ ('\\' :: w) rev _ _ (by simp) he rfl, sub_free hw _ (h1 t (by simp)) (flat_head ts) t _ ⟨[], rfl⟩,
      sub_pieces hw r ts _ (fun x hx => h1 x (by simp [hx])) (fun x hx => h2 x (by simp [hx])), List.append_assoc]

theorem sub_command {w r s out : Str} (hw : '\\' ∉ w) (h : CommandReplaced ('\\' :: w) r s out) : (Re.seq (.lit ('\\' :: w)) Fmt.wordEnd).sub (fun _ => r) s = out := by
  obtain ⟨t, ts, rfl, rfl, h1, h2⟩ := h
  unfold Re.sub
  rw [sub_free hw _ (h1 t (by simp)) (flat_head ts) t [] ⟨[], rfl⟩, sub_pieces hw r ts _ (fun x hx => h1 x (by simp [hx])) h2]

theorem search_free {r : Re} : ∀ (s rev : Str), (∀ u v, s = u ++ v → Dead r v) → r.searchFrom rev s = none
  | [], rev, h => (h [] [] rfl).matchAt rev
  | c :: s, rev, h => by
    unfold Re.searchFrom
    rw [(h [] (c :: s) rfl).matchAt rev]
    exact search_free s (c :: rev) fun u v hs => h (c :: u) v (by rw [hs]; rfl)

theorem sub_unfound {r : Re} (f : Match → Str) : ∀ (s rev : Str), r.searchFrom rev s = none → r.subAux f 0 rev s = s
  | [], rev, _ => by unfold Re.subAux; rfl
  | c :: s, rev, h => by
    unfold Re.searchFrom at h
    split at h
    · cases h
    · rename_i hm
      rw [Re.subAux_none r f c rev s hm, sub_unfound f s (c :: rev) h]

theorem newblock_slash : '\\' ∉ "newblock".toList := by decide
theorem bysame_slash : '\\' ∉ "bysame".toList := by decide

theorem template_plain : ∀ {s : Str}, '\\' ∉ s → template s = some s
  | [], _ => rfl
  | c :: s, h => by
    have hc : c ≠ '\\' := fun hh => h (by simp [hh])
    have ih := template_plain (s := s) fun hh => h (by simp [hh])
    unfold template
    split
    · simp_all
    · simp_all
    · simp_all
    · rename_i c' t' _ _ heq
      injection heq with h1 h2
      subst h1; subst h2
      rw [ih]; rfl

theorem same_author {prev t t' : Str} (h : SameAuthor prev t t') : sameAuthor prev t = some t' := by
  unfold sameAuthor
  cases h with
  | keep h =>
    rcases h with rfl | h | h
    · rfl
    · have : (firstPart prev).isEmpty = true := by rw [show firstPart prev = [] from h]; rfl
      rw [this]; simp
    · have : bysameRe.search t = none := search_free t [] fun u v hs => command_dead (h u v hs)
      rw [this]; simp
  | same _ h1 h2 h3 =>
    have hp : prev.isEmpty = false := by
      cases prev with
      | nil => exact absurd rfl h1
      | cons _ _ => rfl
    have hf : (firstPart prev).isEmpty = false := by
      cases hh : firstPart prev with
      | nil => exact absurd hh h1
      | cons _ _ => rfl
    have hs : bysameRe.sub (fun _ => firstPart prev) t = t' := sub_command (w := "bysame".toList) bysame_slash h3
    have ht : template (firstPart prev) = some (firstPart prev) := template_plain h2
    rw [hf, ht]
    simp only [hp, Bool.not_false, Bool.true_and]
    split
    · simp [hs]
    · rename_i hnone
      -- nothing to replace
      have : bysameRe.search t = none := by
        cases hh : bysameRe.search t with
        | none => rfl
        | some m => rw [hh] at hnone; exact absurd rfl hnone
      rw [← hs]
      unfold Re.sub
      rw [sub_unfound _ t [] this]

/-! ### The items -/

theorem render_ne (i : BibItemText) (l : Str) : "\\bibitem".toList <+: i.render ++ l := ⟨_, by unfold BibItemText.render; rw [List.append_assoc]⟩

theorem flat_render (l : List BibItemText) : l.flatMap BibItemText.render = [] ∨ "\\bibitem".toList <+: l.flatMap BibItemText.render := by
  cases l with
  | nil => exact .inl rfl
  | cons i l => exact .inr (render_ne i _)

theorem space_newline : isSpace '\n' = true := by decide

/-- The match of an item. -/
theorem item_match {i : BibItemText} (hi : i.Ok) {next : Str} (hn : next = [] ∨ "\\bibitem".toList <+: next) (rev : Str) :
    ∃ m rev', bibitemRe.findIter 0 rev (i.render ++ next) = m :: bibitemRe.findIter 0 rev' next ∧ ∃ d, m.groups = groupsOf i d ∧ strip d = strip i.text := by
  obtain ⟨d, t1, hd, hst, hnl⟩ := stop_split (d := i.text.dropWhile isSpace) hn
  have ht : i.text = i.text.takeWhile isSpace ++ (d ++ t1) := by rw [← hd, List.takeWhile_append_dropWhile]
  have hh : ∀ c ∈ (d ++ t1).head?, isSpace c = false := by
    intro c hc
    rw [← hd] at hc
    cases hv : i.text.dropWhile isSpace with
    | nil => rw [hv] at hc; cases hc
    | cons b r => rw [hv] at hc; simp at hc; subst hc; exact dropWhile_head hv
  have hd' : d = [] → t1 = [] := by
    rintro rfl
    rcases hst.left with h | ⟨rfl, _⟩
    · exact h
    · have := hh '\n' (by simp)
      rw [space_newline] at this; cases this
  have hdh : ∀ c ∈ d.head?, isSpace c = false := by
    intro c hc
    cases d with
    | nil => cases hc
    | cons a d => exact hh c (by simpa using hc)
  have he := item_eats hi ht hst (takeWhile_all _) hdh hd' hnl
  have e : i.render ++ next = "\\bibitem".toList ++ (i.before ++ (i.labelText ++ '{' :: (i.key ++ '}' :: (i.text.takeWhile isSpace ++ d)))) ++ (t1 ++ next) := by
    unfold BibItemText.render
    conv => lhs; rw [ht]
    simp
  have hm := he.matchAt rev
  have hf := Re.findIter_match bibitemRe _ rev _ _ (by intro h; have := congrArg List.length h; simp at this) hm rfl
  rw [e, hf]
  have hsd : strip d = strip i.text := by
    rw [ht, Content.strip_left (takeWhile_all _)]
    rcases hst.left with rfl | ⟨rfl, _⟩
    · rw [List.append_nil]
    · rw [Content.strip_right (by simp [space_newline])]
  rcases hst.left with rfl | ⟨rfl, rfl⟩
  · exact ⟨_, _, rfl, d, rfl, hsd⟩
  · have h1 : Dead bibitemRe ['\n'] := Dead.seq (Dead.lit (by decide))
    have h2 : ∀ r : Str, bibitemRe.findIter 0 r (['\n'] ++ []) = bibitemRe.findIter 0 [] [] := by
      intro r
      rw [List.append_nil, Re.findIter_none _ _ _ _ (h1.matchAt _)]
      simp [Re.findIter]
    exact ⟨_, [], by rw [h2], d, rfl, hsd⟩

theorem items_entries : ∀ {prev : Str} {l : List BibItemText} {es : List Entry}, Entries prev l es → (∀ i ∈ l, i.Ok) → ∀ rev,
    entries prev (bibitemRe.findIter 0 rev (l.flatMap BibItemText.render)) = some es := by
  intro prev l es h
  induction h with
  | nil prev => intro _ rev; simp [Re.findIter, entries]
  | blank prev i l es ht _ ih =>
    intro hok rev
    obtain ⟨m, rev', hf, d, hg, hd⟩ := item_match (hok i (by simp)) (flat_render l) rev
    rw [List.flatMap_cons, hf]
    have h3 : m.group 3 = some d := by unfold Match.group; rw [hg]; rfl
    unfold entries
    rw [h3]
    simp only [Option.getD_some, hd, ht]
    exact ih (fun j hj => hok j (by simp [hj])) rev'
  | item prev i l es t t' ht hr hs _ ih =>
    intro hok rev
    obtain ⟨m, rev', hf, d, hg, hd⟩ := item_match (hok i (by simp)) (flat_render l) rev
    rw [List.flatMap_cons, hf]
    have h3 : m.group 3 = some d := by unfold Match.group; rw [hg]; rfl
    have h2 : m.group 2 = some i.key := by unfold Match.group; rw [hg]; rfl
    have h1 : m.group 1 = i.label.map (·.1) := by
      unfold Match.group; rw [hg]
      unfold groupsOf
      cases i.label <;> rfl
    unfold entries
    have hne : (strip i.text).isEmpty = false := by
      cases hh : strip i.text with
      | nil => exact absurd hh ht
      | cons _ _ => rfl
    have hnb : newblockRe.sub (fun _ => []) (strip i.text) = t := sub_command (w := "newblock".toList) newblock_slash hr
    rw [h3, h2, h1]
    simp only [Option.getD_some, hd, hne, hnb, same_author hs, ih (fun j hj => hok j (by simp [hj])) rev', Option.map_some]
    congr 1
    cases i.label with
    | none => rfl
    | some p =>
      obtain ⟨x, ws⟩ := p
      cases x <;> rfl

theorem find_skip {t R : Str} (hc : ¬ Contains t "\\bibitem".toList) (hR : R = [] ∨ "\\bibitem".toList <+: R) : ∀ (v rev : Str), (∃ u, t = u ++ v) →
    ∃ rev', bibitemRe.findIter 0 rev (v ++ R) = bibitemRe.findIter 0 rev' R
  | [], rev, _ => ⟨rev, rfl⟩
  | c :: v, rev, ⟨u, hu⟩ => by
    have hd : Dead bibitemRe (c :: (v ++ R)) := by
      refine Dead.seq (Dead.lit fun hp => ?_)
      have : "\\bibitem".toList <+: c :: v := by
        rcases hR with rfl | ⟨r, rfl⟩
        · simpa using hp
        · exact no_overlap (w := "bibitem".toList) (r := "bibitem".toList ++ r) no_slash (by simp) hp
      obtain ⟨z, hz⟩ := this
      exact hc ⟨u, z, by rw [hu, ← hz]; simp⟩
    rw [List.cons_append, Re.findIter_none _ _ _ _ (hd.matchAt rev)]
    exact find_skip hc hR v (c :: rev) ⟨u ++ [c], by simp [hu]⟩

theorem body_entries {pre : Str} {l : List BibItemText} {es : List Entry} (hp : ¬ Contains pre "\\bibitem".toList) (hl : ∀ i ∈ l, i.Ok) (h : Entries [] l es) :
    entries [] (bibitemRe.findIter 0 [] (pre ++ l.flatMap BibItemText.render)) = some es := by
  obtain ⟨rev', hf⟩ := find_skip hp (flat_render l) pre [] ⟨[], rfl⟩
  rw [hf]
  exact items_entries h hl rev'

/-! ### The environment -/

theorem envAt_some {s x : Str} (h : bibEnvAt s = some x) : ∃ n v, s = "\\begin{".toList ++ (n ++ '}' :: v) ∧ BibliographyName n := by
  unfold bibEnvAt at h
  split at h
  · rename_i hs
    simp only at h
    split at h
    · rename_i r' hr
      split at h
      · rename_i he
        refine ⟨(s.drop 7).takeWhile isWord, r', ?_, takeWhile_all _, ?_⟩
        · rw [← hr]
          have e : s.drop 7 = (s.drop 7).take ((s.drop 7).takeWhile isWord).length ++ (s.drop 7).drop ((s.drop 7).takeWhile isWord).length := (List.take_append_drop _ _).symm
          rw [← takeWhile_eq_take] at e
          have hp : "\\begin{".toList <+: s := List.isPrefixOf_iff_prefix.1 hs
          obtain ⟨t, rfl⟩ := hp
          have : ("\\begin{".toList ++ t).drop 7 = t := List.drop_left (l₁ := "\\begin{".toList)
          rw [this] at e ⊢
          congr 1
        · unfold endsWith at he
          exact List.isSuffixOf_iff_suffix.1 he
      · cases h
    · cases h
  · cases h

theorem bibEnv_none : ∀ {s : Str}, NoBibliography s → bibEnv s = none
  | [], _ => rfl
  | c :: s, h => by
    unfold bibEnv
    cases he : bibEnvAt (c :: s) with
    | some x =>
      obtain ⟨n, v, e, hn⟩ := envAt_some he
      exact absurd hn (h [] n v e)
    | none => exact bibEnv_none fun u n v e => h (c :: u) n v (by rw [e]; rfl)

theorem begin_slash : '\\' ∉ "begin{".toList := by decide
theorem end_slash : '\\' ∉ "end{".toList := by decide

theorem word_char {c : Char} (h : isWord c = true) : c ≠ '}' ∧ c ≠ '\\' := by
  constructor <;> (rintro rfl; exact absurd h (by decide))

theorem bibEnv_skip {R : Str} (hR : R.head? = some '\\') {t : Str} (ht : NoBibliography t) : ∀ (v : Str), (∃ u, t = u ++ v) → bibEnv (v ++ R) = bibEnv R
  | [], _ => rfl
  | c :: v, ⟨u, hu⟩ => by
    have ih := bibEnv_skip hR ht v ⟨u ++ [c], by simp [hu]⟩
    rw [List.cons_append, bibEnv]
    cases he : bibEnvAt (c :: (v ++ R)) with
    | none => exact ih
    | some x =>
      exfalso
      obtain ⟨n, z, e, hn⟩ := envAt_some he
      obtain ⟨R', rfl⟩ : ∃ R', R = '\\' :: R' := by
        cases R with
        | nil => cases hR
        | cons a R => simp at hR; exact ⟨R, by rw [hR]⟩
      obtain ⟨q, hq⟩ := no_overlap (w := "begin{".toList) (v := c :: v) (r := R') begin_slash (by simp) ⟨n ++ '}' :: z, e.symm⟩
      have e2 : q ++ '\\' :: R' = n ++ '}' :: z := by
        have : '\\' :: "begin{".toList ++ (q ++ '\\' :: R') = "\\begin{".toList ++ (n ++ '}' :: z) := by rw [← e, ← List.append_assoc, hq]; rfl
        exact List.append_cancel_left (as := "\\begin{".toList) this
      -- the name and the brace are in `q`
      rcases List.append_eq_append_iff.1 e2 with ⟨y, hy1, hy2⟩ | ⟨y, hy1, hy2⟩
      · -- n = q ++ y, '\\' :: R' = y ++ '}' :: z
        cases y with
        | nil => simp at hy2
        | cons a y =>
          simp only [List.cons_append, List.cons.injEq] at hy2
          exact (word_char (hn.1 a (by rw [hy1]; simp))).2 hy2.1.symm
      · cases y with
        | nil => simp at hy2
        | cons a y =>
          simp only [List.cons_append, List.cons.injEq] at hy2
          refine ht u n y ?_ hn
          rw [hu, ← hq, hy1, ← hy2.1]
          simp

theorem bibEnv_here {n body v : Str} (hn : BibliographyName n) (hb : ¬ Contains body ("\\end{".toList ++ (n ++ ['}']))) :
    bibEnv ("\\begin{".toList ++ (n ++ '}' :: (body ++ ("\\end{".toList ++ (n ++ '}' :: v))))) = some body := by
  have ht : (n ++ '}' :: (body ++ ("\\end{".toList ++ (n ++ '}' :: v)))).takeWhile isWord = n :=
    Boxes.takeWhile_all' n _ hn.1 (by intro c hc; simp at hc; subst hc; decide)
  have : bibEnvAt ("\\begin{".toList ++ (n ++ '}' :: (body ++ ("\\end{".toList ++ (n ++ '}' :: v))))) = some body := by
    unfold bibEnvAt
    rw [if_pos (by unfold startsWith; rw [List.isPrefixOf_iff_prefix]; exact ⟨_, rfl⟩)]
    have hd : ("\\begin{".toList ++ (n ++ '}' :: (body ++ ("\\end{".toList ++ (n ++ '}' :: v))))).drop 7 = n ++ '}' :: (body ++ ("\\end{".toList ++ (n ++ '}' :: v))) :=
      List.drop_left (l₁ := "\\begin{".toList)
    simp only [hd, ht, List.drop_left]
    rw [if_pos (by unfold endsWith; exact List.isSuffixOf_iff_suffix.2 hn.2)]
    have hf : findSub ("\\end{".toList ++ n ++ ['}']) (body ++ ("\\end{".toList ++ (n ++ '}' :: v))) = some body.length := by
      have e : body ++ ("\\end{".toList ++ (n ++ '}' :: v)) = body ++ (("\\end{".toList ++ n ++ ['}']) ++ v) := by simp
      rw [e]
      refine Eqn.findSub_body _ _ _ (by simp) ?_
      intro k hk hp
      rw [List.drop_append_of_le_length (Nat.le_of_lt hk)] at hp
      have hsl : '\\' ∉ "end{".toList ++ n ++ ['}'] := by
        simp only [List.mem_append, List.mem_singleton, not_or]
        exact ⟨⟨end_slash, fun hc => (word_char (hn.1 _ hc)).2 rfl⟩, by decide⟩
      obtain ⟨z, hz⟩ := no_overlap (w := "end{".toList ++ n ++ ['}']) (v := body.drop k) (r := "end{".toList ++ n ++ ['}'] ++ v) hsl
        (by intro h; rw [List.drop_eq_nil_iff] at h; omega) (by simpa using hp)
      refine hb ⟨body.take k, z, ?_⟩
      conv => lhs; rw [← List.take_append_drop k body, ← hz]
      simp
    rw [hf]
    simp
  cases hh : "\\begin{".toList ++ (n ++ '}' :: (body ++ ("\\end{".toList ++ (n ++ '}' :: v)))) with
  | nil => cases hh
  | cons a s =>
    rw [hh] at this
    unfold bibEnv
    rw [this]

/-- C66: `\bibitem`s without an environment become the entries they stand for. -/
theorem C66_items_partial {pre : Str} {l : List BibItemText} {es : List Entry} (hp : ¬ Contains pre "\\bibitem".toList) (hl : ∀ i ∈ l, i.Ok)
    (hn : NoBibliography (pre ++ l.flatMap BibItemText.render)) (h : Entries [] l es) : parse (pre ++ l.flatMap BibItemText.render) = some es := by
  unfold parse
  rw [bibEnv_none hn]
  exact body_entries hp hl h

/-- C66: the `\bibitem`s of the first bibliography environment become the entries they stand for, whatever stands before and behind the environment. -/
theorem C66_environment_partial {u n pre v : Str} {l : List BibItemText} {es : List Entry} (hu : NoBibliography u) (hn : BibliographyName n)
    (he : ¬ Contains (pre ++ l.flatMap BibItemText.render) ("\\end{".toList ++ (n ++ ['}'])))
    (hp : ¬ Contains pre "\\bibitem".toList) (hl : ∀ i ∈ l, i.Ok) (h : Entries [] l es) :
    parse (u ++ ("\\begin{".toList ++ (n ++ '}' :: (pre ++ l.flatMap BibItemText.render ++ ("\\end{".toList ++ (n ++ '}' :: v)))))) = some es := by
  unfold parse
  rw [bibEnv_skip rfl hu u ⟨[], rfl⟩, bibEnv_here hn he]
  exact body_entries hp hl h

/-! ### Authors with commands -/

/-- An author with a command in it that `re.sub` does not know. -/
def _root_.L2J.Spec.UnknownEscape (s : Str) : Prop := ∃ a c b, s = a ++ '\\' :: c :: b ∧ '\\' ∉ a ∧ isLetter c = true ∧ c ∉ "abfnrtv".toList

theorem template_unknown : ∀ {a : Str} {c : Char} {b : Str}, '\\' ∉ a → isLetter c = true → c ∉ "abfnrtv".toList → template (a ++ '\\' :: c :: b) = none
  | [], c, b, _, hc, hn => by
    have hf : escapes.find? (·.1 == c) = none := by
      rw [List.find?_eq_none]
      intro e he
      have hs : c ≠ '\\' := by rintro rfl; exact absurd hc (by decide)
      have hall : ∀ e ∈ escapes, e.1 ∈ "abfnrtv".toList ∨ e.1 = '\\' := by decide
      simp only [beq_iff_eq]
      rintro rfl
      rcases hall e he with h | h
      · exact hn h
      · exact hs h
    rw [List.nil_append, template, hf]
    simp [hc]
  | x :: a, c, b, ha, hc, hn => by
    have hx : x ≠ '\\' := fun hh => ha (by simp [hh])
    have ih := template_unknown (a := a) (c := c) (b := b) (fun hh => ha (by simp [hh])) hc hn
    rw [List.cons_append]
    unfold template
    split
    · simp_all
    · simp_all
    · simp_all
    · rename_i c' t' _ _ heq
      injection heq with h1 h2
      subst h1; subst h2
      rw [ih]; rfl

/-- C66, violated: when an item says `\bysame` and the author of the item before is written with a command such as `\H{o}`, no entry is returned for any item: an
exception is raised. -/
theorem C66_violated_bysame_raises {pre t t' : Str} {i j : BibItemText} {l : List BibItemText} (hp : ¬ Contains pre "\\bibitem".toList) (hi : i.Ok) (hj : j.Ok)
    (hn : NoBibliography (pre ++ (i :: j :: l).flatMap BibItemText.render)) (hti : strip i.text ≠ []) (htj : strip j.text ≠ [])
    (ht : CommandReplaced "\\newblock".toList [] (strip i.text) t) (ht' : CommandReplaced "\\newblock".toList [] (strip j.text) t')
    (ha : UnknownEscape (authorOf t)) (hb : (bysameRe.search t').isSome) : parse (pre ++ (i :: j :: l).flatMap BibItemText.render) = none := by
  unfold parse
  rw [bibEnv_none hn]
  obtain ⟨rev', hf⟩ := find_skip hp (flat_render (i :: j :: l)) pre [] ⟨[], rfl⟩
  simp only [Option.getD_none]
  rw [hf]
  obtain ⟨m, rev1, hf1, d, hg, hd⟩ := item_match hi (flat_render (j :: l)) rev'
  obtain ⟨m2, rev2, hf2, d2, hg2, hd2⟩ := item_match hj (flat_render l) rev1
  rw [List.flatMap_cons, hf1, List.flatMap_cons, hf2]
  have h3 : m.group 3 = some d := by unfold Match.group; rw [hg]; rfl
  have h32 : m2.group 3 = some d2 := by unfold Match.group; rw [hg2]; rfl
  have e1 : newblockRe.sub (fun _ => []) (strip i.text) = t := sub_command (w := "newblock".toList) newblock_slash ht
  have e2 : newblockRe.sub (fun _ => []) (strip j.text) = t' := sub_command (w := "newblock".toList) newblock_slash ht'
  have hne : ∀ x : Str, x ≠ [] → x.isEmpty = false := by
    intro x hx
    cases x with
    | nil => exact absurd rfl hx
    | cons _ _ => rfl
  have s1 : sameAuthor [] t = some t := rfl
  have s2 : sameAuthor t t' = none := by
    unfold sameAuthor
    obtain ⟨a, c, b, e, h1, h2, h3⟩ := ha
    have hf : firstPart t = a ++ '\\' :: c :: b := e
    have ht0 : t ≠ [] := by
      rintro rfl
      have := congrArg List.length e
      simp [authorOf] at this
    rw [hf, hne t ht0, hb, template_unknown h1 h2 h3]
    rw [hne (a ++ '\\' :: c :: b) (by simp)]
    simp
  unfold entries
  rw [h3]
  simp only [Option.getD_some, hd, hne _ hti, e1, s1]
  unfold entries
  rw [h32]
  simp only [Option.getD_some, hd2, hne _ htj, e2, s2]
  simp

/-- The items of the examples. -/
def exItems : List BibItemText :=
  [⟨[], some ("K97".toList, [' ']), "knuth".toList, " Donald Knuth, \\newblock The Art.\n".toList⟩, ⟨[], none, "x".toList, "\n".toList⟩,
   ⟨[' '], none, " k2 ".toList, "\\bysame, Volume 2.\n".toList⟩]

theorem plain_free {w t : Str} (h : '\\' ∉ t) : CommandFree noWord ('\\' :: w) t := by
  rintro u v rfl ⟨r, rfl, _⟩
  exact h (by simp)

theorem replaced_none {w r t : Str} (h : '\\' ∉ t) : CommandReplaced ('\\' :: w) r t t :=
  ⟨t, [], by simp, by simp, by intro x hx; simp at hx; subst hx; exact plain_free h, by simp⟩

theorem replaced_one {w r t x : Str} (ht : '\\' ∉ t) (hx : '\\' ∉ x) (hf : MayFollow noWord x) : CommandReplaced ('\\' :: w) r (t ++ ('\\' :: w ++ x)) (t ++ (r ++ x)) :=
  ⟨t, [x], by simp, by simp, by
    intro y hy
    simp at hy
    rcases hy with rfl | rfl
    · exact plain_free ht
    · exact plain_free hx, by intro y hy; simp at hy; subst hy; exact hf⟩

/-- A part that starts with a backslash is among the parts of the text behind its backslashes. -/
theorem not_contains {t w : Str} (h : (List.range (t.length + 1)).all (fun k => !(('\\' :: w).isPrefixOf (t.drop k))) = true) : ¬ Contains t ('\\' :: w) := by
  rintro ⟨a, b, rfl⟩
  rw [List.all_eq_true] at h
  have := h a.length (by rw [List.mem_range]; simp; omega)
  rw [List.append_assoc, List.drop_left] at this
  simp only [Bool.not_eq_true', ← Bool.not_eq_true, List.isPrefixOf_iff_prefix] at this
  exact this ⟨b, rfl⟩

theorem exItems_ok : ∀ i ∈ exItems, i.Ok := by
  intro i hi
  simp only [exItems, List.mem_cons, List.not_mem_nil, or_false] at hi
  rcases hi with rfl | rfl | rfl
  · refine ⟨by decide, ?_, by decide, not_contains (by decide +kernel)⟩
    intro l ws h
    simp only [Option.some.injEq, Prod.mk.injEq] at h
    obtain ⟨rfl, rfl⟩ := h
    refine ⟨by decide, fun u v huv => ?_⟩
    have : ']' ∈ "K97".toList := by rw [huv]; simp
    exact absurd this (by decide)
  · exact ⟨by decide, by simp, by decide, not_contains (by decide +kernel)⟩
  · exact ⟨by decide, by simp, by decide, not_contains (by decide +kernel)⟩

/-- An item with a label, an item without text and one by the same author. -/
theorem exItems_entries : Entries [] exItems [⟨"knuth".toList, some "K97".toList, "Donald Knuth,  The Art.".toList⟩, ⟨"k2".toList, none, "Donald Knuth, Volume 2.".toList⟩] := by
  refine Entries.item [] _ _ _ "Donald Knuth,  The Art.".toList "Donald Knuth,  The Art.".toList (by decide +kernel) ?_ (.keep _ (.inl rfl)) ?_
  · exact replaced_one (w := "newblock".toList) (r := []) (t := "Donald Knuth, ".toList) (x := " The Art.".toList) (by decide) (by decide) (by intro x hx; simp at hx; subst hx; rfl)
  · refine Entries.blank _ _ _ _ (by decide +kernel) ?_
    refine Entries.item _ _ _ _ "\\bysame, Volume 2.".toList "Donald Knuth, Volume 2.".toList (by decide +kernel) ?_ ?_ (.nil _)
    · refine ⟨"\\bysame, Volume 2.".toList, [], by decide +kernel, by simp, ?_, by simp⟩
      intro x hx
      simp only [List.mem_singleton] at hx
      subst hx
      rintro u v huv ⟨r, rfl, _⟩
      exact not_contains (t := "\\bysame, Volume 2.".toList) (w := "newblock".toList) (by decide +kernel) ⟨u, r, by rw [huv, List.append_assoc]; rfl⟩
    · refine .same _ _ (by decide +kernel) (by decide +kernel) ?_
      exact replaced_one (w := "bysame".toList) (r := "Donald Knuth".toList) (t := []) (x := ", Volume 2.".toList) (by decide) (by decide) (by intro x hx; simp at hx; subst hx; rfl)

/-- The hypotheses of `C66_environment_partial` are met by a bibliography of these items. -/
example : parse ("See\n".toList ++ ("\\begin{".toList ++ ("thebibliography".toList ++ '}' :: ("{99}\n".toList ++ exItems.flatMap BibItemText.render ++
    ("\\end{".toList ++ ("thebibliography".toList ++ '}' :: "\n".toList)))))) =
      some [⟨"knuth".toList, some "K97".toList, "Donald Knuth,  The Art.".toList⟩, ⟨"k2".toList, none, "Donald Knuth, Volume 2.".toList⟩] := by
  refine C66_environment_partial ?_ ⟨by decide, by decide⟩ (not_contains (w := "end{thebibliography}".toList) (by decide +kernel)) (not_contains (by decide +kernel)) exItems_ok exItems_entries
  rintro u n v h
  have : '\\' ∈ "See\n".toList := by rw [h]; simp
  exact absurd this (by decide)

/-- The same items without an environment. -/
example : parse ([] ++ exItems.flatMap BibItemText.render) =
      some [⟨"knuth".toList, some "K97".toList, "Donald Knuth,  The Art.".toList⟩, ⟨"k2".toList, none, "Donald Knuth, Volume 2.".toList⟩] := by
  refine C66_items_partial (not_contains (by decide +kernel)) exItems_ok ?_ exItems_entries
  rintro u n v h
  exact absurd ⟨u, n ++ '}' :: v, by rw [h]; simp⟩ (not_contains (t := [] ++ exItems.flatMap BibItemText.render) (w := "begin{".toList) (by decide +kernel))

/-- Two items for which `C66_violated_bysame_raises` holds: the author is written with `\H{o}`. -/
def exErdos : List BibItemText := [⟨[], none, "a".toList, " P. Erd\\H{o}s, X.\n".toList⟩, ⟨[], none, "b".toList, " \\bysame, Y.".toList⟩]

theorem C66_violated_erdos : parse ([] ++ exErdos.flatMap BibItemText.render) = none := by
  have hfree : ∀ {t : Str}, (List.range (t.length + 1)).all (fun k => !(("\\newblock".toList).isPrefixOf (t.drop k))) = true → CommandReplaced "\\newblock".toList [] t t := by
    intro t h
    refine ⟨t, [], by simp, by simp, ?_, by simp⟩
    intro x hx
    simp only [List.mem_singleton] at hx
    subst hx
    rintro u v huv ⟨r, rfl, _⟩
    exact not_contains (w := "newblock".toList) h ⟨u, r, by rw [huv, List.append_assoc]; rfl⟩
  refine C66_violated_bysame_raises (t := "P. Erd\\H{o}s, X.".toList) (t' := "\\bysame, Y.".toList) (not_contains (by decide +kernel)) ?_ ?_ ?_ (by decide +kernel) (by decide +kernel)
    (hfree (by decide +kernel)) (hfree (by decide +kernel)) ⟨"P. Erd".toList, 'H', "{o}s".toList, by decide, by decide, by decide, by decide⟩ (by decide +kernel)
  · exact ⟨by decide, by simp, by decide, not_contains (by decide +kernel)⟩
  · exact ⟨by decide, by simp, by decide, not_contains (by decide +kernel)⟩
  · rintro u n v h
    exact absurd ⟨u, n ++ '}' :: v, by rw [show [] ++ exErdos.flatMap BibItemText.render = _ from h]; simp⟩ (not_contains (t := [] ++ exErdos.flatMap BibItemText.render) (w := "begin{".toList) (by decide +kernel))

/-- C66, violated: `\textsc{..}` in the author that `\bysame` stands for becomes a tab and `extsc{..}`. -/
theorem C66_violated_bysame_tab : sameAuthor "\\textsc{Knuth}, A.".toList "\\bysame, B.".toList = some ("\textsc{Knuth}, B.".toList) := by decide +kernel

/-! ### Which parser is used -/

theorem starts_none : ∀ {s : Str}, '@' ∉ s → entryStarts 0 s = []
  | [], _ => rfl
  | c :: s, h => by
    have hm : matchEntry (c :: s) = none := by
      unfold matchEntry
      split
      · rename_i hh; injection hh with h1 _; exact absurd (by rw [h1]; simp) h
      · rfl
    rw [entryStarts, hm]
    exact starts_none fun hh => h (by simp [hh])

theorem bibdiv_none {s : Str} (h : ¬ Contains s "\\begin".toList) : bibdivRe.search s = none :=
  search_free s [] fun u v hs => Dead.seq (Dead.lit fun ⟨r, hr⟩ => h ⟨u, r, by rw [hs, ← hr]; simp⟩)

/-- C66: which parser gets the (cleaned) bibliography: the one for `\bibitem`, if there is no `@`, no compiled entry and no environment but has a `\bibitem`. -/
theorem C66_dispatch (convert : Str → List Str) {content : Str} (h1 : '@' ∉ preprocess content) (h2 : ¬ Contains (preprocess content) "\\entry{".toList)
    (h3 : ¬ Contains (preprocess content) "\\begin".toList) (h4 : Contains (preprocess content) "\\bibitem".toList) :
    parseAny convert content = .bibitem (parse (preprocess content)) := by
  have hc : isCompiledBibtex (preprocess content) = false := by
    unfold isCompiledBibtex
    have := (findSub_contains "\\entry{".toList (by decide) (preprocess content))
    cases hh : findSub "\\entry{".toList (preprocess content) with
    | none => rfl
    | some i => rw [hh] at this; exact absurd (this.1 rfl) h2
  have hb : canHandle (preprocess content) = true := by
    unfold canHandle
    rw [(findSub_contains "\\bibitem".toList (by decide) _).2 h4, Bool.or_true]
  unfold parseAny
  simp only [bibdiv_none h3, starts_none h1, hc, hb]
  rfl

/-- C66, violated: a text like `@x{` anywhere in a bibliography (an address, say) sends the whole bibliography to the BibTeX parser, whatever `\bibitem`s there are. -/
theorem C66_violated_at (convert : Str → List Str) {content u w ws v : Str} (h : ¬ Contains (preprocess content) "\\begin".toList)
    (he : preprocess content = u ++ '@' :: (w ++ (ws ++ '{' :: v))) (hw0 : w ≠ []) (hw : ∀ c ∈ w, isWord c = true) (hws : ∀ c ∈ ws, isSpace c = true) :
    parseAny convert content = .bibtex (parseBibtex convert (preprocess content)) := by
  have hm : matchEntry ('@' :: (w ++ (ws ++ '{' :: v))) = some (w, w.length + ws.length + 2) := by
    have hnw : ∀ c ∈ (ws ++ '{' :: v).head?, isWord c = false := by
      intro c hc
      cases ws with
      | nil => simp at hc; subst hc; decide
      | cons a ws =>
        simp at hc; subst hc
        cases hh : isWord a with
        | false => rfl
        | true => exact absurd (.inl (hws a (by simp))) (word_not_sep hh)
    have e1 : (w ++ (ws ++ '{' :: v)).takeWhile isWord = w := Boxes.takeWhile_all' w _ hw hnw
    have e2 : (ws ++ '{' :: v).takeWhile isSpace = ws := Boxes.takeWhile_all' ws _ hws (by intro c hc; simp at hc; subst hc; decide)
    have e3 : w.isEmpty = false := by
      cases w with
      | nil => exact absurd rfl hw0
      | cons _ _ => rfl
    unfold matchEntry
    simp [e1, e2, e3, List.drop_left]
  have hs : ∀ u : Str, (entryStarts 0 (u ++ '@' :: (w ++ (ws ++ '{' :: v)))).isEmpty = false := by
    intro u
    induction u with
    | nil => rw [List.nil_append, entryStarts, hm]; rfl
    | cons c u ih =>
      rw [List.cons_append, entryStarts]
      cases hh : matchEntry (c :: (u ++ '@' :: (w ++ (ws ++ '{' :: v)))) with
      | none => exact ih
      | some p => rfl
  unfold parseAny
  have h1 := hs u
  rw [← he] at h1
  simp only [bibdiv_none h, h1]
  rfl

/-- The two `\bibitem`s of this bibliography are lost. -/
def exAddress : Str := "\\bibitem{a} A, X, me@home{1}.\n\\bibitem{b} B, Y.".toList

theorem C66_violated_address (convert : Str → List Str) : parseAny convert exAddress = .bibtex (some []) := by
  have h0 : preprocess exAddress = "\\bibitem{a} A, X, me@home{1}. \\bibitem{b} B, Y.".toList := by decide +kernel
  rw [C66_violated_at convert (u := "\\bibitem{a} A, X, me".toList) (w := "home".toList) (ws := []) (v := "1}. \\bibitem{b} B, Y.".toList)
    (by rw [h0]; exact not_contains (w := "begin".toList) (by decide +kernel)) (by rw [h0]; decide +kernel) (by decide) (by decide) (by simp)]
  have h4 : isCompiledBibtex (preprocess exAddress) = false := by rw [h0]; decide +kernel
  have h3 : parseEntries (entryStarts 0 (preprocess exAddress)) = some [] := by rw [h0]; decide +kernel
  unfold parseBibtex
  rw [h4]
  exact congrArg _ h3

/-- The hypotheses of `C66_dispatch` are met by the items of the examples. -/
example (convert : Str → List Str) : parseAny convert "\\bibitem{a} A, X. % note\n\\bibitem{b} B, Y.".toList = .bibitem (parse "\\bibitem{a} A, X. \\bibitem{b} B, Y.".toList) := by
  have h0 : preprocess "\\bibitem{a} A, X. % note\n\\bibitem{b} B, Y.".toList = "\\bibitem{a} A, X. \\bibitem{b} B, Y.".toList := by decide +kernel
  rw [C66_dispatch convert (by rw [h0]; decide) (by rw [h0]; exact not_contains (w := "entry{".toList) (by decide +kernel)) (by rw [h0]; exact not_contains (w := "begin".toList) (by decide +kernel))
    (by rw [h0]; exact ⟨[], "{a} A, X. \\bibitem{b} B, Y.".toList, by decide +kernel⟩), h0]

end L2J.BibI
