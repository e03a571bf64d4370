import Verif.Props.C65d
/-! C65: labels, line breaks and commands that are not known. -/
namespace L2J.Psr
open Cmds Defn L2J.Spec
open Pre (hitAt firstHit escapable not_word headCore takeWhile_prefix without_word Without.sub)

theorem any_case : ∀ v ∈ anyCaseWords, v.toList.all isNameChar = true := by decide +kernel

/-- The word is no layout command. -/
def notLayouts (w : Str) : Bool :=
  !((layoutWords.map String.toList).contains ('\\' :: w)) && openWords.all (fun v => !(v.toList.isPrefixOf ('\\' :: w))) && anyCaseWords.all (fun v => !(v.toList.isPrefixOf (w.map lowerChar))) &&
    !(decide (Contains w "maketitle".toList)) && spaceWords.all (fun v => !(v.toList.isPrefixOf ('\\' :: w))) && w.all isLetter

theorem notLayouts_spec {w rest : Str} (h : notLayouts w = true) (hr : NameEnds rest) (ho : ∀ c ∈ rest.head?, oddLetter c = false) : NotLayout w rest := by
  simp only [notLayouts, Bool.and_eq_true, List.all_eq_true, Bool.not_eq_true', decide_eq_false_iff_not] at h
  obtain ⟨⟨⟨⟨⟨h1, h2⟩, h3⟩, h4⟩, h5⟩, h6⟩ := h
  have np : ∀ {v s : Str}, v.isPrefixOf s = false → ¬ v <+: s := fun hv hp => by rw [List.isPrefixOf_iff_prefix.2 hp] at hv; cases hv
  have hl : ∀ c ∈ w.head?, isLetter c = true := fun c hc => h6 c (List.mem_of_head? hc)
  refine ⟨⟨fun hm => ?_, fun v hv => np (h2 v hv), fun v hv hp => ?_, h4, fun hc => ?_⟩, fun v hv => np (h5 v hv), fun c hc hm => ?_⟩
  · rw [List.contains_iff_mem.2 hm] at h1; cases h1
  · rw [List.map_append] at hp
    have := takeWhile_prefix (p := isNameChar) hp (fun c hc => by
      rw [List.head?_map] at hc
      cases hh : rest.head? with
      | none => rw [hh] at hc; cases hc
      | some d =>
        rw [hh] at hc
        simp at hc
        rw [← hc, lower_name (hr d (by rw [hh]; rfl)) (ho d (by rw [hh]; rfl))]
        exact hr d (by rw [hh]; rfl))
    rw [takeWhile_id (List.all_eq_true.1 (any_case v hv))] at this
    exact np (h3 v hv) this
  · exact absurd (hl '/' hc) (by decide)
  · have := hl c hc
    revert this
    exact (by decide : ∀ c ∈ [',', ';', ':', '!'], isLetter c ≠ true) c hm

/-- The word is not for any handler. -/
def unhandled (w : Str) : Bool := notFirsts w && notContents w && notMiddles w && notLayouts w && accentWords.all fun v => w != v.toList

theorem unhandled_spec {w rest : Str} (h : unhandled w = true) (hr : NameEnds rest) (ho : ∀ c ∈ rest.head?, oddLetter c = false) (hp : ¬ Contains rest ("\\end".toList ++ w)) : Unhandled w rest := by
  simp only [unhandled, Bool.and_eq_true, List.all_eq_true, bne_iff_ne, ne_eq] at h
  obtain ⟨⟨⟨⟨h1, h2⟩, h3⟩, h4⟩, h5⟩ := h
  have h1' := h1
  simp only [notFirsts, Bool.and_eq_true, Bool.not_eq_true', List.all_eq_true] at h1'
  exact ⟨⟨by rintro rfl; exact absurd h1'.1.1.1 (by decide), h1'.1.1.2, hr⟩, notFirsts_spec h1 hr ho, notContents_spec h2 ho, notMiddles_spec h3 hr hp, notLayouts_spec h4 hr ho, h5⟩

/-! ## What is left behind the handlers -/

theorem remaining_none {V X} (o : Opts) (st : St V X) (toks : List Tok) {c : Char} {t : Str} (hc : isLetter c = true) (h : Without lastHeads ('\\' :: c :: t)) :
    remaining o st toks ('\\' :: c :: t) = none := by
  have hb : c ≠ '\\' := by rintro rfl; exact absurd hc (by decide)
  have h1 : labelRe.matchAt [] ('\\' :: c :: t) = none := lit_none h (by decide +kernel)
  have h2 : newlineRe.matchAt [] ('\\' :: c :: t) = none :=
    (show Dead newlineRe _ from Dead.seq (Dead.alt (Dead.lit (not_word h (by decide +kernel))) (Dead.lit (not_word h (by decide +kernel))))).matchAt []
  have h3 : breakRe.matchAt [] ('\\' :: c :: t) = none :=
    (show Dead breakRe _ from Dead.seq (Dead.lit (by rintro ⟨u, hu⟩; simp at hu; exact hb hu.1.symm))).matchAt []
  have h4 : continuationRe.matchAt [] ('\\' :: c :: t) = none := by
    refine (show Dead continuationRe (['\\'] ++ c :: t) from Dead.after_lit (t := ['\\']) (Dead.alt (Dead.chr isSpace (by simpa using letter_space hc)) ?_)).matchAt []
    intro rev g
    simp [Re.run]
    rintro rfl
    exact absurd hc (by decide)
  unfold remaining
  rw [h1, h2, h3, h4]; rfl

theorem drop_ok {α} (a b : List α) {n : Nat} (h : n = a.length) : (a ++ b).drop n = b := by rw [h, List.drop_left]
theorem take_ok {α} (a b : List α) {n : Nat} (h : n = a.length) : (a ++ b).take n = a := by rw [h, List.take_left]

theorem endsBlank_snoc (b : Bool) (x : Str) (c : Char) : endsBlank b (x ++ [c]) = isSpace c := by unfold endsBlank; rw [List.getLast?_concat]

theorem wrapped_eq {x rest : Str} (hx : Wrappable '{' '}' x) : extractNestedContent ('{' :: (x ++ '}' :: rest)) '{' '}' = some (x, x.length + 2) := by
  have := C01_round_trip [] x rest '{' '}' (by simp) (by decide) (by decide) (by decide) hx.1 hx.2
  simpa using this

theorem blank_head {ws s : Str} {c : Char} (hws : Blank ws) (hc : isNameChar c = false ∧ oddLetter c = false) : NameEnds (ws ++ c :: s) ∧ ∀ d ∈ (ws ++ c :: s).head?, oddLetter d = false := by
  cases ws with
  | nil => constructor <;> (intro d hd; simp at hd; subst hd); exact hc.1; exact hc.2
  | cons a ws =>
    have ha := hws a (by simp)
    have h1 : isNameChar a = false := space_name a ha
    refine ⟨fun d hd => by simp at hd; subst hd; exact h1, fun d hd => ?_⟩
    simp at hd; subst hd
    cases ho : oddLetter a with
    | false => rfl
    | true =>
      simp only [oddLetter, Bool.or_eq_true, beq_iff_eq] at ho
      simp only [isSpace] at ha
      revert ha
      have ha' : a = Char.ofNat 0x130 ∨ a = Char.ofNat 0x131 ∨ a = Char.ofNat 0x17f ∨ a = Char.ofNat 0x212a := by
        have e : a = Char.ofNat a.toNat := (Char.ofNat_toNat a).symm
        rcases ho with ((h | h) | h) | h <;> rw [h] at e <;> simp [e]
      rcases ha' with rfl | rfl | rfl | rfl <;> decide

/-- Giving a label: to what the labels go to at this place, to the last token, or as a token of its own. -/
inductive _root_.L2J.Spec.Labels (l : Str) (toks : List Tok) : List (Nat × Str) → Option Nat → Nat → List (Nat × Str) → List Tok → Nat → Prop
  | here (ls i n) : Labels l toks ls (some i) n (ls ++ [(i, l)]) toks n
  | last (ls n) (t : Tok) : toks.getLast? = some t → Labels l toks ls none n (ls ++ [(t.id, l)]) toks n
  | own (ls n) : toks = [] → Labels l toks ls none n ls [.mk n "label".toList (.str l) [] none] (n + 1)

theorem labels_spec {V X} {st : St V X} {l : Str} {toks toks' : List Tok} {ls n} (h : Labels l toks st.labels st.cur st.next ls toks' n) :
    handleLabel st l toks = .ok { st with labels := ls, next := n } toks' := by
  unfold handleLabel
  obtain ⟨p, k, i, e, v, a, c, labels, cur, next, x⟩ := st
  simp only at h ⊢
  cases h with
  | here => rfl
  | last _ t ht => simp only; rw [ht]
  | own _ h0 => subst h0; rfl

theorem label_eats {ws rest : Str} (hws : Blank ws) : labelRe.matchAt [] ("\\label".toList ++ (ws ++ '{' :: rest)) = some ⟨[], "\\label".toList ++ (ws ++ '{' :: rest), 6 + ws.length + 1, []⟩ := by
  have : Eats labelRe ("\\label".toList ++ (ws ++ ['{'])) rest [] [] :=
    Eats.seq (g1 := []) (Eats.lit _ _ _) (Eats.seq (g1 := []) (y := ['{']) (Eats.spaces (rest := '{' :: rest) hws (by simp; decide)) (Eats.lit _ _ _))
  have := this.matchAt []
  rw [show ("\\label".toList ++ (ws ++ ['{'])) ++ rest = "\\label".toList ++ (ws ++ '{' :: rest) by simp] at this
  rw [this]
  congr 2
  simp; omega

theorem label_words : passes "label".toList = true ∧ unhandled "label".toList = true := by refine ⟨?_, ?_⟩ <;> decide +kernel

theorem Acts.label {V X} {cfg : Cfg V X} (ho : SomeOrder cfg.order) (hl : Letters cfg.cmds) {h} {st : St V X} (k : Known cfg h st) {toks toks' : List Tok} (space : Bool) {ws l rest : Str} {ls n}
    (hws : Blank ws) (hx : Wrappable '{' '}' l) (hne : l ≠ []) (hu : ∀ x ∈ h, ¬ Meant x.1 "label".toList) (hp : ¬ Contains (ws ++ '{' :: (l ++ '}' :: rest)) "\\endlabel".toList)
    (hlab : Labels l toks st.labels st.cur st.next ls toks' n) :
    Acts cfg st toks space ("\\label".toList ++ (ws ++ '{' :: (l ++ '}' :: rest))) { st with labels := ls, next := n } ⟨toks', false, rest⟩ := by
  refine ⟨0, fun m _ => ?_⟩
  obtain ⟨hn, hod⟩ := blank_head (s := l ++ '}' :: rest) (c := '{') hws (by decide)
  have e : "\\label".toList ++ (ws ++ '{' :: (l ++ '}' :: rest)) = '\\' :: ("label".toList ++ (ws ++ '{' :: (l ++ '}' :: rest))) := rfl
  rw [e, actAt_passed hl _ _ _ k toks space (passes_spec label_words.1 hn hu)]
  unfold actHandlers
  rw [handlers_none cfg ho _ _ st toks (unhandled_spec label_words.2 hn hod hp), orElse_none]
  rw [← e]
  unfold remaining
  rw [label_eats hws]
  simp only [Match.stop, List.length_nil, Nat.zero_add, Nat.add_sub_cancel]
  have e2 : "\\label".toList ++ (ws ++ '{' :: (l ++ '}' :: rest)) = ("\\label".toList ++ ws) ++ '{' :: (l ++ '}' :: rest) := by simp
  rw [show ("\\label".toList ++ (ws ++ '{' :: (l ++ '}' :: rest))).drop (6 + ws.length) = '{' :: (l ++ '}' :: rest) by rw [e2]; exact drop_ok _ _ (by simp; omega)]
  rw [wrapped_eq hx]
  simp only
  rw [if_neg (by simpa using hne), labels_spec hlab]
  have e3 : "\\label".toList ++ (ws ++ '{' :: (l ++ '}' :: rest)) = ("\\label".toList ++ (ws ++ '{' :: (l ++ ['}']))) ++ rest := by simp
  have elen : 6 + ws.length + (l.length + 2) = ("\\label".toList ++ (ws ++ '{' :: (l ++ ['}']))).length := by simp; omega
  simp only [orElse, Res.bind, move]
  rw [if_neg (by omega), show ((6 + ws.length + (l.length + 2) : Nat) : Int).toNat = 6 + ws.length + (l.length + 2) from rfl, e3, take_ok _ _ elen, drop_ok _ _ elen]
  rw [show endsBlank space ("\\label".toList ++ (ws ++ '{' :: (l ++ ['}']))) = false by
    rw [show "\\label".toList ++ (ws ++ '{' :: (l ++ ['}'])) = ("\\label".toList ++ (ws ++ '{' :: l)) ++ ['}'] by simp]; exact endsBlank_snoc _ _ _]

end L2J.Psr
