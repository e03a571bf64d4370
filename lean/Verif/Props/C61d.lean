import Verif.Props.C61c
import Verif.Props.C42
/-! C61, continued: fonts and alphabets, and where reading goes wrong. -/
namespace L2J.Defn
open Cmds L2J.Spec

/-- The size of a font as written: white space, `at`, white space, the number, perhaps with a fraction, and the unit. -/
structure _root_.L2J.Spec.FontSize where
  ws : Str
  ws2 : Str
  whole : Nat
  fraction : Option Str
  unit : String

/-- The number. -/
def _root_.L2J.Spec.FontSize.number (f : FontSize) : Str := natStr f.whole ++ (match f.fraction with | none => [] | some d => '.' :: d)

/-- The text. -/
def _root_.L2J.Spec.FontSize.written (f : FontSize) : Str := f.ws ++ ("at".toList ++ (f.ws2 ++ (f.number ++ f.unit.toList)))

/-- The units of TeX that are known. -/
def _root_.L2J.Spec.fontUnits : List String := ["pt", "cm", "mm", "in", "ex", "em", "bp", "dd", "pc", "sp"]

def _root_.L2J.Spec.FontSize.Ok (f : FontSize) : Prop :=
  Blank f.ws ∧ f.ws ≠ [] ∧ Blank f.ws2 ∧ f.ws2 ≠ [] ∧ (∀ d ∈ f.fraction, d ≠ [] ∧ ∀ c ∈ d, isDigit c = true) ∧ f.unit ∈ fontUnits

theorem plus_spaces {ws rest : Str} {g} (h0 : ws ≠ []) (hws : Blank ws) (hr : ∀ c ∈ rest.head?, isSpace c = false) : Eats (.plus reSpace) ws rest g g :=
  Eats.plus_chr isSpace h0 hws hr

theorem units_eat {u : String} (hu : u ∈ fontUnits) (rest : Str) (g) : Eats (anyOf units) u.toList rest g g := by
  refine anyOf_hit ?_ ?_
  · have key : ∀ u ∈ fontUnits, u.toList ∈ units := by decide +kernel
    exact key u hu
  · intro v hv hne hp
    have key : ∀ u ∈ fontUnits, ∀ v ∈ units, v.length = 2 ∧ u.toList.length = 2 := by decide +kernel
    have h2 := key u hu v hv
    obtain ⟨t, ht⟩ := hp
    exact hne (List.append_inj_left ht (h2.1.trans h2.2.symm))

theorem unit_head {u : String} (hu : u ∈ fontUnits) (X : Str) : ∀ c ∈ (u.toList ++ X).head?, isDigit c = false ∧ c ≠ '.' := by
  have key : ∀ u ∈ fontUnits, (u.toList.head?.any fun c => !isDigit c && c != '.') = true := by decide +kernel
  have h := key u hu
  intro d hd
  cases hx : u.toList with
  | nil => rw [hx] at h; cases h
  | cons c t => rw [hx] at h hd; simp at h hd; subst hd; exact h

theorem digits_head {n : Nat} (X : Str) : ∀ c ∈ (natStr n ++ X).head?, isSpace c = false := by
  intro c hc
  have h0 := natStr_ne_nil n
  have hd := isDigit_nat (n := n)
  cases hx : natStr n with
  | nil => exact absurd hx h0
  | cons a b =>
    rw [hx] at hc hd
    simp at hc
    subst hc
    exact Envs.digit_nospace _ (hd a (by simp))

/-- A size is read with its number and its unit. -/
theorem fontSize_eats (f : FontSize) (h : f.Ok) (rest : Str) (g) : Eats fontSize f.written rest g ((4, f.unit.toList) :: (3, f.number) :: g) := by
  obtain ⟨h1, h2, h3, h4, h5, h6⟩ := h
  unfold fontSize FontSize.written
  refine Eats.seq (plus_spaces h2 h1 (by simp; decide)) (Eats.seq (Eats.lit _ _ _) (Eats.seq (plus_spaces h4 h3 ?_) (Eats.seq (g1 := (3, f.number) :: g) (Eats.group 3 ?_) (Eats.group 4 (units_eat h6 _ _)))))
  · unfold FontSize.number; rw [List.append_assoc, List.append_assoc]; exact digits_head _
  · unfold FontSize.number
    refine Eats.seq (Eats.plus_chr isDigit (natStr_ne_nil _) isDigit_nat ?_) ?_
    · cases hf : f.fraction with
      | none => intro c hc; exact (unit_head h6 rest c hc).1
      | some d => simp; decide
    · cases hf : f.fraction with
      | none => exact Eats.optNone (Dead.seq (Dead.char (fun hc => (unit_head h6 rest '.' hc).2 rfl)))
      | some d =>
        have hd := h5 d hf
        exact Eats.optSome (Eats.seq (x := ['.']) (Eats.lit _ _ _) (Eats.plus_chr isDigit hd.1 hd.2 (fun c hc => (unit_head h6 rest c hc).1)))

/-- No size follows. -/
theorem fontSize_dead {ws r : Str} (hws : Blank ws) (hr : ∀ c ∈ r.head?, isSpace c = false) (ha : ¬ "at".toList <+: r) : Dead fontSize (ws ++ r) := by
  have key : Dead (.seq spaces (.seq (.lit "at".toList) (.seq (.plus reSpace)
    (.seq (.group 3 (.seq (.plus (.chr isDigit)) (.opt (.seq (.lit ['.']) (.plus (.chr isDigit)))))) (.group 4 (anyOf units)))))) (ws.tail ++ r) := by
    refine Dead.spaces (fun c hc => hws c (List.mem_of_mem_tail hc)) hr (fun c t hc => Dead.seq (Dead.lit ?_)) (Dead.seq (Dead.lit ha))
    intro hp
    obtain ⟨t', ht'⟩ := hp
    simp at ht'
    rw [← ht'.1] at hc
    exact absurd hc (by decide)
  cases ws with
  | nil =>
    exact Dead.seq (Dead.seq (Dead.chr isSpace hr))
  | cons c ws =>
    intro rev g
    have hc : isSpace c = true := hws c (by simp)
    have := key (c :: rev) g
    unfold fontSize
    show ((Re.plus reSpace).run ⟨rev, c :: (ws ++ r), g⟩).flatMap _ = []
    have h1 : (Re.plus reSpace).run ⟨rev, c :: (ws ++ r), g⟩ = spaces.run ⟨c :: rev, ws ++ r, g⟩ := by
      show (Re.run (.chr isSpace) _).flatMap _ = _
      simp [Re.run, hc, spaces, reSpace]
    rw [h1]
    exact this

/-- A font as written: `\font<ws>\name<ws2>=<ws3>source`, perhaps with a size. -/
structure _root_.L2J.Spec.FontText where
  ws : Str
  name : Str
  ws2 : Str
  ws3 : Str
  source : Str
  size : Option FontSize

/-- The size as written. -/
def _root_.L2J.Spec.sizeText : Option FontSize → Str
  | none => []
  | some f => f.written

def _root_.L2J.Spec.FontText.written (f : FontText) : Str :=
  "\\font".toList ++ (f.ws ++ '\\' :: (f.name ++ (f.ws2 ++ '=' :: (f.ws3 ++ (f.source ++ sizeText f.size)))))

def _root_.L2J.Spec.FontText.Ok (f : FontText) : Prop :=
  Blank f.ws ∧ f.name ≠ [] ∧ (∀ c ∈ f.name, isSpace c = false ∧ c ≠ '=') ∧ Blank f.ws2 ∧ Blank f.ws3 ∧ f.source ≠ [] ∧ (∀ c ∈ f.source, isSpace c = false) ∧
  ∀ z ∈ f.size, z.Ok

def sizeGroups : Option FontSize → List (Nat × Str)
  | none => []
  | some z => [(4, z.unit.toList), (3, z.number)]

/-- C61: a written `\font` gives its name, its source and its size. Without a size, white space, or the end of the text, follows the source, and
no `at` follows that. -/
theorem C61_font (f : FontText) (h : f.Ok) (ws r : Str) (hws : Blank ws) (hr : ∀ c ∈ r.head?, isSpace c = false)
    (hn : f.size = none → (ws = [] → r = []) ∧ ¬ "at".toList <+: r) :
    handle (f.written ++ (ws ++ r)) =
      .ok (some (.font f.name f.source (f.size.map fun z => (z.number, z.unit.toList))), f.written.length) := by
  obtain ⟨h1, h2, h3, h4, h5, h6, h7, h8⟩ := h
  unfold FontText.written
  rw [List.append_assoc]
  refine kind_run (k := .font) (g := sizeGroups f.size ++ [(2, f.source), (1, f.name), (0, "\\font".toList)]) ?_ (by decide +kernel) ?_ ?_ (by decide) (by decide)
  · generalize "\\font".toList = w
    unfold Kind.run
    cases f.size with
    | none => simp [Match.group, Match.stop, sizeGroups]
    | some z => simp [Match.group, Match.stop, sizeGroups]
  · rw [List.append_assoc]; exact head_blank h1 space_letter (by simp; decide)
  · have hsrc : f.source ++ sizeText f.size ++ (ws ++ r) = f.source ++ (sizeText f.size ++ (ws ++ r)) := by simp
    have hhead : ∀ c ∈ (f.source ++ sizeText f.size ++ (ws ++ r)).head?, isSpace c = false := by
      cases hs : f.source with
      | nil => exact absurd hs h6
      | cons a b => intro c hc; simp at hc; subst hc; exact h7 a (by rw [hs]; simp)
    refine Eats.seq (Eats.spaces h1 (by simp; decide)) ?_
    rw [show '\\' :: (f.name ++ (f.ws2 ++ '=' :: (f.ws3 ++ (f.source ++ sizeText f.size)))) = ('\\' :: f.name) ++ (f.ws2 ++ (['='] ++ (f.ws3 ++ (f.source ++ sizeText f.size)))) by simp]
    refine Eats.seq (g1 := [(1, f.name), (0, "\\font".toList)]) (Eats.seq (x := ['\\']) (Eats.lit _ _ _) (Eats.group 1 (Eats.plus_chr _ h2 ?_ ?_))) (Eats.seq (Eats.spaces h4 ?_) (Eats.seq (Eats.lit _ _ _) (Eats.seq (Eats.spaces h5 hhead) (Eats.seq (g1 := [(2, f.source), (1, f.name), (0, "\\font".toList)]) (Eats.group 2 (Eats.plus_chr _ h6 ?_ ?_)) ?_))))
    · intro c hc; simp [h3 c hc]
    · rw [List.append_assoc]; exact head_blank (P := fun c => (!isSpace c && c != '=') = false) h4 (fun c hc => by simp [hc]) (by simp)
    · simp; decide
    · intro c hc; simp [h7 c hc]
    · cases hs : f.size with
      | none =>
        show ∀ c ∈ ([] ++ (ws ++ r)).head?, _
        cases hw : ws with
        | nil => rw [(hn hs).1 hw]; simp
        | cons a b => intro c hc; simp at hc; subst hc; simp [hws a (by rw [hw]; simp)]
      | some z =>
        have hz := h8 z hs
        cases hw : z.ws with
        | nil => exact absurd hw hz.2.1
        | cons a b => intro c hc; simp [sizeText, FontSize.written, hw] at hc; subst hc; simp [hz.1 a (by rw [hw]; simp)]
    · cases hs : f.size with
      | none => exact Eats.optNone (fontSize_dead hws hr (hn hs).2)
      | some z => exact Eats.optSome (fontSize_eats z (h8 z hs) _ _)

example (rest : Str) : handle ("\\font\\big = cmr10 at 12.5pt".toList ++ rest) =
    .ok (some (.font "big".toList "cmr10".toList (some ("12.5".toList, "pt".toList))), 27) := by
  have h := C61_font ⟨[], "big".toList, [' '], [' '], "cmr10".toList, some ⟨[' '], [' '], 12, some ['5'], "pt"⟩⟩
    (by
      have hb : Blank [' '] := by intro c hc; simp at hc; subst hc; decide
      refine ⟨fun c hc => (List.not_mem_nil hc).elim, show "big".toList ≠ [] by decide, show ∀ c ∈ "big".toList, _ by decide +kernel, hb, hb,
        show "cmr10".toList ≠ [] by decide, show ∀ c ∈ "cmr10".toList, _ by decide +kernel, ?_⟩
      intro z hz; simp at hz; subst hz
      refine ⟨hb, by simp, hb, by simp, ?_, by decide⟩
      intro d hd; simp at hd; subst hd; exact ⟨by simp, by decide⟩) (rest.takeWhile isSpace) (rest.dropWhile isSpace)
    (fun c hc => List.all_eq_true.1 List.all_takeWhile c hc) (fun c hc => by have := List.head?_dropWhile_not isSpace rest; rw [hc] at this; simpa using this) (by simp)
  rw [List.takeWhile_append_dropWhile] at h
  exact h

/-- C61: `\DeclareMathAlphabet{\name}{encoding}{family}{series}{shape}` and `\DeclareSymbolFontAlphabet{\name}{font}` give the name as it is
written and use up all the arguments. -/
theorem C61_alphabet (w : String) (n : Nat) (hw : (w = "\\DeclareMathAlphabet" ∧ n = 5) ∨ (w = "\\DeclareSymbolFontAlphabet" ∧ n = 2)) (ws c rest : Str)
    (l : List (Str × Str)) (hn : l.length + 1 = n) (hws : Blank ws) (h : WellWrapped '{' '}' (([], c) :: l)) :
    handle (w.toList ++ (ws ++ (wrapAll '{' '}' (([], c) :: l) ++ rest))) =
      .ok (some (.cmd (.alphabet c)), (w.toList ++ (ws ++ wrapAll '{' '}' (([], c) :: l))).length) := by
  have hmem : w.toList ∈ Kind.alphabets.words := by rcases hw with ⟨rfl, _⟩ | ⟨rfl, _⟩ <;> decide +kernel
  have hnum : (if w.toList = "\\DeclareMathAlphabet".toList then 5 else 2) = n := by
    rcases hw with ⟨rfl, rfl⟩ | ⟨rfl, rfl⟩ <;> decide +kernel
  generalize hwl : w.toList = w' at hmem hnum
  have hl : ∀ c' ∈ (ws ++ (wrapAll '{' '}' (([], c) :: l) ++ rest)).head?, isLetter c' = false :=
    head_blank hws space_letter (by simp [wrapAll]; decide)
  have hfirst := kind_hit (k := .alphabets) (w := w') (X := ws ++ (wrapAll '{' '}' (([], c) :: l) ++ rest)) (t := ws ++ ['{'])
    (rest := (c ++ '}' :: wrapAll '{' '}' l) ++ rest) (g := [(0, w')]) hmem (by simp [wrapAll]) hl
    (Eats.seq (Eats.spaces hws (by simp; decide)) (Eats.lit _ _ _)) (by decide)
  refine handle_of hfirst (by decide) ?_
  unfold Kind.run
  have hg : ∀ X k, Match.group ⟨[], X, k, [(0, w')]⟩ 0 = some w' := by intro X k; simp [Match.group]
  have hs : Match.stop ⟨[], w' ++ (ws ++ (wrapAll '{' '}' (([], c) :: l) ++ rest)), w'.length + (ws ++ ['{']).length, [(0, w')]⟩ - 1 = w'.length + ws.length := by
    simp [Match.stop]
  simp only [hg, Option.getD_some, hnum, hs]
  rw [blocks_after h n (by simp [hn])]
  simp only [List.map_cons]
  refine congrArg Except.ok (Prod.ext rfl ?_)
  show (wrapAll '{' '}' (([], c) :: l)).length + (w'.length + ws.length) = _
  simp only [List.length_append]; omega

/-- C61 fails: white space before the equals sign of a `\let` makes the whole rest of the text its target. -/
theorem C61_violated_let_equals (ws n b r : Str) (hws : Blank ws) (hn : OrdinaryName n) (hb : Blank b) (hb0 : b ≠ []) :
    handle ("\\let".toList ++ (ws ++ '\\' :: (n ++ (b ++ '=' :: r)))) =
      .ok (some (.cmd (.let_ n ((strip ('=' :: r)).drop 1) none)), ("\\let".toList ++ (ws ++ '\\' :: (n ++ (b ++ '=' :: r)))).length) := by
  generalize hT : "\\let".toList ++ (ws ++ '\\' :: (n ++ (b ++ '=' :: r))) = T
  have hname : ∀ c ∈ n, (!isSpace c && c != '{' && c != '\\') = true := by
    intro c hc; have := name_char_facts (hn.1.2 c hc); simp [this.1, this.2.1, this.2.2.1]
  have hm : letFull.matchAt [] T = some ⟨[], T, T.length, [(2, '=' :: r), (1, n)]⟩ := by
    have : Eats letFull T [] [] [(2, '=' :: r), (1, n)] := by
      rw [← hT]
      unfold letFull
      refine Eats.seq (letWords_hit ?_) (Eats.seq (Eats.spaces hws ?_) (Eats.seq (x := ['\\']) (Eats.lit _ _ _) (Eats.seq (Eats.group 1 (Eats.plus_chr _ hn.1.1 hname ?_)) (Eats.seq (Eats.spaces hb ?_) (Eats.group 2 (Eats.left (Eats.seq (x := ['=']) (Eats.lit _ _ _) (Eats.star_chr _ (by simp) (by simp)))))))))
      · rw [List.append_nil]; exact head_blank hws space_letter (by simp; decide)
      · simp; decide
      · rw [List.append_nil]
        cases b with
        | nil => exact absurd rfl hb0
        | cons a b => intro c hc; simp at hc; subst hc; simp [hb a (by simp)]
      · simp; decide
    have := this.matchAt []
    rw [List.append_nil] at this
    exact this
  have hfirst : firstKind T order = some (.let_, ⟨[], T, "\\let".toList.length + (ws ++ ['\\']).length, [(0, "\\let".toList)]⟩) := by
    rw [← hT]
    refine kind_hit (k := .let_) (rest := n ++ (b ++ '=' :: r)) (by decide +kernel) (by simp) ?_ ?_ (by decide)
    · exact head_blank hws space_letter (by simp; decide)
    · exact Eats.seq (Eats.spaces hws (by simp; decide)) (Eats.lit _ _ _)
  refine handle_of hfirst (by decide) ?_
  show defPrefix true _ _ = _
  have hp := defPrefix_plain true (w := "\\let".toList) (ws := ws) (g := [(0, "\\let".toList)]) (rest := b ++ '=' :: r) hn (head_blank hb space_name (by simp; decide))
  rw [if_pos rfl, hT, hm] at hp
  rw [show (ws ++ ['\\']).length = ws.length + 1 by simp, hp]
  have hfut : startsWith T "\\futurelet".toList = false := by
    rw [← hT]
    unfold startsWith
    rw [show "\\let".toList = ['\\', 'l', 'e', 't'] from rfl, show "\\futurelet".toList = '\\' :: 'f' :: "uturelet".toList from rfl]
    simp [List.isPrefixOf]
  have htok : letTok ⟨[], T, T.length, [(2, '=' :: r), (1, n)]⟩ none = .cmd (.let_ n ((strip ('=' :: r)).drop 1) none) := by
    unfold letTok
    have g1 : Match.group ⟨[], T, T.length, [(2, '=' :: r), (1, n)]⟩ 1 = some n := by simp [Match.group]
    have g2 : Match.group ⟨[], T, T.length, [(2, '=' :: r), (1, n)]⟩ 2 = some ('=' :: r) := by simp [Match.group]
    have g3 : Match.text ⟨[], T, T.length, [(2, '=' :: r), (1, n)]⟩ = T := by unfold Match.text; simp
    rw [g1, g2, g3]
    simp only [Option.getD_some, hfut]
    rw [strip_id (s := n) fun c hc => (name_char_facts (hn.1.2 c hc)).1]
    have heq : startsWith (strip ('=' :: r)) ['='] = true := by
      unfold strip lstrip
      rw [List.dropWhile_cons_of_neg (by decide)]
      obtain ⟨t, ht⟩ : ∃ t, rstrip ('=' :: r) = '=' :: t := by
        unfold rstrip
        rw [List.reverse_cons]
        have : ∀ q : Str, ∃ t, ((q ++ ['=']).dropWhile isSpace).reverse = '=' :: t := by
          intro q
          induction q with
          | nil => exact ⟨[], by decide⟩
          | cons a q ih =>
            rw [List.cons_append]
            cases ha : isSpace a with
            | true => rw [List.dropWhile_cons_of_pos ha]; exact ih
            | false => rw [List.dropWhile_cons_of_neg (by simp [ha])]; exact ⟨q.reverse ++ [a], by simp⟩
        exact this _
      rw [ht]; simp [startsWith, List.isPrefixOf]
    rw [heq]
    rfl
  simp only [htok]
  simp [Match.stop]

end L2J.Defn
