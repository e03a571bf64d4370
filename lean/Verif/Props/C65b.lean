import Verif.Props.C65
import Verif.Props.C64k
import Verif.Props.C56
import Verif.Props.C57
import Verif.Props.C58
/-! C65: when the handlers do not accept a text. -/
namespace L2J.Psr
open Cmds Defn L2J.Spec
open Pre (not_word keyval_none define_none cond_none)

/-- The commands of the handlers of packages. -/
def _root_.L2J.Spec.packageHeads : List String :=
  ["\\usetikzlibrary", "\\usepgflibrary", "\\usepgfplotslibrary", "\\pgfplotsset", "\\ifbool", "\\notbool", "\\newbool", "\\providebool", "\\setbool", "\\booltrue",
   "\\boolfalse", "\\titleformat", "\\titlespacing", "\\titlelabel", "\\titlecontents", "\\titleline"] ++ L2J.Spec.boxWords

/-- Author information, in small letters. -/
def _root_.L2J.Spec.authorHeads : List String := ["\\author", "\\email", "\\affil", "\\address", "\\curraddr", "\\thanks"]

/-- Code, items, tables, environments and loops. -/
def _root_.L2J.Spec.blockHeads : List String := ["\\verb", "\\item", "\\tabular", "\\begingroup", "\\bgroup", "\\newenvironment", "\\renewenvironment", "\\provideenvironment", "\\forloop", "\\foreach"]

/-- Fonts, fractions, colours and columns. -/
def _root_.L2J.Spec.styleHeads : List String :=
  ["\\citetext", "\\fontsize", "\\selectfont", "\\usefont", "\\frac", "\\nicefrac", "\\textfrac", "\\texorpdfstring", "\\textcolor", "\\onecolumn", "\\twocolumn", "\\subfloat", "\\romannumeral"]

/-- What is left. -/
def _root_.L2J.Spec.lastHeads : List String := ["\\label", "\\newline", "\\linebreak"]

theorem notStarts {ws : List String} {s : Str} (h : Without ws s) {w : Str} (hw : w ∈ ws.map String.toList) : startsWith s w = false := by
  unfold startsWith
  cases hh : w.isPrefixOf s with
  | false => rfl
  | true => exact absurd (List.isPrefixOf_iff_prefix.1 hh) (not_word h hw)

theorem lit_none {ws : List String} {s : Str} (h : Without ws s) {w : Str} {r : Re} (hw : w ∈ ws.map String.toList) : (Re.seq (.lit w) r).matchAt [] s = none :=
  (Dead.seq (Dead.lit (not_word h hw))).matchAt []

theorem box_heads : ∀ w ∈ Psr.boxWords, '\\' :: w ∈ Spec.packageHeads.map String.toList := by decide +kernel
theorem head_heads : ∀ w ∈ headWords, ∃ v ∈ Spec.packageHeads.map String.toList, v <+: '\\' :: w := by
  have : ∀ w ∈ headWords, (Spec.packageHeads.any fun v => v.toList.isPrefixOf ('\\' :: w)) = true := by decide +kernel
  intro w hw
  obtain ⟨v, h1, h2⟩ := List.any_eq_true.1 (this w hw)
  exact ⟨v.toList, List.mem_map.2 ⟨v, h1, rfl⟩, List.isPrefixOf_iff_prefix.1 h2⟩
theorem etool_heads : ∀ w ∈ etoolWords, w ∈ Spec.packageHeads.map String.toList := by decide +kernel
theorem saved_heads : ∀ w ∈ Boxes.keywords, ∃ v ∈ Spec.packageHeads.map String.toList, v <+: '\\' :: w := by
  have : ∀ w ∈ Boxes.keywords, (Spec.packageHeads.any fun v => v.toList.isPrefixOf ('\\' :: w)) = true := by decide +kernel
  intro w hw
  obtain ⟨v, h1, h2⟩ := List.any_eq_true.1 (this w hw)
  exact ⟨v.toList, List.mem_map.2 ⟨v, h1, rfl⟩, List.isPrefixOf_iff_prefix.1 h2⟩

theorem library_heads : ∀ v ∈ ["tikz".toList, "pgf".toList, "pgfplots".toList], "\\use".toList ++ v ++ "library".toList ∈ Spec.packageHeads.map String.toList := by decide +kernel

/-- The environments of pictures. -/
def NoPicture (s : Str) : Prop := overpicRe.matchAt [] s = none ∧ pictureRe.matchAt [] s = none

theorem noPicture_word {s : Str} (h : ¬ "\\begin".toList <+: s) : NoPicture s := ⟨(Dead.seq (Dead.lit h)).matchAt [], (Dead.seq (Dead.lit h)).matchAt []⟩

theorem package_none {s : Str} (h : Without packageHeads s) (hp : NoPicture s) : packageAccepts s = false := by
  have anyNone : ∀ {α} (l : List α) (f : α → Bool), (∀ a ∈ l, f a = false) → l.any f = false := by
    intro α l f hf
    cases hh : l.any f with
    | false => rfl
    | true => obtain ⟨a, h1, h2⟩ := List.any_eq_true.1 hh; rw [hf a h1] at h2; cases h2
  have h1 : libraryRe.matchAt [] s = none := by
    have : Dead libraryRe s := by
      intro rev g
      refine List.eq_nil_iff_forall_not_mem.2 fun x hx => ?_
      obtain ⟨y, hy, hx⟩ := List.mem_flatMap.1 hx
      rw [Re.run_lit] at hy
      split at hy
      · rename_i hp
        obtain ⟨t, rfl⟩ := List.isPrefixOf_iff_prefix.1 hp
        simp at hy
        subst hy
        obtain ⟨z, hz, hx⟩ := List.mem_flatMap.1 hx
        have hx : (Re.seq (.lit "library".toList) (.seq (.star reSpace) (.lit ['{']))).run z ≠ [] := fun e => by rw [e] at hx; cases hx
        obtain ⟨u, hu, _⟩ := lit_seq hx
        have hz' : ∃ v ∈ ["tikz".toList, "pgf".toList, "pgfplots".toList], t = v ++ z.rest := by
          rcases List.mem_append.1 hz with hz | hz
          · obtain ⟨e, -⟩ := Fmt.lit_inv hz; exact ⟨_, by simp, e⟩
          · rcases List.mem_append.1 hz with hz | hz
            · obtain ⟨e, -⟩ := Fmt.lit_inv hz; exact ⟨_, by simp, e⟩
            · obtain ⟨e, -⟩ := Fmt.lit_inv hz; exact ⟨_, by simp, e⟩
        obtain ⟨v, hv, rfl⟩ := hz'
        rw [hu] at h
        have hmem : "\\use".toList ++ v ++ "library".toList ∈ packageHeads.map String.toList := library_heads v hv
        exact not_word h hmem ⟨u, by simp⟩
      · cases hy
    exact this.matchAt []
  have h2 : plotsRe.matchAt [] s = none := lit_none h (by decide +kernel)
  have h3 : etoolWords.any (fun w => (Etool.matchKw w s).isSome) = false := anyNone _ _ fun w hw => by
    unfold Etool.matchKw; rw [notStarts h (etool_heads w hw)]; rfl
  have h4 : titleRes.any (fun r => (r.matchAt [] s).isSome) = false := anyNone _ _ fun r hr => by
    have : r.matchAt [] s = none := by
      simp only [titleRes, List.mem_cons, List.not_mem_nil, or_false] at hr
      rcases hr with rfl | rfl | rfl | rfl | rfl
      · exact lit_none h (by decide +kernel)
      · exact lit_none h (by decide +kernel)
      · exact lit_none h (by decide +kernel)
      · exact lit_none h (by decide +kernel)
      · exact lit_none h (by decide +kernel)
    rw [this]; rfl
  have h5 : boxRes.any (fun r => (r.matchAt [] s).isSome) = false := anyNone _ _ fun r hr => by
    have : r.matchAt [] s = none := by
      rcases List.mem_append.1 hr with hr | hr
      · obtain ⟨w, hw, rfl⟩ := List.mem_map.1 hr
        exact lit_none h (box_heads w hw)
      · rw [List.mem_singleton.1 hr]
        exact lit_none h (by decide +kernel)
    rw [this]; rfl
  have pre : ∀ {v w : Str}, v ∈ packageHeads.map String.toList → v <+: w → ¬ w <+: s := fun hv hvw hw => not_word h hv (hvw.trans hw)
  have h6 : headRes.any (fun r => (r.matchAt [] s).isSome) = false := anyNone _ _ fun r hr => by
    obtain ⟨w, hw, rfl⟩ := List.mem_map.1 hr
    obtain ⟨v, hv, hvw⟩ := head_heads w hw
    rw [(Dead.seq (Dead.lit (pre hv hvw))).matchAt []]; rfl
  have h7 : Boxes.matchSaved s = none := by
    unfold Boxes.matchSaved
    split
    · rename_i r
      have : Boxes.keywords.find? (fun k => startsWith r k) = none := by
        rw [List.find?_eq_none]
        intro k hk
        obtain ⟨v, hv, hvw⟩ := saved_heads k hk
        intro hh
        unfold startsWith at hh
        obtain ⟨t, ht⟩ := List.isPrefixOf_iff_prefix.1 hh
        exact pre hv hvw ⟨t, by rw [← ht]; rfl⟩
      rw [this]
    · rfl
  have h8 : Boxes.matchSet s = none := by
    unfold Boxes.matchSet; rw [notStarts h (by decide +kernel)]; rfl
  unfold packageAccepts
  rw [hp.1, hp.2, h1, h2, h3, h4, h5, h6, h7, h8]
  rfl

theorem ciDrop_none {kw : Str} (hk : ∀ c ∈ kw, c = '\\' ∨ ('a' ≤ c ∧ c ≤ 'z')) : ∀ {s r : Str}, Author.ciDrop kw s = some r → ∃ u, s = u ++ r ∧ u.map lowerChar = kw := by
  induction kw with
  | nil => intro s r h; simp [Author.ciDrop] at h; exact ⟨[], by rw [h]; rfl, rfl⟩
  | cons c kw ih =>
    intro s r h
    cases s with
    | nil => cases h
    | cons x s =>
      unfold Author.ciDrop at h
      split at h
      · rename_i hc
        obtain ⟨u, rfl, hu⟩ := ih (fun c hc => hk c (by simp [hc])) h
        refine ⟨x :: u, rfl, ?_⟩
        rw [List.map_cons, hu]
        congr 1
        rcases hk c (by simp) with rfl | hc'
        · have : x = '\\' := by
            simp only [Content.ciChar, Bool.or_eq_true, Bool.and_eq_true, beq_iff_eq, decide_eq_true_eq] at hc
            rcases hc with (((h | ⟨⟨h, _⟩, _⟩) | ⟨h, _⟩) | ⟨h, _⟩) | ⟨h, _⟩
            · exact h
            · exact absurd h (by decide)
            · exact absurd h (by decide)
            · exact absurd h (by decide)
            · exact absurd h (by decide)
          subst this; decide
        · exact Pre.lower_of hc' hc
      · cases h


theorem author_kw : ∀ v ∈ authorHeads.map String.toList, ∀ c ∈ v, c = '\\' ∨ ('a' ≤ c ∧ c ≤ 'z') := by decide +kernel

/-- The text begins with none of the commands for authors, in whatever case. -/
def _root_.L2J.Spec.NoAuthor (s : Str) : Prop := Without authorHeads (s.map lowerChar)

theorem ciDrop_dead {s : Str} (h : NoAuthor s) {kw : Str} (hk : ∃ v ∈ authorHeads.map String.toList, v <+: kw) (hc : ∀ c ∈ kw, c = '\\' ∨ ('a' ≤ c ∧ c ≤ 'z')) : Author.ciDrop kw s = none := by
  cases hd : Author.ciDrop kw s with
  | none => rfl
  | some r =>
    obtain ⟨u, rfl, hu⟩ := ciDrop_none hc hd
    obtain ⟨v, hv, hp⟩ := hk
    exact absurd (hp.trans ⟨r.map lowerChar, by rw [← hu, List.map_append]⟩) (not_word h hv)

theorem lower_id : ∀ c : Char, (c = '\\' ∨ ('a' ≤ c ∧ c ≤ 'z')) → lowerChar c = c := by
  rintro c (rfl | hc)
  · decide
  · exact Pre.lower_of hc (by simp [Content.ciChar])

theorem author_none {V X} (cfg : Cfg V X) (p : Parse V X) (st : St V X) (toks : List Tok) {s : Str} (h : NoAuthor s) : author cfg p st toks s = none := by
  have cmd : ∀ (kw : Str) f, (∃ v ∈ authorHeads.map String.toList, v <+: kw) → (∀ c ∈ kw, c = '\\' ∨ ('a' ≤ c ∧ c ≤ 'z')) → Author.cmdAt kw f s = none := by
    intro kw f h1 h2
    unfold Author.cmdAt
    rw [ciDrop_dead h h1 h2]
  have mem : ∀ kw ∈ ["\\author".toList, "\\email".toList, "\\affil".toList, "\\affiliation".toList, "\\address".toList, "\\curraddr".toList, "\\thanks".toList],
      (authorHeads.any fun v => v.toList.isPrefixOf kw) = true := by decide +kernel
  have mem' : ∀ kw ∈ ["\\author".toList, "\\email".toList, "\\affil".toList, "\\affiliation".toList, "\\address".toList, "\\curraddr".toList, "\\thanks".toList],
      ∃ v ∈ authorHeads.map String.toList, v <+: kw := by
    intro kw hk
    obtain ⟨v, h1, h2⟩ := List.any_eq_true.1 (mem kw hk)
    exact ⟨v.toList, List.mem_map.2 ⟨v, h1, rfl⟩, List.isPrefixOf_iff_prefix.1 h2⟩
  have low : ∀ kw ∈ ["\\author".toList, "\\email".toList, "\\affil".toList, "\\affiliation".toList, "\\address".toList, "\\curraddr".toList, "\\thanks".toList],
      ∀ c ∈ kw, c = '\\' ∨ ('a' ≤ c ∧ c ≤ 'z') := by decide +kernel
  have c1 := fun f => cmd "\\author".toList f (mem' _ (by decide)) (low _ (by decide))
  have c2 := fun f => cmd "\\email".toList f (mem' _ (by decide)) (low _ (by decide))
  have c3 := fun f => cmd "\\affil".toList f (mem' _ (by decide)) (low _ (by decide))
  have c4 := fun f => cmd "\\affiliation".toList f (mem' _ (by decide)) (low _ (by decide))
  have c5 := fun f => cmd "\\address".toList f (mem' _ (by decide)) (low _ (by decide))
  have c7 := fun f => cmd "\\thanks".toList f (mem' _ (by decide)) (low _ (by decide))
  have c6 : Author.curraddr s = none := by
    unfold Author.curraddr
    rw [if_neg]
    unfold startsWith
    rw [List.isPrefixOf_iff_prefix]
    rintro ⟨t, rfl⟩
    exact not_word h (w := "\\curraddr".toList) (by decide) ⟨t.map lowerChar, by
      rw [List.map_append]
      congr 1⟩
  unfold author Author.handle
  simp only [c1, c2, c3, c4, c5, c6, c7]

theorem delimAt_none {kw name s : Str} (h : ¬ kw <+: s) : Code.delimAt kw name s = none := by
  unfold Code.delimAt; rw [EnvT.startsWith_false h]; rfl

theorem code_none {V X} (cfg : Cfg V X) (p : Parse V X) (st : St V X) (toks : List Tok) {s : Str} (h1 : ¬ "\\verb".toList <+: s)
    (h2 : ∀ n ∈ ["verbatim".toList, "lstlisting".toList], Code.delimAt "\\begin".toList n s = none) : code cfg p st toks s = none := by
  unfold code Code.handle Code.verbatim Code.listing Code.verb
  rw [h2 _ (by simp), h2 _ (by simp), EnvT.startsWith_false h1]
  rfl

theorem item_none {V X} (cfg : Cfg V X) (p : Parse V X) (st : St V X) (toks : List Tok) {s : Str} (h : ¬ "\\item".toList <+: s) : item cfg p st toks s = none := by
  unfold item EnvT.isItem
  rw [EnvT.startsWith_false h]
  rfl

theorem table_none {s : Str} (h : ¬ "\\tabular".toList <+: s) (hb : ¬ "\\begin".toList <+: s) : tableRe.matchAt [] s = none :=
  (show Dead tableRe s from Dead.alt (Dead.seq (Dead.lit hb)) (Dead.seq (Dead.lit h))).matchAt []

theorem new_words : ∀ k ∈ Envs.newKeywords, k ∈ blockHeads.map String.toList := by decide +kernel

theorem environment_none {V X} (cfg : Cfg V X) (p : Parse V X) (st : St V X) (toks : List Tok) {s : Str} (h : Without blockHeads s) (hb : ¬ "\\begin".toList <+: s)
    (hp : Eqn.matchPair s = none) : environment cfg p st toks s = none := by
  unfold environment envAccepts
  rw [EnvT.envMatch_none s hb hp, EnvT.groupMatch_none s hb (not_word h (by decide +kernel))]
  have : Envs.matchNew s = none := by
    unfold Envs.matchNew
    rw [show Envs.newKeywords.find? (fun k => startsWith s k) = none from ?_]
    rw [List.find?_eq_none]
    intro k hk
    rw [EnvT.startsWith_false (not_word h (new_words k hk))]; simp
  rw [this]; rfl

theorem forLoop_none {V X} (st : St V X) (toks : List Tok) {s : Str} (h : Without blockHeads s) : forLoop st toks s = none := by
  unfold forLoop
  rw [show forloopRe.matchAt [] s = none from lit_none h (by decide +kernel), show foreachRe.matchAt [] s = none from lit_none h (by decide +kernel)]

theorem style_words : ∀ w ∈ ["\\citetext".toList, "\\fontsize".toList, "\\selectfont".toList, "\\usefont".toList, "\\frac".toList, "\\nicefrac".toList, "\\textfrac".toList,
    "\\texorpdfstring".toList, "\\textcolor".toList, "\\onecolumn".toList, "\\twocolumn".toList, "\\subfloat".toList, "\\romannumeral".toList], w ∈ styleHeads.map String.toList := by decide +kernel

theorem styleAccepts_none {s : Str} (h : Without styleHeads s) : styleAccepts s = false := by
  have n : ∀ w ∈ ["\\citetext".toList, "\\fontsize".toList, "\\selectfont".toList, "\\usefont".toList, "\\frac".toList, "\\nicefrac".toList, "\\textfrac".toList,
    "\\texorpdfstring".toList, "\\textcolor".toList, "\\onecolumn".toList, "\\twocolumn".toList, "\\subfloat".toList, "\\romannumeral".toList], startsWith s w = false :=
    fun w hw => notStarts h (style_words w hw)
  have o : ∀ w b, startsWith s w = false → Style.openAfter w b s = none := fun w b hw => Style.openAfter_miss w b s hw
  unfold styleAccepts Style.fonts Style.colorMatch Style.columnsMatch Style.romanMatch
  simp only [Style.firstOpen, o _ _ (n "\\citetext".toList (by simp)), o _ _ (n "\\frac".toList (by simp)), o _ _ (n "\\nicefrac".toList (by simp)),
    o _ _ (n "\\textfrac".toList (by simp)), o _ _ (n "\\texorpdfstring".toList (by simp)), o _ _ (n "\\subfloat".toList (by simp)), n "\\fontsize".toList (by simp),
    n "\\selectfont".toList (by simp), n "\\usefont".toList (by simp), n "\\textcolor".toList (by simp), n "\\onecolumn".toList (by simp), n "\\twocolumn".toList (by simp),
    n "\\romannumeral".toList (by simp)]
  rfl

theorem style_none {V X} (cfg : Cfg V X) (p : Parse V X) (st : St V X) (toks : List Tok) {s : Str} (h : Without styleHeads s) (hn : Style.styledName s = none) :
    style cfg p st toks s = none := by
  unfold style
  rw [hn, styleAccepts_none h]
  rfl

theorem equation_none {V X} (cfg : Cfg V X) (ho : SomeOrder cfg.order) (p : Parse V X) (n : Nat) (st : St V X) (toks : List Tok) {s : Str} (h : ¬ OpensFormula s) :
    equation cfg p n st toks s = none := by
  have hk : Eqn.firstKind s (Eqn.kinds cfg.order) = none := by
    unfold Eqn.kinds
    rw [Eqn.firstKind_skip]
    · have hd : ¬ "$".toList <+: s := fun x => h (.inl x)
      have hdd : ¬ "$$".toList <+: s := fun x => hd ((by decide : "$".toList <+: "$$".toList).trans x)
      have hb : ¬ "\\[".toList <+: s := fun x => h (.inr (.inl x))
      have hp : ¬ "\\(".toList <+: s := fun x => h (.inr (.inr (.inl x)))
      simp only [Eqn.firstKind, Eqn.matchKind, EnvT.startsWith_false hd, EnvT.startsWith_false hdd, EnvT.startsWith_false hb, EnvT.startsWith_false hp, Bool.false_eq_true, if_false]
    · intro x hx
      obtain ⟨n, hn, rfl⟩ := (ho x).1 hx
      unfold Eqn.matchKind
      simp only
      cases hm : Eqn.matchTag "\\begin".toList n.toList s with
      | none => rfl
      | some e =>
        obtain ⟨w, star, r, hr, hw, _⟩ := Eqn.tag_inv hm
        exact absurd (.inr (.inr (.inr ⟨n, hn, w, star, hw, r, hr.symm⟩))) h
  unfold equation
  rw [hk]; rfl

theorem formatting_none {V X} (cfg : Cfg V X) (p : Parse V X) (st : St V X) (toks : List Tok) {w rest : Str} (he : Ends w rest) (hn : NotLayout w rest) :
    formatting cfg p st toks ('\\' :: (w ++ rest)) = none := by
  have : Fmt.canHandle ('\\' :: (w ++ rest)) = false := by
    unfold Fmt.canHandle
    have hf : Fmt.firstAlt ('\\' :: (w ++ rest)) (Fmt.flat Fmt.entries) = none := by
      rw [Fmt.firstAlt_none]
      intro p hp
      rw [Fmt.table_split] at hp
      by_cases hm : p = (Fmt.Act.drop, Fmt.makeAlt)
      · rw [hm]; exact Pre.make_dead_word he hn.1.2.2.2.1
      · refine Pre.table_dead he hn.1 ?_ fun _ => hn
        unfold Fmt.table
        rcases List.mem_append.1 hp with h | h
        · exact List.mem_append_left _ h
        · rcases List.mem_cons.1 h with h | h
          · exact absurd h hm
          · exact List.mem_append_right _ h
    rw [← Fmt.firstEntry_flat] at hf
    cases hh : Fmt.firstEntry ('\\' :: (w ++ rest)) Fmt.entries with
    | none => rfl
    | some x => rw [hh] at hf; simp at hf
  unfold formatting
  rw [this]; rfl

/-- Letters of the names of accents. -/
def _root_.L2J.Spec.accentWords : List String :=
  ["c", "H", "k", "b", "d", "r", "u", "v", "vec", "dot", "hat", "check", "breve", "acute", "grave", "tilde", "bar", "ddot", "not"]

theorem firstAccent_none {s : Str} : ∀ {l : List (Str × Re)}, (∀ a ∈ l, a.2.matchAt [] s = none) → firstAccent s l = none
  | [], _ => rfl
  | a :: l, h => by unfold firstAccent; rw [h a (by simp)]; exact firstAccent_none fun a ha => h a (by simp [ha])

theorem accent_words : ∀ k ∈ accentNames1 ++ accentNames2, k ∈ accentWords.map String.toList := by decide +kernel
theorem accent_letters : ∀ k ∈ accentNames1 ++ accentNames2, k ≠ [] ∧ ∀ c ∈ k, isLetter c = true := by decide +kernel
theorem mark_letters : ∀ k ∈ accentMarks ++ accentDot, ∃ c, k = [c] ∧ isLetter c = false := by
  have : ∀ k ∈ accentMarks ++ accentDot, (match k with | [c] => !isLetter c | _ => false) = true := by decide +kernel
  intro k hk
  have := this k hk
  split at this
  · rename_i c; exact ⟨c, rfl, by simpa using this⟩
  · cases this

theorem isLetter_eq (c : Char) : Style.isLetter c = isLetter c := rfl

theorem letter_space {c : Char} (h : isLetter c = true) : isSpace c = false := by
  cases hs : isSpace c with
  | false => rfl
  | true => have := Style.space_letter hs; rw [isLetter_eq, h] at this; cases this

/-- The pattern of an accent does not match another command. -/
theorem name_accent_dead {w rest k : Str} (hl : ∀ c ∈ w, isLetter c = true) (hr : ∀ c ∈ rest.head?, isLetter c = false) (hk : k ∈ accentNames1 ++ accentNames2) (hne : w ≠ k) :
    Dead (nameAccentRe k) ('\\' :: (w ++ rest)) := by
  obtain ⟨hk0, hkl⟩ := accent_letters k hk
  by_cases hp : '\\' :: k <+: '\\' :: (w ++ rest)
  · obtain ⟨t, ht⟩ := hp
    have ht : k ++ t = w ++ rest := by simpa using ht
    obtain ⟨c, u, rfl, hc⟩ : ∃ c u, t = c :: u ∧ isLetter c = true := by
      rcases List.append_eq_append_iff.1 ht with ⟨a, h1, h2⟩ | ⟨a, h1, h2⟩
      · cases a with
        | nil => exact absurd (by simpa using h1) hne
        | cons c a => exact ⟨c, a ++ rest, by rw [h2]; rfl, hl c (by rw [h1]; simp)⟩
      · cases a with
        | nil => exact absurd (by simpa using h1.symm) hne
        | cons c a =>
          have := hr c (by rw [h2]; rfl)
          rw [hkl c (by rw [h1]; simp)] at this; cases this
    have e : '\\' :: (w ++ rest) = ('\\' :: k) ++ c :: u := by rw [← ht]; rfl
    rw [e]
    refine (show Dead (nameAccentRe k) _ from Dead.after_lit (t := '\\' :: k) ?_)
    have hsp := letter_space hc
    have hn := letter_name c hc
    have hcb : c ≠ '{' := by rintro rfl; revert hc; decide
    have hd : Dead (.seq (.star reSpace) (.lit ['{'])) ([] ++ c :: u) := Dead.spaces (ws := []) (by simp) (by simpa using hsp)
      (fun d t hd => Dead.char (by simp; rintro rfl; revert hd; decide)) (Dead.char (by simpa using hcb))
    refine Dead.alt hd (Dead.alt ?_ ?_)
    · refine Dead.seq ?_
      intro rev g
      refine List.eq_nil_iff_forall_not_mem.2 fun x hx => ?_
      obtain ⟨y, hy, _⟩ := List.mem_flatMap.1 hx
      unfold reSpace Re.run at hy
      simp [hsp] at hy
    · intro rev g
      refine List.eq_nil_iff_forall_not_mem.2 fun x hx => ?_
      obtain ⟨y, hy, _⟩ := List.mem_flatMap.1 hx
      simp [Re.run, hn] at hy
  · exact Dead.seq (Dead.lit hp)

theorem diacritics_none {V X} (cfg : Cfg V X) (p : Parse V X) (st : St V X) (toks : List Tok) {w rest : Str} (hw : w ≠ []) (hl : ∀ c ∈ w, isLetter c = true)
    (hr : ∀ c ∈ rest.head?, isLetter c = false) (ha : ∀ v ∈ accentWords, w ≠ v.toList) : diacritics cfg p st toks ('\\' :: (w ++ rest)) = none := by
  unfold diacritics
  rw [firstAccent_none]
  have marks : ∀ k ∈ accentMarks ++ accentDot, (markRe k).matchAt [] ('\\' :: (w ++ rest)) = none := by
    intro k hk
    obtain ⟨c, rfl, hc⟩ := mark_letters k hk
    refine (show Dead (markRe [c]) _ from Dead.seq (Dead.lit ?_)).matchAt []
    rintro ⟨t, ht⟩
    cases w with
    | nil => exact hw rfl
    | cons x w =>
      simp at ht
      have := hl x (by simp)
      rw [← ht.1, hc] at this; cases this
  have words : ∀ k ∈ accentNames1 ++ accentNames2, (nameAccentRe k).matchAt [] ('\\' :: (w ++ rest)) = none := by
    intro k hk
    have hne : w ≠ k := by
      obtain ⟨v, hv, e⟩ := List.mem_map.1 (accent_words k hk)
      rw [← e]; exact ha v hv
    exact (name_accent_dead hl hr hk hne).matchAt []
  intro a ha
  unfold accents at ha
  simp only [List.mem_append, List.mem_map] at ha
  rcases ha with ((⟨k, hk, rfl⟩ | ⟨k, hk, rfl⟩) | ⟨k, hk, rfl⟩) | ⟨k, hk, rfl⟩
  · exact marks k (by simp [hk])
  · exact words k (by simp [hk])
  · exact marks k (by simp [hk])
  · exact words k (by simp [hk])

end L2J.Psr
