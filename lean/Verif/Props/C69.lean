import Verif.Model.Parser
import Verif.Spec.Packages
import Verif.Props.C09
import Verif.Props.C57
import Verif.Lemmas.Eats
import Verif.Lemmas.Wrapped
/-! C69: pictures, titles, settings and loops. -/
namespace L2J.Pkg
open Cmds Defn L2J.Spec
open Psr (overpicRe libraryRe plotsRe titleRe)

/-- Two words that differ at one of their first letters. -/
theorem apart {a b t : Str} (n : Nat) (ha : n ≤ a.length) (hb : n ≤ b.length) (h : a.take n ≠ b.take n) : ¬ a <+: b ++ t := by
  rintro ⟨u, hu⟩
  apply h
  have := congrArg (List.take n) hu
  rwa [List.take_append_of_le_length ha, List.take_append_of_le_length hb] at this

theorem brace_head (t : Str) : ∀ c ∈ ('{' :: t).head?, isSpace c = false := fun c hc => by
  rw [show c = '{' from (Option.some.inj hc).symm]; decide

theorem open_eats (ws rest : Str) (hw : Blank ws) (g) : Eats (.seq (.star reSpace) (.lit ['{'])) (ws ++ ['{']) rest g g :=
  .seq (g1 := g) (.spaces hw (brace_head _)) (.lit _ _ _)

theorem eats_match {r : Re} {x rest : Str} {g'} (h : Eats r x rest [] g') : ∃ m, r.matchAt [] (x ++ rest) = some m ∧ m.stop = x.length ∧ m.groups = g' := by
  refine ⟨_, h.matchAt [], ?_, rfl⟩
  simp [Match.stop]

theorem _root_.L2J.Defn.Eats.seqAlt {a b c : Re} {x rest : Str} {g g'} (h0 : Dead (.seq a c) (x ++ rest)) (h : Eats (.seq b c) x rest g g') : Eats (.seq (.alt a b) c) x rest g g' := by
  intro rev
  have h1 := h0 rev g
  have h2 := h rev
  unfold Hd at h2 ⊢
  simp only [Re.run, List.flatMap_append] at h1 h2 ⊢
  rw [h1]; exact h2

theorem Eats.reassoc {a b c : Re} {x rest : Str} {g g'} (h : Eats (.seq a (.seq b c)) x rest g g') : Eats (.seq (.seq a b) c) x rest g g' := by
  intro rev
  have := h rev
  unfold Hd at this ⊢
  rw [← this]
  simp only [Re.run, List.flatMap_assoc]

/-! ### Pictures -/

/-- C69: a picture gives a diagram with its name and content, and ends where the environment ends. -/
theorem C69_picture (name : String) (hn : name ∈ pictureNames) {p body : Str} (h : PictureText name.toList p body) (rest : Str) :
    tikz (p ++ rest) = some (some (.diagram name.toList (strip body)), (p.length : Int)) := by
  obtain ⟨b, body, e, hb, hbody, he⟩ := h
  have hnb : '\\' ∉ name.toList := by
    simp only [pictureNames, List.mem_cons, List.not_mem_nil, or_false] at hn
    rcases hn with rfl | rfl | rfl <;> decide
  have hblk := C09_env_block name.toList [] b body e rest hnb (fun u d v h => by
    have : u ++ d ++ v = [] := h.symm
    simp at this
    rintro ⟨ws, _, h⟩
    rw [this.2.1] at h
    simp at h) hb hbody he
  simp only [List.nil_append, List.length_nil] at hblk
  obtain ⟨ws, hw, rfl⟩ := hb
  have e0 : ("\\begin".toList ++ ws ++ '{' :: (name.toList ++ ['}'])) ++ body ++ e ++ rest =
      ("\\begin".toList ++ (ws ++ (['{'] ++ (name.toList ++ ['}'])))) ++ (body ++ e ++ rest) := by simp
  have hd : Dead libraryRe (("\\begin".toList ++ ws ++ '{' :: (name.toList ++ ['}'])) ++ body ++ e ++ rest) := by
    rw [e0, List.append_assoc]
    exact Dead.seq (Dead.lit (apart 2 (by decide) (by decide) (by decide)))
  have hm : Eats pictureRe ("\\begin".toList ++ (ws ++ (['{'] ++ (name.toList ++ ['}'])))) (body ++ e ++ rest) [] [(1, name.toList)] := by
    refine .seq (g1 := []) (y := ws ++ (['{'] ++ (name.toList ++ ['}']))) (.lit _ _ _) (.seq (g1 := []) (y := ['{'] ++ (name.toList ++ ['}'])) (.spaces hw (brace_head _))
      (.seq (g1 := []) (y := name.toList ++ ['}']) (.lit _ _ _) (.seq (g1 := [(1, name.toList)]) (.group 1 ?_) (.lit _ _ _))))
    simp only [pictureNames, List.mem_cons, List.not_mem_nil, or_false] at hn
    rcases hn with rfl | rfl | rfl
    · exact .left (.lit _ _ _)
    · exact .right (Dead.lit (apart 1 (by decide) (by decide) (by decide))) (.left (.lit _ _ _))
    · exact .right (Dead.lit (apart 1 (by decide) (by decide) (by decide))) (.right (Dead.lit (apart 2 (by decide) (by decide) (by decide))) (.lit _ _ _))
  obtain ⟨m, hm1, _, hm3⟩ := eats_match hm
  rw [← e0] at hm1
  unfold tikz
  have hg : m.group 1 = some name.toList := by unfold Match.group; rw [hm3]; rfl
  rw [hd.matchAt, hm1]
  simp only [hg, Option.getD_some, hblk]

/-! ### Graphics with an overlay -/

/-- C69: the file of an overpic, with or without options, becomes a graphic, and the whole environment is consumed. -/
theorem C69_overpic {p body file : Str} (h : PictureText "overpic".toList p body) (hbody : OverpicBody (strip body) file) (rest : Str) :
    overpic (p ++ rest) = some (some (.graphic file), (p.length : Int)) := by
  generalize hg : strip body = sb at hbody
  obtain ⟨options, ws, file, over, ho, hopt, hws, hfile⟩ := hbody
  have hbody := hg
  obtain ⟨b, body, e, hb, hb2, he⟩ := h
  have hblk := C09_env_block "overpic".toList [] b body e rest (by decide) (fun u d v h => by
    have : u ++ d ++ v = [] := h.symm
    simp at this
    rintro ⟨ws, _, h⟩
    rw [this.2.1] at h
    simp at h) hb hb2 he
  simp only [List.nil_append, List.length_nil] at hblk
  obtain ⟨ws1, hw, rfl⟩ := hb
  have e0 : ("\\begin".toList ++ ws1 ++ '{' :: ("overpic".toList ++ ['}'])) ++ body ++ e ++ rest =
      ("\\begin".toList ++ (ws1 ++ "{overpic}".toList)) ++ (body ++ e ++ rest) := by simp
  have hm : Eats overpicRe ("\\begin".toList ++ (ws1 ++ "{overpic}".toList)) (body ++ e ++ rest) [] [] :=
    .seq (g1 := []) (y := ws1 ++ "{overpic}".toList) (.lit _ _ _) (.seq (g1 := []) (.spaces hw (brace_head _)) (.lit _ _ _))
  obtain ⟨m, hm1, _, _⟩ := eats_match hm
  rw [← e0] at hm1
  unfold overpic
  rw [hm1]
  simp only [Option.map_some, hblk]
  have hx : (extractArgs (strip body) 1 1).req = [file] := by
    have h1 : seqBlocks (strip body) '[' ']' (some 1) = (options.map (·.2), (wrapAll '[' ']' options).length) := by
      rw [hbody]
      have := seqBlocks_wrap_more '[' ']' (by decide) (by decide) (by decide) options (1 - options.length) (ws ++ '{' :: (file ++ '}' :: over)) hopt
        (by rw [(takeWhile_wrap_ws ws ('{' :: (file ++ '}' :: over)) hws (brace_head _)).2]; simp)
      rwa [show options.length + (1 - options.length) = 1 by omega] at this
    have h2 : seqBlocks (ws ++ '{' :: (file ++ '}' :: over)) '{' '}' (some 1) = ([file], (wrapAll '{' '}' [(ws, file)]).length) := by
      have := seqBlocks_wrap '{' '}' (by decide) (by decide) (by decide) [(ws, file)] over (fun x hx => by
        rw [List.mem_singleton.1 hx]; exact ⟨hws, hfile⟩)
      simpa [wrapAll] using this
    have h3 : (if (wrapAll '[' ']' options).length > 0 then (strip body).drop (wrapAll '[' ']' options).length else strip body) = ws ++ '{' :: (file ++ '}' :: over) := by
      by_cases hz : (wrapAll '[' ']' options).length > 0
      · rw [if_pos hz, hbody, List.drop_left]
      · rw [if_neg hz, hbody, List.length_eq_zero_iff.1 (show (wrapAll '[' ']' options).length = 0 by omega)]; rfl
    unfold extractArgs
    rw [if_pos (by decide), h1]
    show (seqBlocks (if (wrapAll '[' ']' options).length > 0 then (strip body).drop (wrapAll '[' ']' options).length else strip body) '{' '}' (some 1)).1 = _
    rw [h3, h2]
  rw [hx]

/-! ### Settings -/

theorem dropGroup_eq (a ws x rest : Str) (hx : Wrappable '{' '}' x) (m : Match) (hm : m.stop = (a ++ (ws ++ ['{'])).length) :
    dropGroup ((a ++ (ws ++ '{' :: (x ++ ['}']))) ++ rest) m = (none, ((a ++ (ws ++ '{' :: (x ++ ['}']))).length : Int)) := by
  have h1 : m.stop - 1 = (a ++ ws).length := by rw [hm]; simp
  have h2 : ((a ++ (ws ++ '{' :: (x ++ ['}']))) ++ rest).drop (a ++ ws).length = '{' :: (x ++ '}' :: rest) := by
    rw [show (a ++ (ws ++ '{' :: (x ++ ['}']))) ++ rest = (a ++ ws) ++ '{' :: (x ++ '}' :: rest) by simp]
    exact List.drop_left
  unfold dropGroup
  rw [h1, h2, Style.extract_wrapped '{' '}' (by decide) (by decide) (by decide) x rest hx]
  simp
  omega

/-- C69: settings of the graphics packages leave nothing, and are consumed with their group. -/
theorem C69_setting {t : Str} (h : SettingText t) (rest : Str) : tikz (t ++ rest) = some (none, (t.length : Int)) := by
  cases h with
  | library w ws x hw hws hx =>
    have hm : Eats libraryRe ("\\use".toList ++ (w.toList ++ ("library".toList ++ (ws ++ ['{'])))) (x ++ '}' :: rest) [] [] := by
      refine .seq (g1 := []) (y := w.toList ++ ("library".toList ++ (ws ++ ['{']))) (.lit _ _ _) ?_
      simp only [List.mem_cons, List.not_mem_nil, or_false] at hw
      have tail : Eats (.seq (.lit "library".toList) (.seq (.star reSpace) (.lit ['{']))) ("library".toList ++ (ws ++ ['{'])) (x ++ '}' :: rest) [] [] :=
        .seq (g1 := []) (y := ws ++ ['{']) (.lit _ _ _) (open_eats ws _ hws [])
      rcases hw with rfl | rfl | rfl
      · exact .seq (g1 := []) (.left (.lit _ _ _)) tail
      · exact .seq (g1 := []) (.right (Dead.lit (by rw [List.append_assoc]; exact apart 1 (by decide) (by decide) (by decide))) (.left (.lit _ _ _))) tail
      · refine .seqAlt (Dead.seq (Dead.lit (by rw [List.append_assoc]; exact apart 1 (by decide) (by decide) (by decide)))) (.seqAlt ?_ (.seq (g1 := []) (.lit _ _ _) tail))
        rw [show ("pgfplots".toList ++ ("library".toList ++ (ws ++ ['{']))) ++ (x ++ '}' :: rest) = "pgf".toList ++ ("plots".toList ++ ("library".toList ++ (ws ++ ['{']) ++ (x ++ '}' :: rest))) by simp]
        exact Dead.after_lit (Dead.seq (Dead.lit (apart 1 (by decide) (by decide) (by decide))))
    obtain ⟨m, hm1, hm2, _⟩ := eats_match hm
    have e0 : ("\\use".toList ++ (w.toList ++ ("library".toList ++ (ws ++ '{' :: (x ++ ['}']))))) ++ rest =
        ("\\use".toList ++ (w.toList ++ ("library".toList ++ (ws ++ ['{'])))) ++ (x ++ '}' :: rest) := by simp
    unfold tikz
    rw [show libraryRe.matchAt [] (("\\use".toList ++ (w.toList ++ ("library".toList ++ (ws ++ '{' :: (x ++ ['}']))))) ++ rest) = some m by rw [e0]; exact hm1]
    have := dropGroup_eq ("\\use".toList ++ (w.toList ++ "library".toList)) ws x rest hx m (by rw [hm2]; simp)
    simp only [List.append_assoc] at this ⊢
    rw [this]
  | plots ws x hws hx =>
    have hm : Eats plotsRe ("\\pgfplotsset".toList ++ (ws ++ ['{'])) (x ++ '}' :: rest) [] [] := .seq (g1 := []) (y := ws ++ ['{']) (.lit _ _ _) (open_eats ws _ hws [])
    obtain ⟨m, hm1, hm2, _⟩ := eats_match hm
    have e0 : ("\\pgfplotsset".toList ++ (ws ++ '{' :: (x ++ ['}']))) ++ rest = ("\\pgfplotsset".toList ++ (ws ++ ['{'])) ++ (x ++ '}' :: rest) := by simp
    have d1 : Dead libraryRe (("\\pgfplotsset".toList ++ (ws ++ '{' :: (x ++ ['}']))) ++ rest) := by
      rw [List.append_assoc]; exact Dead.seq (Dead.lit (apart 2 (by decide) (by decide) (by decide)))
    have d2 : Dead pictureRe (("\\pgfplotsset".toList ++ (ws ++ '{' :: (x ++ ['}']))) ++ rest) := by
      rw [List.append_assoc]; exact Dead.seq (Dead.lit (apart 2 (by decide) (by decide) (by decide)))
    unfold tikz
    rw [d1.matchAt, d2.matchAt, show plotsRe.matchAt [] (("\\pgfplotsset".toList ++ (ws ++ '{' :: (x ++ ['}']))) ++ rest) = some m by rw [e0]; exact hm1]
    show some (dropGroup _ m) = _
    rw [dropGroup_eq "\\pgfplotsset".toList ws x rest hx m hm2]

/-! ### Titles -/

theorem extract_other (o c : Char) (x : Char) (t : Str) (hx : isSpace x = false) (hxo : x ≠ o) : extractNestedContent (x :: t) o c = none := by
  unfold extractNestedContent findMatchingDelimiter
  simp [skipSpace, hx, hxo]

theorem delimited (rest : Str) {p t : Str} (h : ArgsText p t) : ∀ (pre : Str) (total : Nat),
    (delimArgsLoop (pre ++ (t ++ rest)) p pre.length total).2 = if p = [] then total else pre.length + t.length := by
  induction h with
  | nil => intro pre total; rfl
  | braces ws x p t hw hx h ih =>
    intro pre total
    have h1 : (pre ++ ((ws ++ '{' :: (x ++ '}' :: t)) ++ rest)).drop pre.length = ws ++ '{' :: (x ++ '}' :: (t ++ rest)) := by rw [List.drop_left]; simp
    have h2 : (pre ++ ((ws ++ '{' :: (x ++ '}' :: t)) ++ rest)).drop (pre.length + ws.length) = '{' :: (x ++ '}' :: (t ++ rest)) := by
      rw [← List.drop_drop, h1, List.drop_left]
    have h3 := ih (pre ++ (ws ++ '{' :: (x ++ ['}']))) ((pre ++ (ws ++ '{' :: (x ++ ['}']))).length)
    rw [show (pre ++ (ws ++ '{' :: (x ++ ['}']))) ++ (t ++ rest) = pre ++ ((ws ++ '{' :: (x ++ '}' :: t)) ++ rest) by simp,
      show (pre ++ (ws ++ '{' :: (x ++ ['}']))).length = pre.length + ws.length + (x.length + 2) by simp; omega] at h3
    rw [delimArgsLoop, h1, (takeWhile_wrap_ws ws _ hw (brace_head _)).1]
    simp only [h2, Style.extract_wrapped '{' '}' (by decide) (by decide) (by decide) x _ hx]
    simp only [bne_self_eq_false, Bool.false_and, Bool.false_eq_true, if_false, beq_self_eq_true, if_true]
    rw [h3]
    simp
    split
    · subst_vars; cases h; simp; omega
    · omega
  | brackets ws x p t hw hx h ih =>
    intro pre total
    have h1 : (pre ++ ((ws ++ '[' :: (x ++ ']' :: t)) ++ rest)).drop pre.length = ws ++ '[' :: (x ++ ']' :: (t ++ rest)) := by rw [List.drop_left]; simp
    have h2 : (pre ++ ((ws ++ '[' :: (x ++ ']' :: t)) ++ rest)).drop (pre.length + ws.length) = '[' :: (x ++ ']' :: (t ++ rest)) := by
      rw [← List.drop_drop, h1, List.drop_left]
    have h3 := ih (pre ++ (ws ++ '[' :: (x ++ [']']))) ((pre ++ (ws ++ '[' :: (x ++ [']']))).length)
    rw [show (pre ++ (ws ++ '[' :: (x ++ [']']))) ++ (t ++ rest) = pre ++ ((ws ++ '[' :: (x ++ ']' :: t)) ++ rest) by simp,
      show (pre ++ (ws ++ '[' :: (x ++ [']']))).length = pre.length + ws.length + (x.length + 2) by simp; omega] at h3
    have hh : ∀ c ∈ ('[' :: (x ++ ']' :: (t ++ rest))).head?, isSpace c = false := fun c hc => by rw [show c = '[' from (Option.some.inj hc).symm]; decide
    rw [delimArgsLoop, h1, (takeWhile_wrap_ws ws _ hw hh).1]
    simp only [h2, Style.extract_wrapped '[' ']' (by decide) (by decide) (by decide) x _ hx]
    rw [if_neg (by decide), if_neg (by decide), if_pos (by decide)]
    simp only
    rw [h3]
    simp
    split
    · subst_vars; cases h; simp; omega
    · omega
  | without p t h ih =>
    intro pre total
    have ih := ih
    cases h with
    | braces ws x p t hw hx h =>
      have h1 : (pre ++ ((ws ++ '{' :: (x ++ '}' :: t)) ++ rest)).drop pre.length = ws ++ '{' :: (x ++ '}' :: (t ++ rest)) := by rw [List.drop_left]; simp
      have h2 : (pre ++ ((ws ++ '{' :: (x ++ '}' :: t)) ++ rest)).drop (pre.length + ws.length) = '{' :: (x ++ '}' :: (t ++ rest)) := by
        rw [← List.drop_drop, h1, List.drop_left]
      have h4 : ∀ tot, (delimArgsLoop (pre ++ ((ws ++ '{' :: (x ++ '}' :: t)) ++ rest)) ('{' :: p) (pre.length + ws.length) tot).2 =
          (delimArgsLoop (pre ++ ((ws ++ '{' :: (x ++ '}' :: t)) ++ rest)) ('{' :: p) pre.length tot).2 := fun tot => by
        rw [delimArgsLoop, delimArgsLoop, h1, h2, (takeWhile_wrap_ws ws _ hw (brace_head _)).1]
        simp only [h2, List.takeWhile_cons, show isSpace '{' = false by decide, Bool.false_eq_true, if_false, List.length_nil, Nat.add_zero]
      rw [delimArgsLoop, h1, (takeWhile_wrap_ws ws _ hw (brace_head _)).1]
      simp only [h2, extract_other '[' ']' '{' _ (by decide) (by decide)]
      rw [if_neg (by decide), if_neg (by decide), if_pos (by decide)]
      simp only
      rw [h4, ih]
      simp

/-- The pattern up to the brace of the first argument, and the arguments from there. -/
theorem title_at {r : Re} {d p a ws x t : Str} (rest : Str) (l1 l2 : List (Re × Str)) (ht : titles = l1 ++ (r, d) :: l2) (hd : d = '{' :: p)
    (h0 : ∀ q ∈ l1, Dead q.1 (a ++ (ws ++ '{' :: (x ++ '}' :: t)) ++ rest)) (hm : Eats r (a ++ (ws ++ ['{'])) (x ++ '}' :: (t ++ rest)) [] [])
    (hx : Wrappable '{' '}' x) (h : ArgsText p t) :
    titlesec (a ++ (ws ++ '{' :: (x ++ '}' :: t)) ++ rest) = some (none, ((a ++ (ws ++ '{' :: (x ++ '}' :: t))).length : Int)) := by
  obtain ⟨m, hm1, hm2, _⟩ := eats_match hm
  have e0 : a ++ (ws ++ '{' :: (x ++ '}' :: t)) ++ rest = (a ++ (ws ++ ['{'])) ++ (x ++ '}' :: (t ++ rest)) := by simp
  rw [← e0] at hm1
  have hf : firstTitle (a ++ (ws ++ '{' :: (x ++ '}' :: t)) ++ rest) titles = some (m, d) := by
    rw [ht]
    clear ht
    induction l1 with
    | nil => rw [List.nil_append, firstTitle, hm1]
    | cons q l1 ih =>
      rw [List.cons_append, firstTitle, (h0 q (by simp)).matchAt]
      exact ih fun q' hq => h0 q' (by simp [hq])
  have h1 : m.stop - 1 = (a ++ ws).length := by rw [hm2]; simp
  have h2 : (a ++ (ws ++ '{' :: (x ++ '}' :: t)) ++ rest).drop (a ++ ws).length = ('{' :: (x ++ '}' :: t)) ++ rest := by
    rw [show a ++ (ws ++ '{' :: (x ++ '}' :: t)) ++ rest = (a ++ ws) ++ (('{' :: (x ++ '}' :: t)) ++ rest) by simp]
    exact List.drop_left
  have h3 := delimited rest (ArgsText.braces [] x p t (by simp [Blank]) hx h) [] 0
  unfold titlesec
  rw [hf]
  simp only [Option.map_some, h1, h2, hd]
  simp only [List.nil_append, List.length_nil] at h3
  unfold extractDelimitedArgs
  rw [h3]
  simp
  omega

theorem title_eats (w ws rest : Str) (star opt : Bool) (k y : Str) (hk : Eats (if star then .opt (.lit ['*']) else .eps) k (ws ++ (y ++ '{' :: rest)) [] [])
    (hw : Blank ws) (hy : Eats (if opt then .seq Fmt.optArg (.star reSpace) else .eps) y ('{' :: rest) [] []) (hh : ∀ c ∈ (y ++ '{' :: rest).head?, isSpace c = false) :
    Eats (titleRe w star opt) (w ++ (k ++ (ws ++ (y ++ ['{'])))) rest [] [] := by
  unfold titleRe
  refine .seq (g1 := []) (y := k ++ (ws ++ (y ++ ['{']))) (.lit _ _ _) (.seq (g1 := []) (y := ws ++ (y ++ ['{'])) ?_ (.seq (g1 := []) (y := y ++ ['{']) ?_ (.seq (g1 := []) (y := ['{']) ?_ (.lit _ _ _))))
  · simpa using hk
  · exact .spaces hw (by simpa using hh)
  · simpa using hy

theorem title_dead (w v s : Str) (star opt : Bool) (n : Nat) (h1 : n ≤ w.length) (h2 : n ≤ v.length) (h : w.take n ≠ v.take n) : Dead (titleRe w star opt) (v ++ s) :=
  Dead.seq (Dead.lit (apart n h1 h2 h))

/-- C69: the commands for titles leave nothing, and are consumed with all their arguments. -/
theorem C69_title {t : Str} (h : TitleText t) (rest : Str) : titlesec (t ++ rest) = some (none, (t.length : Int)) := by
  cases h with
  | format t h =>
    cases h with
    | braces ws x p t hw hx h =>
      refine title_at rest [] _ rfl rfl (by simp) ?_ hx h
      exact title_eats _ ws _ false false [] [] (.eps _ _) hw (.eps _ _) (brace_head _)
  | spacing star t h =>
    cases h with
    | braces ws x p t hw hx h =>
      have hm : Eats (titleRe "\\titlespacing".toList true false) (("\\titlespacing".toList ++ if star then ['*'] else []) ++ (ws ++ ['{'])) (x ++ '}' :: (t ++ rest)) [] [] := by
        have : Eats (titleRe "\\titlespacing".toList true false) ("\\titlespacing".toList ++ ((if star then ['*'] else []) ++ (ws ++ ([] ++ ['{'])))) (x ++ '}' :: (t ++ rest)) [] [] := by
          refine title_eats _ ws _ true false _ [] ?_ hw (.eps _ _) (brace_head _)
          cases star
          · refine .optNone (Dead.char ?_)
            cases ws with
            | nil => simp
            | cons c ws =>
              have := hw c (by simp)
              intro hc
              rw [show c = '*' by simpa using hc] at this
              exact absurd this (by decide)
          · exact .optSome (.lit _ _ _)
        simpa using this
      have := title_at (ws := ws) rest [_] _ rfl rfl (fun q hq => by
        rw [List.mem_singleton.1 hq]
        simp only [List.append_assoc]
        exact title_dead _ _ _ _ _ 7 (by decide) (by decide) (by decide)) hm hx h
      simpa using this
  | label t h =>
    cases h with
    | braces ws x p t hw hx h =>
      refine title_at rest [_, _] _ rfl rfl (fun q hq => ?_) ?_ hx h
      · simp only [List.mem_cons, List.not_mem_nil, or_false] at hq
        rw [List.append_assoc]
        rcases hq with rfl | rfl <;> exact title_dead _ _ _ _ _ 7 (by decide) (by decide) (by decide)
      exact title_eats _ ws _ false false [] [] (.eps _ _) hw (.eps _ _) (brace_head _)
  | contents t h =>
    cases h with
    | braces ws x p t hw hx h =>
      refine title_at rest [_, _, _] _ rfl rfl (fun q hq => ?_) ?_ hx h
      · simp only [List.mem_cons, List.not_mem_nil, or_false] at hq
        rw [List.append_assoc]
        rcases hq with rfl | rfl | rfl <;> exact title_dead _ _ _ _ _ 7 (by decide) (by decide) (by decide)
      exact title_eats _ ws _ false false [] [] (.eps _ _) hw (.eps _ _) (brace_head _)
  | line t h =>
    cases h with
    | braces ws x p t hw hx h =>
      refine title_at rest [_, _, _, _] _ rfl rfl (fun q hq => ?_) ?_ hx h
      · simp only [List.mem_cons, List.not_mem_nil, or_false] at hq
        rw [List.append_assoc]
        rcases hq with rfl | rfl | rfl | rfl <;> exact title_dead _ _ _ _ _ 8 (by decide) (by decide) (by decide)
      exact title_eats _ ws _ false true [] [] (.eps _ _) hw (.seq (x := []) (y := []) (g1 := []) (.optNone (Dead.seq (Dead.char (by simp)))) (.spaces (by simp) (brace_head _))) (brace_head _)
  | lineAt ws o t hw ho h =>
    cases h with
    | braces ws2 x p t hw2 hx h =>
      have hm : Eats (titleRe "\\titleline".toList false true) (("\\titleline".toList ++ (ws ++ '[' :: (o ++ [']']))) ++ (ws2 ++ ['{'])) (x ++ '}' :: (t ++ rest)) [] [] := by
        have : Eats (titleRe "\\titleline".toList false true) ("\\titleline".toList ++ ([] ++ (ws ++ ((('[' :: (o ++ [']'])) ++ ws2) ++ ['{'])))) (x ++ '}' :: (t ++ rest)) [] [] := by
          refine title_eats _ ws _ false true _ _ (.eps _ _) hw ?_ (fun c hc => by rw [show c = '[' from (Option.some.inj hc).symm]; decide)
          refine .seq (x := '[' :: (o ++ [']'])) (y := ws2) (g1 := []) (.optSome ?_) (.spaces hw2 (brace_head _))
          refine .seq (x := ['[']) (y := o ++ [']']) (g1 := []) (.lit _ _ _) (.seq (x := o) (y := [']']) (g1 := []) (.star_chr _ (fun c hc => ?_) (fun c hc => ?_)) (.lit _ _ _))
          · simp only [bne_iff_ne]; rintro rfl; exact ho hc
          · rw [show c = ']' from (Option.some.inj hc).symm]; decide
        simpa using this
      have := title_at (ws := ws2) rest [_, _, _, _] _ rfl rfl (fun q hq => by
        simp only [List.mem_cons, List.not_mem_nil, or_false] at hq
        simp only [List.append_assoc]
        rcases hq with rfl | rfl | rfl | rfl <;> exact title_dead _ _ _ _ _ 8 (by decide) (by decide) (by decide)) hm hx h
      simpa using this

/-! ### Together -/

theorem isDelim_begin {name b : Str} (h : IsDelim "\\begin".toList name b) : ∃ u, b = "\\begin".toList ++ u := by
  obtain ⟨ws, _, rfl⟩ := h
  exact ⟨_, by rw [List.append_assoc]⟩

theorem delim_open {name b : Str} (h : IsDelim "\\begin".toList name b) : ∃ ws, Blank ws ∧ b = "\\begin".toList ++ (ws ++ ('{' :: (name ++ ['}']))) := by
  obtain ⟨ws, hw, rfl⟩ := h
  exact ⟨ws, hw, by simp⟩

theorem overpic_none {s v : Str} (n : Nat) (h1 : n ≤ 6) (h2 : n ≤ v.length) (h : "\\begin".toList.take n ≠ v.take n) : overpic (v ++ s) = none := by
  have : Dead overpicRe (v ++ s) := Dead.seq (Dead.lit (apart n h1 h2 h))
  unfold overpic
  rw [this.matchAt]; rfl

theorem overpic_picture (name : String) (hn : name ∈ pictureNames) {b s : Str} (hb : IsDelim "\\begin".toList name.toList b) : overpic (b ++ s) = none := by
  obtain ⟨ws, hw, rfl⟩ := delim_open hb
  have : Dead overpicRe ("\\begin".toList ++ (ws ++ '{' :: (name.toList ++ ['}'])) ++ s) := by
    rw [List.append_assoc]
    refine Dead.after_lit ?_
    rw [List.append_assoc]
    refine Dead.spaces hw (brace_head _) (fun c t hc => Dead.lit ?_) (Dead.lit ?_)
    · rintro ⟨u, hu⟩
      have : '{' = c := by simp at hu; exact hu.1
      rw [← this] at hc; exact absurd hc (by decide)
    · have : '{' :: (name.toList ++ ['}']) ++ s = ('{' :: name.toList) ++ (['}'] ++ s) := by simp
      rw [this]
      simp only [pictureNames, List.mem_cons, List.not_mem_nil, or_false] at hn
      rcases hn with rfl | rfl | rfl <;> exact apart 2 (by decide) (by decide) (by decide)
  unfold overpic
  rw [this.matchAt]; rfl

theorem tikz_title {s : Str} : tikz ("\\title".toList ++ s) = none := by
  have h1 : Dead libraryRe ("\\title".toList ++ s) := Dead.seq (Dead.lit (apart 2 (by decide) (by decide) (by decide)))
  have h2 : Dead pictureRe ("\\title".toList ++ s) := Dead.seq (Dead.lit (apart 2 (by decide) (by decide) (by decide)))
  have h3 : Dead plotsRe ("\\title".toList ++ s) := Dead.seq (Dead.lit (apart 2 (by decide) (by decide) (by decide)))
  unfold tikz
  rw [h1.matchAt, h2.matchAt, h3.matchAt]; rfl

theorem title_word {t : Str} (h : TitleText t) : ∃ u, t = "\\title".toList ++ u := by
  cases h with
  | format t _ => exact ⟨"format".toList ++ t, by simp⟩
  | spacing s t _ => exact ⟨"spacing".toList ++ ((if s then ['*'] else []) ++ t), by simp⟩
  | label t _ => exact ⟨"label".toList ++ t, by simp⟩
  | contents t _ => exact ⟨"contents".toList ++ t, by simp⟩
  | line t _ => exact ⟨"line".toList ++ t, by simp⟩
  | lineAt ws x t _ _ _ => exact ⟨"line".toList ++ (ws ++ '[' :: (x ++ ']' :: t)), by simp⟩

theorem setting_word {t : Str} (h : SettingText t) : ∃ u, t = "\\use".toList ++ u ∨ t = "\\pgfplotsset".toList ++ u := by
  cases h with
  | library w ws x _ _ _ => exact ⟨_, .inl rfl⟩
  | plots ws x _ _ => exact ⟨_, .inr rfl⟩

/-- C69: each of them gives its token, or none, and is consumed exactly. -/
theorem C69_package {t : Str} {o : Option Tok} (h : GraphicsText t o) (rest : Str) : handle (t ++ rest) = some (o, (t.length : Int)) := by
  unfold handle
  cases h with
  | picture name p body hn h =>
    have h1 := C69_picture name hn h rest
    obtain ⟨b, body, e, hb, _, _⟩ := h
    have : overpic (b ++ body ++ e ++ rest) = none := by simp only [List.append_assoc]; exact overpic_picture name hn hb
    rw [this, h1]
  | overpic p body file h hb => rw [C69_overpic h hb rest]
  | setting t h =>
    have h1 := C69_setting h rest
    obtain ⟨u, rfl | rfl⟩ := setting_word h
    · rw [show overpic ("\\use".toList ++ u ++ rest) = none by rw [List.append_assoc]; exact overpic_none 2 (by decide) (by decide) (by decide), h1]
    · rw [show overpic ("\\pgfplotsset".toList ++ u ++ rest) = none by rw [List.append_assoc]; exact overpic_none 2 (by decide) (by decide) (by decide), h1]
  | title t h =>
    have h1 := C69_title h rest
    obtain ⟨u, rfl⟩ := title_word h
    rw [show overpic ("\\title".toList ++ u ++ rest) = none by rw [List.append_assoc]; exact overpic_none 2 (by decide) (by decide) (by decide),
      show tikz ("\\title".toList ++ u ++ rest) = none by rw [List.append_assoc]; exact tikz_title, h1]

theorem firstTitle_some {s : Str} {m : Match} {d : Str} {l : List (Re × Str)} (h : firstTitle s l = some (m, d)) : ∃ q ∈ l, (q.1.matchAt [] s).isSome = true := by
  induction l with
  | nil => cases h
  | cons q l ih =>
    rw [firstTitle] at h
    cases hq : q.1.matchAt [] s with
    | some m => exact ⟨q, by simp, by rw [hq]; rfl⟩
    | none => rw [hq] at h; obtain ⟨q', h1, h2⟩ := ih h; exact ⟨q', by simp [h1], h2⟩

/-- They are accepted. -/
theorem package_accepts {t : Str} {o : Option Tok} (h : GraphicsText t o) (rest : Str) : Psr.packageAccepts (t ++ rest) = true := by
  unfold Psr.packageAccepts
  simp only [Bool.or_eq_true]
  cases h with
  | picture name p body hn h =>
    obtain ⟨b, body, e, hb, _, _⟩ := h
    obtain ⟨ws, hw, rfl⟩ := delim_open hb
    have hm : Eats Psr.pictureRe ("\\begin".toList ++ (ws ++ (['{'] ++ (name.toList ++ ['}'])))) (body ++ e ++ rest) [] [] := by
      refine .seq (g1 := []) (y := ws ++ (['{'] ++ (name.toList ++ ['}']))) (.lit _ _ _) (.seq (g1 := []) (y := ['{'] ++ (name.toList ++ ['}'])) (.spaces hw (brace_head _))
        (.seq (g1 := []) (y := name.toList ++ ['}']) (.lit _ _ _) (.seq (g1 := []) ?_ (.lit _ _ _))))
      simp only [pictureNames, List.mem_cons, List.not_mem_nil, or_false] at hn
      rcases hn with rfl | rfl | rfl
      · exact .left (.lit _ _ _)
      · exact .right (Dead.lit (apart 1 (by decide) (by decide) (by decide))) (.left (.lit _ _ _))
      · exact .right (Dead.lit (apart 1 (by decide) (by decide) (by decide))) (.right (Dead.lit (apart 2 (by decide) (by decide) (by decide))) (.lit _ _ _))
    obtain ⟨m, hm1, _, _⟩ := eats_match hm
    rw [show "\\begin".toList ++ (ws ++ '{' :: (name.toList ++ ['}'])) ++ body ++ e ++ rest = "\\begin".toList ++ (ws ++ (['{'] ++ (name.toList ++ ['}']))) ++ (body ++ e ++ rest) by simp, hm1]
    simp
  | overpic p body file h hb =>
    have h1 := C69_overpic h hb rest
    unfold overpic at h1
    cases hm : overpicRe.matchAt [] (t ++ rest) with
    | none => rw [hm] at h1; cases h1
    | some m => simp
  | setting t h =>
    have h1 := C69_setting h rest
    unfold tikz at h1
    cases hl : libraryRe.matchAt [] (t ++ rest) with
    | some m => simp
    | none =>
      rw [hl] at h1
      cases hp : pictureRe.matchAt [] (t ++ rest) with
      | some m =>
        rw [hp] at h1
        simp only at h1
        split at h1 <;> cases h1
      | none =>
        rw [hp] at h1
        cases hq : plotsRe.matchAt [] (t ++ rest) with
        | some m => simp
        | none => rw [hq] at h1; cases h1
  | title t h =>
    have h1 := C69_title h rest
    unfold titlesec at h1
    cases hf : firstTitle (t ++ rest) titles with
    | none => rw [hf] at h1; cases h1
    | some r =>
      obtain ⟨q, hq, hs⟩ := firstTitle_some (m := r.1) (d := r.2) hf
      have : Psr.titleRes.any (fun r => (r.matchAt [] (t ++ rest)).isSome) = true := by
        refine List.any_eq_true.2 ⟨q.1, ?_, hs⟩
        have e : Psr.titleRes = titles.map (·.1) := rfl
        rw [e]
        exact List.mem_map.2 ⟨q, hq, rfl⟩
      simp [this]

/-! ### Loops -/

/-- Repetition of a character, with what follows failing at all later places. -/
theorem _root_.L2J.Defn.Eats.star_back (p : Char → Bool) {b : Re} {x y rest : Str} {g g'} (h1 : ∀ c ∈ x, p c = true) (h2 : Eats b y rest g g')
    (h3 : ∀ u v, u ≠ [] → y ++ rest = u ++ v → (∀ c ∈ u, p c = true) → Dead b v) : Eats (.seq (.star (.chr p)) b) (x ++ y) rest g g' := by
  have none : ∀ (s : Str), (∀ u v, s = u ++ v → (∀ c ∈ u, p c = true) → Dead b v) → ∀ rev, (charRuns p g rev s).flatMap b.run = [] := by
    intro s
    induction s with
    | nil => intro h rev; simp [charRuns, h [] [] rfl (by simp) rev g]
    | cons c s ih =>
      intro h rev
      rw [charRuns]
      split
      · rename_i hc
        rw [List.flatMap_append, ih (fun u v e hu => h (c :: u) v (by simp [e]) (by simpa [hc] using hu))]
        simp [h [] (c :: s) rfl (by simp) rev g]
      · simp [h [] (c :: s) rfl (by simp) rev g]
  have base : ∀ rev, ((charRuns p g rev (y ++ rest)).flatMap b.run).head? = some ⟨y.reverse ++ rev, rest, g'⟩ := by
    intro rev
    have e2 : (b.run ⟨rev, y ++ rest, g⟩).head? = some ⟨y.reverse ++ rev, rest, g'⟩ := h2 rev
    cases hs : y ++ rest with
    | nil => rw [hs] at e2; simp [charRuns, e2]
    | cons c s =>
      rw [hs] at e2
      rw [charRuns]
      split
      · rename_i hc
        rw [List.flatMap_append, none s (fun u v e hu => h3 (c :: u) v (by simp) (by rw [hs, e]; rfl) (by simpa [hc] using hu))]
        simp [e2]
      · simp [e2]
  intro rev
  show ((Re.seq (.star (.chr p)) b).run ⟨rev, x ++ y ++ rest, g⟩).head? = _
  rw [Re.run, run_star_chr]
  show ((charRuns p g rev (x ++ y ++ rest)).flatMap b.run).head? = _
  induction x generalizing rev with
  | nil => exact base rev
  | cons c x ih =>
    have ih := ih (fun d hd => h1 d (by simp [hd])) (c :: rev)
    rw [List.cons_append, List.cons_append, charRuns, if_pos (h1 c (by simp)), List.flatMap_append, List.head?_append, ih]
    simp

/-- C69: a `\forloop` leaves nothing, and is consumed with its four arguments. -/
theorem C69_forloop {V X} (st : Psr.St V X) (toks : List Psr.Tok) (l : List (Str × Str)) (hl : l.length = 4) (hw : WellWrapped '{' '}' l) (rest : Str) :
    Psr.forLoop st toks ("\\forloop".toList ++ wrapAll '{' '}' l ++ rest) = some (.ok st (toks, (("\\forloop".toList ++ wrapAll '{' '}' l).length : Int))) := by
  match l, hl with
  | (ws, x) :: l, hl =>
    have hws : Blank ws := (hw (ws, x) (by simp)).1
    have hm : Eats Psr.forloopRe ("\\forloop".toList ++ (ws ++ ['{'])) (x ++ '}' :: (wrapAll '{' '}' l ++ rest)) [] [] := .seq (g1 := []) (y := ws ++ ['{']) (.lit _ _ _) (open_eats ws _ hws [])
    obtain ⟨m, hm1, hm2, _⟩ := eats_match hm
    have e0 : "\\forloop".toList ++ wrapAll '{' '}' ((ws, x) :: l) ++ rest = ("\\forloop".toList ++ (ws ++ ['{'])) ++ (x ++ '}' :: (wrapAll '{' '}' l ++ rest)) := by simp [wrapAll]
    have h1 : m.stop - 1 = ("\\forloop".toList ++ ws).length := by rw [hm2]; simp
    have h2 : ("\\forloop".toList ++ wrapAll '{' '}' ((ws, x) :: l) ++ rest).drop ("\\forloop".toList ++ ws).length = wrapAll '{' '}' (([], x) :: l) ++ rest := by
      rw [show "\\forloop".toList ++ wrapAll '{' '}' ((ws, x) :: l) ++ rest = ("\\forloop".toList ++ ws) ++ (wrapAll '{' '}' (([], x) :: l) ++ rest) by simp [wrapAll]]
      exact List.drop_left
    have h3 := seqBlocks_wrap '{' '}' (by decide) (by decide) (by decide) (([], x) :: l) rest (fun e he => by
      rcases List.mem_cons.1 he with rfl | he
      · exact ⟨by simp, (hw (ws, x) (by simp)).2⟩
      · exact hw e (by simp [he]))
    unfold Psr.forLoop
    rw [show Psr.forloopRe.matchAt [] ("\\forloop".toList ++ wrapAll '{' '}' ((ws, x) :: l) ++ rest) = some m by rw [e0]; exact hm1]
    simp only [h1, h2]
    rw [show (([], x) :: l : List (Str × Str)).length = 4 from hl] at h3
    rw [h3]
    simp [wrapAll]
    omega

/-- No further brace opens on this line, or after the blanks behind it. -/
def _root_.L2J.Spec.LastBrace (t : Str) : Prop := ∀ l ws u, t = l ++ ws ++ '{' :: u → '\n' ∉ l → Blank ws → False

theorem open_dead {s : Str} (hb : ¬ ∃ ws t, Blank ws ∧ s = ws ++ '{' :: t) : Dead (.seq (.star reSpace) (.lit ['{'])) s := by
  have e : s.takeWhile isSpace ++ s.dropWhile isSpace = s := List.takeWhile_append_dropWhile
  have hws := takeWhile_all (p := isSpace) s
  rw [← e]
  refine Dead.spaces hws (fun c hc => ?_) (fun c t hc => Dead.char ?_) (Dead.char fun hh => ?_)
  · cases hd : s.dropWhile isSpace with
    | nil => rw [hd] at hc; cases hc
    | cons d u => rw [hd] at hc; rw [show c = d from (Option.some.inj hc).symm]; exact dropWhile_head hd
  · intro h; rw [show c = '{' by simpa using h] at hc; exact absurd hc (by decide)
  · cases hd : s.dropWhile isSpace with
    | nil => rw [hd] at hh; cases hh
    | cons d u =>
      rw [hd] at hh e
      rw [show d = '{' by simpa using hh] at e
      exact hb ⟨_, u, hws, e.symm⟩

/-- C69: a `\foreach` whose body opens with the last brace of its line leaves nothing, and is consumed with its body. -/
theorem C69_foreach_partial {V X} (st : Psr.St V X) (toks : List Psr.Tok) (ws : Str) (c0 : Char) (spec ws2 body rest : Str) (hws : ws ≠ [] ∧ Blank ws) (hs : isSpace c0 = false)
    (hn : '\n' ∉ spec) (hw2 : Blank ws2) (hb : Wrappable '{' '}' body) (hlast : LastBrace (body ++ '}' :: rest)) (hr : (rest.dropWhile isSpace).head? ≠ some '{') :
    Psr.forLoop st toks ("\\foreach".toList ++ (ws ++ (c0 :: spec ++ (ws2 ++ '{' :: (body ++ ['}'])))) ++ rest) =
      some (.ok st (toks, (("\\foreach".toList ++ (ws ++ (c0 :: spec ++ (ws2 ++ '{' :: (body ++ ['}']))))).length : Int))) := by
  have ew : ws2.takeWhile (· != '\n') ++ ws2.dropWhile (· != '\n') = ws2 := List.takeWhile_append_dropWhile
  have hc0 : (c0 != '\n') = true := by
    rw [bne_iff_ne]; rintro rfl; exact absurd hs (by decide)
  have hm : Eats Psr.foreachRe ("\\foreach".toList ++ (ws ++ (c0 :: (spec ++ (ws2 ++ ['{']))))) (body ++ '}' :: rest) [] [] := by
    refine .seq (g1 := []) (y := ws ++ (c0 :: (spec ++ (ws2 ++ ['{'])))) (.lit _ _ _) (.seq (g1 := []) (y := c0 :: (spec ++ (ws2 ++ ['{']))) ?_ ?_)
    · exact .plus_chr _ hws.1 hws.2 (fun c hc => by rw [show c = c0 from (Option.some.inj hc).symm]; exact hs)
    · refine Eats.reassoc (.seq (x := [c0]) (y := spec ++ (ws2 ++ ['{'])) (g1 := []) (.chr _ hc0) ?_)
      have := Eats.star_back (fun c => c != '\n') (b := .seq (.star reSpace) (.lit ['{'])) (x := spec ++ ws2.takeWhile (· != '\n')) (y := ws2.dropWhile (· != '\n') ++ ['{'])
        (rest := body ++ '}' :: rest) (g := []) (g' := []) (fun c hc => ?_) (open_eats _ _ (fun c hc => hw2 c ((List.dropWhile_sublist _).subset hc)) []) (fun u v hu e hp => ?_)
      · rw [show (spec ++ ws2.takeWhile (· != '\n')) ++ (ws2.dropWhile (· != '\n') ++ ['{']) = spec ++ (ws2 ++ ['{']) by
          rw [List.append_assoc, ← List.append_assoc (ws2.takeWhile _), ew]] at this
        exact this
      · rcases List.mem_append.1 hc with hc | hc
        · rw [bne_iff_ne]; rintro rfl; exact hn hc
        · exact takeWhile_all (p := (· != '\n')) ws2 c hc
      · cases hd : ws2.dropWhile (· != '\n') with
        | cons d w =>
          exfalso
          have h1 := dropWhile_head hd
          rw [hd] at e
          cases u with
          | nil => exact hu rfl
          | cons z u =>
            have hz : d = z := by simp at e; exact e.1
            rw [hz] at h1
            rw [hp z (by simp)] at h1
            cases h1
        | nil =>
          rw [hd] at e
          cases u with
          | nil => exact absurd rfl hu
          | cons z u =>
            have e2 : body ++ '}' :: rest = u ++ v := by simp at e; exact e.2
            refine open_dead ?_
            rintro ⟨b, t, hbl, rfl⟩
            refine hlast u b t (by rw [e2]; simp) (fun hc => ?_) hbl
            exact absurd (hp '\n' (by simp [hc])) (by decide)
  obtain ⟨m, hm1, hm2, _⟩ := eats_match hm
  have e0 : "\\foreach".toList ++ (ws ++ (c0 :: spec ++ (ws2 ++ '{' :: (body ++ ['}'])))) ++ rest = ("\\foreach".toList ++ (ws ++ (c0 :: (spec ++ (ws2 ++ ['{']))))) ++ (body ++ '}' :: rest) := by simp
  have h1 : m.stop - 1 = ("\\foreach".toList ++ (ws ++ (c0 :: (spec ++ ws2)))).length := by rw [hm2]; simp; omega
  have h2 : ("\\foreach".toList ++ (ws ++ (c0 :: spec ++ (ws2 ++ '{' :: (body ++ ['}'])))) ++ rest).drop ("\\foreach".toList ++ (ws ++ (c0 :: (spec ++ ws2)))).length =
      wrapAll '{' '}' [([], body)] ++ rest := by
    rw [show "\\foreach".toList ++ (ws ++ (c0 :: spec ++ (ws2 ++ '{' :: (body ++ ['}'])))) ++ rest = ("\\foreach".toList ++ (ws ++ (c0 :: (spec ++ ws2)))) ++ (wrapAll '{' '}' [([], body)] ++ rest) by
      simp [wrapAll]]
    exact List.drop_left
  have h3 := seqBlocks_wrap_more '{' '}' (by decide) (by decide) (by decide) [([], body)] 1 rest (fun e he => by rw [List.mem_singleton.1 he]; exact ⟨by simp, hb⟩) hr
  have hd : Dead Psr.forloopRe ("\\foreach".toList ++ (ws ++ (c0 :: spec ++ (ws2 ++ '{' :: (body ++ ['}'])))) ++ rest) := by
    rw [List.append_assoc]
    exact Dead.seq (Dead.lit (apart 5 (by decide) (by decide) (by decide)))
  unfold Psr.forLoop
  rw [hd.matchAt, show Psr.foreachRe.matchAt [] ("\\foreach".toList ++ (ws ++ (c0 :: spec ++ (ws2 ++ '{' :: (body ++ ['}'])))) ++ rest) = some m by rw [e0]; exact hm1]
  simp only [h1, h2]
  rw [show ([([], body)] : List (Str × Str)).length + 1 = 2 from rfl] at h3
  rw [h3]
  simp [wrapAll]
  omega

/-! ### Examples, and where it fails -/

theorem noDelim_short {kw name t : Str} (h : '\\' ∉ t) (hk : '\\' ∈ kw) : NoDelim kw name t := by
  rintro u d v rfl ⟨ws, _, rfl⟩
  exact h (by simp [hk])

example : tikz "\\begin {tikzpicture} draw \\end{tikzpicture} x".toList = some (some (.diagram "tikzpicture".toList "draw".toList), 43) :=
  C69_picture "tikzpicture" (by decide) (.mk "\\begin {tikzpicture}".toList " draw ".toList "\\end{tikzpicture}".toList ⟨[' '], by decide, rfl⟩
    (.plain _ (noDelim_short (by decide) (by decide)) (noDelim_short (by decide) (by decide))) ⟨[], by decide, rfl⟩) " x".toList

example : overpic "\\begin{overpic}[w=1]{f.png} over \\end{overpic} x".toList = some (some (.graphic "f.png".toList), 46) :=
  C69_overpic (.mk "\\begin{overpic}".toList "[w=1]{f.png} over ".toList "\\end{overpic}".toList ⟨[], by decide, rfl⟩
    (.plain _ (noDelim_short (by decide) (by decide)) (noDelim_short (by decide) (by decide))) ⟨[], by decide, rfl⟩)
    (show OverpicBody (strip "[w=1]{f.png} over ".toList) _ from .mk [([], "w=1".toList)] [] "f.png".toList " over".toList (by decide)
    (by unfold WellWrapped Wrappable Balanced; decide +kernel) (by unfold Blank; decide) (by unfold Wrappable Balanced; decide +kernel)) " x".toList

example : tikz "\\usepgfplotslibrary{a{b}} x".toList = some (none, 25) :=
  C69_setting (.library "pgfplots" [] "a{b}".toList (by decide) (by unfold Blank; decide) (by unfold Wrappable Balanced; decide +kernel)) " x".toList

example : titlesec "\\titlespacing* {\\section}{a}\n{b}{c} x".toList = some (none, 35) :=
  C69_title (.spacing true _ (.braces [' '] "\\section".toList _ _ (by unfold Blank; decide) (by unfold Wrappable Balanced; decide +kernel)
    (.braces [] ['a'] _ _ (by unfold Blank; decide) (by unfold Wrappable Balanced; decide +kernel) (.braces ['\n'] ['b'] _ _ (by unfold Blank; decide) (by unfold Wrappable Balanced; decide +kernel)
      (.braces [] ['c'] _ _ (by unfold Blank; decide) (by unfold Wrappable Balanced; decide +kernel) .nil))))) " x".toList

/-- The code after a title, the last argument of `\titleformat`, is left in the text. -/
theorem C69_violated_after : titlesec "\\titleformat{\\section}{a}{b}{c}{d}[code] x".toList = some (none, 34) := by decide +kernel

/-- What stands in the body of a loop behind a group is left in the text, with the closing brace of the body. -/
theorem C69_violated_body {V X} (st : Psr.St V X) (toks : List Psr.Tok) :
    Psr.forLoop st toks "\\foreach \\x in {1,2} {A {b} c} d".toList = some (.ok st (toks, ("\\foreach \\x in {1,2} {A {b}".toList.length : Int))) := by
  unfold Psr.forLoop
  have h1 : Psr.forloopRe.matchAt [] "\\foreach \\x in {1,2} {A {b} c} d".toList = none := by decide +kernel
  have h2 : (Psr.foreachRe.matchAt [] "\\foreach \\x in {1,2} {A {b} c} d".toList).map Match.stop = some 25 := by decide +kernel
  rw [h1]
  cases h : Psr.foreachRe.matchAt [] "\\foreach \\x in {1,2} {A {b} c} d".toList with
  | none => rw [h] at h2; cases h2
  | some m =>
    rw [h] at h2
    have h3 : m.stop = 25 := by simpa using h2
    simp only [h3]
    rw [show (25 - 1 + (seqBlocks ("\\foreach \\x in {1,2} {A {b} c} d".toList.drop (25 - 1)) '{' '}' (some 2)).2 : Nat) = 27 by decide +kernel]
    rfl

/-- Text behind a loop on the same line is lost up to the last group of the line. -/
theorem C69_violated_line {V X} (st : Psr.St V X) (toks : List Psr.Tok) :
    Psr.forLoop st toks "\\foreach \\x in {1,2}{a} and \\textbf{b}.".toList = some (.ok st (toks, ("\\foreach \\x in {1,2}{a} and \\textbf{b}".toList.length : Int))) := by
  unfold Psr.forLoop
  have h1 : Psr.forloopRe.matchAt [] "\\foreach \\x in {1,2}{a} and \\textbf{b}.".toList = none := by decide +kernel
  have h2 : (Psr.foreachRe.matchAt [] "\\foreach \\x in {1,2}{a} and \\textbf{b}.".toList).map Match.stop = some 36 := by decide +kernel
  rw [h1]
  cases h : Psr.foreachRe.matchAt [] "\\foreach \\x in {1,2}{a} and \\textbf{b}.".toList with
  | none => rw [h] at h2; cases h2
  | some m =>
    rw [h] at h2
    have h3 : m.stop = 36 := by simpa using h2
    simp only [h3]
    rw [show (36 - 1 + (seqBlocks ("\\foreach \\x in {1,2}{a} and \\textbf{b}.".toList.drop (36 - 1)) '{' '}' (some 2)).2 : Nat) = 38 by decide +kernel]
    rfl

end L2J.Pkg
