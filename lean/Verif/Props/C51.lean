import Verif.Props.C34
import Verif.Props.C42
import Verif.Lemmas.Wrapped
import Verif.Lemmas.NatStr
/-! C51: the use of a user-defined command is replaced by its definition with the arguments put in. -/
namespace L2J.Cmds
open L2J Spec

/-- A use of a command: optional arguments, required arguments (blanks before each), and what follows. -/
structure _root_.L2J.Spec.CmdUse where
  opts : List (Str × Str)
  reqs : List (Str × Str)
  rest : Str

/-- What is written behind the name. -/
def _root_.L2J.Spec.CmdUse.tail (u : CmdUse) : Str := wrapAll '[' ']' u.opts ++ (wrapAll '{' '}' u.reqs ++ u.rest)

/-- The use fits a definition with `num` parameters, of which the first are optional with the given defaults: not too many arguments, each in
its brackets, and what follows cannot be taken for a missing one (nor for a part of the name). -/
def _root_.L2J.Spec.CmdUse.Fits (u : CmdUse) (num : Nat) (defaults : List Str) : Prop :=
  WellWrapped '[' ']' u.opts ∧ WellWrapped '{' '}' u.reqs ∧ u.opts.length ≤ defaults.length ∧ u.reqs.length ≤ num - defaults.length ∧
  (u.opts.length < defaults.length → ((wrapAll '{' '}' u.reqs ++ u.rest).dropWhile isSpace).head? ≠ some '[') ∧
  (u.reqs.length < num - defaults.length → (u.rest.dropWhile isSpace).head? ≠ some '{') ∧
  (u.opts = [] → u.reqs = [] → ∀ c, u.rest.head? = some c → isNameChar c = false)

/-- What the parameters stand for: the arguments given, the defaults of the optional ones not given, nothing for required ones not given. -/
def _root_.L2J.Spec.CmdUse.arguments (u : CmdUse) (num : Nat) (defaults : List Str) : List Str :=
  (u.opts.map (·.2) ++ defaults.drop u.opts.length) ++ (u.reqs.map (·.2) ++ List.replicate (num - defaults.length - u.reqs.length) [])

theorem overlay_eq : ∀ (ds bs : List Str), bs.length ≤ ds.length → overlay ds bs = bs ++ ds.drop bs.length
  | [], [], _ => rfl
  | [], _ :: _, h => by simp at h
  | d :: ds, [], _ => rfl
  | d :: ds, b :: bs, h => by
    rw [overlay, overlay_eq ds bs (by simpa using h)]; simp

theorem useArgs_spec (u : CmdUse) (num : Nat) (defaults : List Str) (hd : defaults.length ≤ num) (hu : u.Fits num defaults) (pre : Str) :
    useArgs num defaults (pre ++ u.tail) pre.length =
      (u.arguments num defaults, pre.length + (wrapAll '[' ']' u.opts).length + (wrapAll '{' '}' u.reqs).length) := by
  obtain ⟨h1, h2, h3, h4, h5, h6, _⟩ := hu
  have hopt : (if defaults.length = 0 then (defaults, pre.length) else
      (overlay defaults (seqBlocks ((pre ++ u.tail).drop pre.length) '[' ']' (some defaults.length)).1,
        (seqBlocks ((pre ++ u.tail).drop pre.length) '[' ']' (some defaults.length)).2 + pre.length)) =
      (u.opts.map (·.2) ++ defaults.drop u.opts.length, pre.length + (wrapAll '[' ']' u.opts).length) := by
    by_cases h0 : defaults.length = 0
    · have hd0 : defaults = [] := List.eq_nil_of_length_eq_zero h0
      have ho : u.opts = [] := List.eq_nil_of_length_eq_zero (by omega)
      rw [if_pos h0, ho, hd0]; simp [wrapAll]
    · rw [if_neg h0, List.drop_left]
      have hseq : seqBlocks u.tail '[' ']' (some defaults.length) = (u.opts.map (·.2), (wrapAll '[' ']' u.opts).length) := by
        by_cases hlt : u.opts.length < defaults.length
        · have := seqBlocks_wrap_more '[' ']' (by decide) (by decide) (by decide) u.opts (defaults.length - u.opts.length)
            (wrapAll '{' '}' u.reqs ++ u.rest) h1 (h5 hlt)
          rwa [show u.opts.length + (defaults.length - u.opts.length) = defaults.length by omega] at this
        · have := seqBlocks_wrap '[' ']' (by decide) (by decide) (by decide) u.opts (wrapAll '{' '}' u.reqs ++ u.rest) h1
          rwa [show u.opts.length = defaults.length by omega] at this
      rw [hseq]
      simp only
      rw [overlay_eq _ _ (by simpa using h3), List.length_map, Nat.add_comm]
  have hdrop : (pre ++ u.tail).drop (pre.length + (wrapAll '[' ']' u.opts).length) = wrapAll '{' '}' u.reqs ++ u.rest := by
    rw [← List.drop_drop, List.drop_left]; unfold CmdUse.tail; rw [List.drop_left]
  have hlen : (u.opts.map (·.2) ++ defaults.drop u.opts.length).length = defaults.length := by simp; omega
  unfold useArgs
  rw [show (if defaults.length = 0 then (defaults, pre.length) else
      (let r := seqBlocks ((pre ++ u.tail).drop pre.length) '[' ']' (some defaults.length); (overlay defaults r.1, r.2 + pre.length))) =
      (u.opts.map (·.2) ++ defaults.drop u.opts.length, pre.length + (wrapAll '[' ']' u.opts).length) from hopt]
  simp only [hdrop]
  by_cases h0 : num - defaults.length > 0
  · have hseq : seqBlocks (wrapAll '{' '}' u.reqs ++ u.rest) '{' '}' (some (num - defaults.length)) =
        (u.reqs.map (·.2), (wrapAll '{' '}' u.reqs).length) := by
      by_cases hlt : u.reqs.length < num - defaults.length
      · have := seqBlocks_wrap_more '{' '}' (by decide) (by decide) (by decide) u.reqs (num - defaults.length - u.reqs.length) u.rest h2 (h6 hlt)
        rwa [show u.reqs.length + (num - defaults.length - u.reqs.length) = num - defaults.length by omega] at this
      · have := seqBlocks_wrap '{' '}' (by decide) (by decide) (by decide) u.reqs u.rest h2
        rwa [show u.reqs.length = num - defaults.length by omega] at this
    simp only [h0, if_true, hseq]
    unfold CmdUse.arguments
    rw [Prod.mk.injEq]
    refine ⟨?_, by omega⟩
    rw [List.append_assoc]
    congr 3
    rw [List.length_append, hlen, List.length_map]; omega
  · have hr : u.reqs = [] := List.eq_nil_of_length_eq_zero (by omega)
    simp only [h0, if_false]
    unfold CmdUse.arguments
    rw [hr, Prod.mk.injEq]
    refine ⟨?_, by simp [wrapAll]⟩
    rw [hlen]; simp [show num - defaults.length = 0 by omega]

theorem space_not_name : ∀ c : Char, isNameChar c = true → isSpace c = false := by
  intro c hc
  simp only [isNameChar, isLetter, Bool.or_eq_true, Bool.and_eq_true, decide_eq_true_eq, beq_iff_eq] at hc
  have hv : 64 ≤ c.toNat ∧ c.toNat ≤ 122 := by
    rcases hc with (hc | hc) | hc
    · have a1 := Char.le_def.1 hc.1; have a2 := Char.le_def.1 hc.2
      simp only [UInt32.le_iff_toNat_le] at a1 a2; exact ⟨by have : 'a'.val.toNat = 97 := rfl; unfold Char.toNat; omega, by have : 'z'.val.toNat = 122 := rfl; unfold Char.toNat; omega⟩
    · have a1 := Char.le_def.1 hc.1; have a2 := Char.le_def.1 hc.2
      simp only [UInt32.le_iff_toNat_le] at a1 a2; exact ⟨by have : 'A'.val.toNat = 65 := rfl; unfold Char.toNat; omega, by have : 'Z'.val.toNat = 90 := rfl; unfold Char.toNat; omega⟩
    · rw [hc]; decide
  cases hs : isSpace c with
  | false => rfl
  | true => exfalso; simp [isSpace] at hs; omega

theorem tail_head (u : CmdUse) (num : Nat) (defaults : List Str) (hu : u.Fits num defaults) : ∀ c, u.tail.head? = some c → isNameChar c = false := by
  obtain ⟨h1, h2, _, _, _, _, h7⟩ := hu
  have key : ∀ (o c : Char) (l : List (Str × Str)) (r : Str), isNameChar o = false → WellWrapped o c l → l ≠ [] →
      ∀ x, (wrapAll o c l ++ r).head? = some x → isNameChar x = false := by
    intro o c l r ho hl hne x hx
    cases l with
    | nil => exact absurd rfl hne
    | cons e l =>
      obtain ⟨ws, a⟩ := e
      have hw := (hl (ws, a) (by simp)).1
      cases ws with
      | nil => simp [wrapAll] at hx; rw [← hx]; exact ho
      | cons w ws =>
        simp [wrapAll] at hx
        have := hw w (by simp)
        rw [← hx]
        have ns := space_not_name
        cases hb : isNameChar w with
        | false => rfl
        | true => rw [ns w hb] at this; cases this
  intro c hc
  by_cases ho : u.opts = []
  · by_cases hr : u.reqs = []
    · apply h7 ho hr c
      unfold CmdUse.tail at hc; rw [ho, hr] at hc; simpa [wrapAll] using hc
    · unfold CmdUse.tail at hc
      rw [ho] at hc
      exact key '{' '}' u.reqs u.rest (by decide) h2 hr c (by simpa [wrapAll] using hc)
  · exact key '[' ']' u.opts _ (by decide) h1 ho c hc

/-- C51: after any history of plain definitions in which `\newcommand{\n}[num][defaults]{content}` is the last for `\n`, a use of `\n` is
replaced by the content with the parameters standing for the arguments given, the declared defaults of optional ones not given, and nothing
for other missing ones; exactly the use is consumed. Excluded: a content that uses the command itself, or that begins with `\@ifstar`
(for which see `C51_star_partial`), and a replacement that is the bare command again. -/
theorem C51_use_partial (cfg : Cfg) (hcfg : Letters cfg) (before after : List (Def × Bool)) (n content : Str) (num : Nat) (defaults : List Str)
    (hd : defaults.length ≤ num) (hpl : ∀ x ∈ before ++ (.newcommand n content num defaults false, false) :: after, PlainDef x.1) (p0 p : Proc)
    (h0 : registerAll cfg Proc.empty before = some (.ok p0))
    (h : registerAll cfg Proc.empty (before ++ (.newcommand n content num defaults false, false) :: after) = some (.ok p))
    (hw : n ∉ whitelisted) (hself : (newcommandUsage cfg n).search content = none)
    (hstar : startsWith (strip content) "\\@ifstar".toList = false)
    (hsame : ∀ x ∈ before, Meant x.1 n → x.1.place = ⟨false, n⟩) (hafter : ∀ x ∈ after, ¬ Meant x.1 n)
    (hn : n ≠ [] ∧ ∀ c ∈ n, isLetter c = true) (u : CmdUse) (hu : u.Fits num defaults) :
    ∃ out, Substitutes content (u.arguments num defaults) out ∧
      (out ≠ '\\' :: n → p.handle cfg ('\\' :: (n ++ u.tail)) =
        (out, ('\\' :: n).length + (wrapAll '[' ']' u.opts).length + (wrapAll '{' '}' u.reqs).length)) := by
  refine ⟨_, Envs.substitutes cfg.alpha content (u.arguments num defaults), fun hout => ?_⟩
  have hcond : conditional cfg content (newcommandUsage cfg n) = (.plain content, newcommandUsage cfg n) := by
    unfold conditional; simp only [hstar]; rfl
  have hent : entryOf cfg p0 (.newcommand n content num defaults false) false =
      some (.ok (some ⟨newcommandUsage cfg n, if num = 0 then .body (.plain content) else .args num defaults (.plain content), false⟩)) := by
    unfold entryOf
    have h1 : ((Def.newcommand n content num defaults false).name.isEmpty ||
        whitelisted.contains (Def.newcommand n content num defaults false).name) = false := by
      simp only [Def.name, Bool.or_eq_false_iff]
      exact ⟨by simpa using hn.1, by simpa using hw⟩
    simp only [h1, Bool.false_eq_true, if_false, Def.usage, guarded, hself, newcommandEntry, hcond, Option.isSome_none,
      Bool.and_false]
  have hr := tail_head u num defaults hu
  obtain ⟨_, hh⟩ := C34_latest_partial cfg hcfg before after (.newcommand n content num defaults false) false n hpl p0 p _ h0 hent h rfl
    hsame hafter u.tail (.inl ⟨hn.1, hn.2, hr⟩)
  have hmat := newcommand_match cfg n u.tail [] hr
  rw [hh _ hmat rfl]
  have htext : (⟨[], '\\' :: (n ++ u.tail), n.length + 1, []⟩ : Match).text = '\\' :: n := by
    simp [Match.text]
  rw [htext]
  have hrun : (if num = 0 then Handler.body (.plain content) else .args num defaults (.plain content)).run cfg
      ⟨[], '\\' :: (n ++ u.tail), n.length + 1, []⟩ ('\\' :: (n ++ u.tail)) false =
      (substituteArgs cfg.alpha content ((u.arguments num defaults).map some) false,
        ('\\' :: n).length + (wrapAll '[' ']' u.opts).length + (wrapAll '{' '}' u.reqs).length) := by
    by_cases hnum : num = 0
    · have hd0 : defaults = [] := List.eq_nil_of_length_eq_zero (by omega)
      obtain ⟨_, _, h3, h4, _⟩ := hu
      have ho : u.opts = [] := List.eq_nil_of_length_eq_zero (by rw [hd0] at h3; simpa using h3)
      have hq : u.reqs = [] := List.eq_nil_of_length_eq_zero (by omega)
      rw [if_pos hnum]
      simp [Handler.run, Body.get, Match.stop, CmdUse.arguments, ho, hq, hd0, hnum, wrapAll, substituteArgs]
    · rw [if_neg hnum]
      have := useArgs_spec u num defaults hd hu ('\\' :: n)
      simp only [Handler.run, Body.get, Match.stop, List.length_nil, Nat.zero_add]
      rw [show n.length + 1 = ('\\' :: n).length from rfl, show '\\' :: (n ++ u.tail) = ('\\' :: n) ++ u.tail from rfl, this]
  simp only [hrun]
  rw [if_neg (fun hc => hout hc.symm)]

/-- C51, the starred form: for a command defined as `\@ifstar{t}{f}...` the starred use is replaced by `t` and the other by `f`, with
what follows the conditional. How the conditional is read is a parameter of the model. -/
theorem C51_star_partial (cfg : Cfg) (hcfg : Letters cfg) (before after : List (Def × Bool)) (n content t f : Str) (e : Nat)
    (hpl : ∀ x ∈ before ++ (.newcommand n content 0 [] false, false) :: after, PlainDef x.1) (p0 p : Proc)
    (h0 : registerAll cfg Proc.empty before = some (.ok p0))
    (h : registerAll cfg Proc.empty (before ++ (.newcommand n content 0 [] false, false) :: after) = some (.ok p))
    (hw : n ∉ whitelisted) (hself : (newcommandUsage cfg n).search content = none)
    (hstar : startsWith (strip content) "\\@ifstar".toList = true) (hif : cfg.ifstar (strip content) = some (t, f, e))
    (hsame : ∀ x ∈ before, Meant x.1 n → x.1.place = ⟨false, n⟩) (hafter : ∀ x ∈ after, ¬ Meant x.1 n)
    (hn : n ≠ [] ∧ ∀ c ∈ n, isLetter c = true) (rest : Str) :
    (t ++ (strip content).drop e ≠ '\\' :: (n ++ ['*']) →
      p.handle cfg ('\\' :: (n ++ '*' :: rest)) = (t ++ (strip content).drop e, n.length + 2)) ∧
    ((∀ c, rest.head? = some c → isNameChar c = false ∧ c ≠ '*') → f ++ (strip content).drop e ≠ '\\' :: n →
      p.handle cfg ('\\' :: (n ++ rest)) = (f ++ (strip content).drop e, n.length + 1)) := by
  have hcond : conditional cfg content (newcommandUsage cfg n) =
      (.star (t ++ (strip content).drop e) (f ++ (strip content).drop e), .seq (newcommandUsage cfg n) (.opt (.lit ['*']))) := by
    unfold conditional; simp only [hstar, hif]; rfl
  have hent : entryOf cfg p0 (.newcommand n content 0 [] false) false =
      some (.ok (some ⟨.seq (newcommandUsage cfg n) (.opt (.lit ['*'])),
        .body (.star (t ++ (strip content).drop e) (f ++ (strip content).drop e)), false⟩)) := by
    unfold entryOf
    have h1 : ((Def.newcommand n content 0 [] false).name.isEmpty ||
        whitelisted.contains (Def.newcommand n content 0 [] false).name) = false := by
      simp only [Def.name, Bool.or_eq_false_iff]
      exact ⟨by simpa using hn.1, by simpa using hw⟩
    simp only [h1, Bool.false_eq_true, if_false, Def.usage, guarded, hself, newcommandEntry, hcond, Option.isSome_none,
      Bool.and_false, if_true]
  have hlast : '*' ∉ n := fun hc => by have := hn.2 _ hc; revert this; decide
  refine ⟨fun hne => ?_, fun hr hne => ?_⟩
  · have hr : ∀ c, ('*' :: rest).head? = some c → isNameChar c = false := by
      intro c hc; simp at hc; rw [← hc]; decide
    obtain ⟨_, hh⟩ := C34_latest_partial cfg hcfg before after (.newcommand n content 0 [] false) false n hpl p0 p _ h0 hent h rfl
      hsame hafter ('*' :: rest) (.inl ⟨hn.1, hn.2, hr⟩)
    have hmat : (Re.seq (newcommandUsage cfg n) (.opt (.lit ['*']))).matchAt [] ('\\' :: (n ++ '*' :: rest)) =
        some ⟨[], '\\' :: (n ++ '*' :: rest), n.length + 2, []⟩ := by
      unfold Re.matchAt
      rw [show (Re.seq (newcommandUsage cfg n) (.opt (.lit ['*']))).run ⟨[], '\\' :: (n ++ '*' :: rest), []⟩ =
        ((newcommandUsage cfg n).run ⟨[], '\\' :: (n ++ '*' :: rest), []⟩).flatMap (Re.opt (.lit ['*'])).run from rfl,
        newcommand_run cfg n _ [] hr]
      simp [Re.opt, Re.lit, Re.run]
      omega
    rw [hh _ hmat rfl]
    have htext : (⟨[], '\\' :: (n ++ '*' :: rest), n.length + 2, []⟩ : Match).text = '\\' :: (n ++ ['*']) := by
      simp only [Match.text]
      rw [show '\\' :: (n ++ '*' :: rest) = ('\\' :: (n ++ ['*'])) ++ rest by simp, show n.length + 2 = ('\\' :: (n ++ ['*'])).length by simp,
        List.take_left]
    rw [htext]
    have he : endsWith ('\\' :: (n ++ ['*'])) ['*'] = true := by
      unfold endsWith; rw [List.isSuffixOf_iff_suffix]; exact ⟨'\\' :: n, rfl⟩
    simp only [Handler.run, Body.get, htext, he, if_true, Match.stop, List.length_nil, Nat.zero_add]
    rw [if_neg (fun hc => hne hc.symm)]
  · obtain ⟨_, hh⟩ := C34_latest_partial cfg hcfg before after (.newcommand n content 0 [] false) false n hpl p0 p _ h0 hent h rfl
      hsame hafter rest (.inl ⟨hn.1, hn.2, fun c hc => (hr c hc).1⟩)
    have hmat : (Re.seq (newcommandUsage cfg n) (.opt (.lit ['*']))).matchAt [] ('\\' :: (n ++ rest)) =
        some ⟨[], '\\' :: (n ++ rest), n.length + 1, []⟩ := by
      unfold Re.matchAt
      rw [show (Re.seq (newcommandUsage cfg n) (.opt (.lit ['*']))).run ⟨[], '\\' :: (n ++ rest), []⟩ =
        ((newcommandUsage cfg n).run ⟨[], '\\' :: (n ++ rest), []⟩).flatMap (Re.opt (.lit ['*'])).run from rfl,
        newcommand_run cfg n _ [] (fun c hc => (hr c hc).1)]
      cases rest with
      | nil => simp [Re.opt, Re.lit, Re.run]
      | cons x rest =>
        have := (hr x rfl).2
        simp [Re.opt, Re.lit, Re.run, this]
        omega
    rw [hh _ hmat rfl]
    have htext : (⟨[], '\\' :: (n ++ rest), n.length + 1, []⟩ : Match).text = '\\' :: n := by
      simp [Match.text]
    rw [htext]
    have he : endsWith ('\\' :: n) ['*'] = false := by
      cases hb : endsWith ('\\' :: n) ['*'] with
      | false => rfl
      | true =>
        exfalso
        unfold endsWith at hb
        rw [List.isSuffixOf_iff_suffix] at hb
        obtain ⟨y, hy⟩ := hb
        have : '*' ∈ '\\' :: n := by rw [← hy]; simp
        rcases List.mem_cons.1 this with h | h
        · revert h; decide
        · exact hlast h
    simp only [Handler.run, Body.get, htext, he, Match.stop, List.length_nil, Nat.zero_add]
    rw [if_neg (by simpa using fun hc => hne hc.symm)]
    simp

/-! `\def` with parameters. -/

/-- The first way to match. -/
def Hd (r : Re) (st st' : MSt) : Prop := (r.run st).head? = some st'

theorem Hd.seq {a b : Re} {s s1 s2 : MSt} (h1 : Hd a s s1) (h2 : Hd b s1 s2) : Hd (.seq a b) s s2 := by
  unfold Hd at *
  rw [show (Re.seq a b).run s = (a.run s).flatMap b.run from rfl]
  cases h : a.run s with
  | nil => rw [h] at h1; cases h1
  | cons x l =>
    rw [h] at h1; simp at h1; subst h1
    rw [List.flatMap_cons, List.head?_append, h2]; rfl

theorem Hd.left {a b : Re} {s s1 : MSt} (h1 : Hd a s s1) : Hd (.alt a b) s s1 := by
  unfold Hd at *
  rw [show (Re.alt a b).run s = a.run s ++ b.run s from rfl, List.head?_append, h1]; rfl

theorem Hd.right {a b : Re} {s s1 : MSt} (h0 : a.run s = []) (h1 : Hd b s s1) : Hd (.alt a b) s s1 := by
  unfold Hd at *
  rw [show (Re.alt a b).run s = a.run s ++ b.run s from rfl, h0, List.nil_append, h1]

theorem hd_lit (t rev rest : Str) (g : List (Nat × Str)) : Hd (.lit t) ⟨rev, t ++ rest, g⟩ ⟨t.reverse ++ rev, rest, g⟩ := by
  unfold Hd
  rw [Re.run_lit, if_pos (by rw [List.isPrefixOf_iff_prefix]; exact ⟨rest, rfl⟩), List.drop_left]; rfl

theorem hd_star_chr (p : Char → Bool) (a rest rev : Str) (g : List (Nat × Str)) (h1 : ∀ c ∈ a, p c = true) (h2 : ∀ c ∈ rest.head?, p c = false) :
    Hd (.star (.chr p)) ⟨rev, a ++ rest, g⟩ ⟨a.reverse ++ rev, rest, g⟩ := by
  unfold Hd
  rw [run_star_chr, charRuns_head?]
  have ht : (a ++ rest).takeWhile p = a ∧ (a ++ rest).dropWhile p = rest := by
    induction a with
    | nil =>
      cases rest with
      | nil => simp
      | cons c r => have := h2 c (by simp); simp [this]
    | cons c a ih =>
      have := ih (fun c hc => h1 c (by simp [hc]))
      have := h1 c (by simp)
      simp_all
  simp only [ht.1, ht.2]

theorem iter_stop {f : MSt → List MSt} (n : Nat) {st : MSt} (h : f st = []) : (iterGreedy f n st).head? = some st := by
  cases n with
  | zero => rfl
  | succ n => simp [iterGreedy, h]

theorem iter_step {f : MSt → List MSt} (n : Nat) {st st' : MSt} (h : (f st).head? = some st') (hl : st'.rest.length < st.rest.length) :
    (iterGreedy f (n + 1) st).head? = (iterGreedy f n st').head? := by
  cases hf : f st with
  | nil => rw [hf] at h; cases h
  | cons x l =>
    rw [hf] at h; simp at h; subst h
    have hne : (iterGreedy f n x) ≠ [] := by cases n <;> simp [iterGreedy]
    rw [iterGreedy, hf, List.filter_cons, if_pos (by simpa using hl), List.flatMap_cons, List.append_assoc, List.head?_append]
    cases hi : iterGreedy f n x with
    | nil => exact absurd hi hne
    | cons y m => rfl

/-- An argument whose braces are at most one deep. -/
inductive _root_.L2J.Spec.Shallow : Str → Prop
  | nil : Shallow []
  | chr (c : Char) (a : Str) : c ≠ '{' → c ≠ '}' → Shallow a → Shallow (c :: a)
  | grp (x a : Str) : '{' ∉ x → '}' ∉ x → Shallow a → Shallow ('{' :: (x ++ '}' :: a))

/-- The inner part of an argument pattern. -/
def innerRe : Re := .alt (.chr fun c => c != '{' && c != '}') (.alt (.lit "\\{".toList) (.alt (.lit "\\}".toList)
    (.seq (.lit ['{']) (.seq (.star (.chr fun c => c != '{' && c != '}')) (.lit ['}'])))))

theorem inner_chr (c : Char) (h1 : c ≠ '{') (h2 : c ≠ '}') (rev rest : Str) (g : List (Nat × Str)) :
    Hd innerRe ⟨rev, c :: rest, g⟩ ⟨c :: rev, rest, g⟩ := by
  apply Hd.left
  unfold Hd
  simp [Re.run, h1, h2]

theorem inner_grp (x rest rev : Str) (g : List (Nat × Str)) (h1 : '{' ∉ x) (h2 : '}' ∉ x) :
    Hd innerRe ⟨rev, '{' :: (x ++ '}' :: rest), g⟩ ⟨('{' :: (x ++ ['}'])).reverse ++ rev, rest, g⟩ := by
  apply Hd.right (by simp [Re.run])
  apply Hd.right (by simp [Re.lit, Re.run])
  apply Hd.right (by simp [Re.lit, Re.run])
  have a := hd_lit ['{'] rev (x ++ '}' :: rest) g
  have b := hd_star_chr (fun c => c != '{' && c != '}') x ('}' :: rest) ('{' :: rev) g (by
    intro c hc
    have h3 : c ≠ '{' := fun h => h1 (h ▸ hc)
    have h4 : c ≠ '}' := fun h => h2 (h ▸ hc)
    simp [h3, h4]) (by simp)
  have c := hd_lit ['}'] (x.reverse ++ '{' :: rev) rest g
  have := Hd.seq a (Hd.seq b c)
  simpa using this

theorem inner_stop (rev rest : Str) (g : List (Nat × Str)) : innerRe.run ⟨rev, '}' :: rest, g⟩ = [] := by
  simp [innerRe, Re.run, Re.lit]

theorem hd_inner {a : Str} (h : Shallow a) : ∀ (rest rev : Str) (g : List (Nat × Str)) (n : Nat), a.length ≤ n →
    (iterGreedy innerRe.run n ⟨rev, a ++ '}' :: rest, g⟩).head? = some ⟨a.reverse ++ rev, '}' :: rest, g⟩ := by
  induction h with
  | nil => intro rest rev g n _; exact iter_stop n (inner_stop rev rest g)
  | chr c a h1 h2 _ ih =>
    intro rest rev g n hn
    cases n with
    | zero => simp at hn
    | succ n =>
      rw [List.cons_append, iter_step n (inner_chr c h1 h2 rev _ g) (by simp), ih rest (c :: rev) g n (by simp at hn; omega)]
      simp
  | grp x a h1 h2 _ ih =>
    intro rest rev g n hn
    cases n with
    | zero => simp at hn
    | succ n =>
      have e : ('{' :: (x ++ '}' :: a)) ++ '}' :: rest = '{' :: (x ++ '}' :: (a ++ '}' :: rest)) := by simp
      rw [e, iter_step n (inner_grp x (a ++ '}' :: rest) rev g h1 h2) (by simp; omega), ih rest _ g n (by simp at hn; omega)]
      simp

theorem hd_arg (g : Nat) (ws a rest rev : Str) (gs : List (Nat × Str)) (hws : ∀ x ∈ ws, isSpace x = true) (ha : Shallow a) :
    Hd (argRe g) ⟨rev, ws ++ '{' :: (a ++ '}' :: rest), gs⟩ ⟨(ws ++ '{' :: (a ++ ['}'])).reverse ++ rev, rest, (g, a) :: gs⟩ := by
  have e : argRe g = .seq (.star reSpace) (.alt (.seq (.lit ['{']) (.seq (.group g (.star innerRe)) (.lit ['}'])))
    (.group (g + 1) (.seq (.chr fun c => c != '}') (.lazyStar (.chr fun c => c != '}'))))) := rfl
  rw [e]
  have h1 : Hd (.star reSpace) ⟨rev, ws ++ '{' :: (a ++ '}' :: rest), gs⟩ ⟨ws.reverse ++ rev, '{' :: (a ++ '}' :: rest), gs⟩ :=
    hd_star_chr isSpace ws ('{' :: (a ++ '}' :: rest)) rev gs hws (by simp; decide)
  have h2 := hd_lit ['{'] (ws.reverse ++ rev) (a ++ '}' :: rest) gs
  have h3 : Hd (.group g (.star innerRe)) ⟨'{' :: (ws.reverse ++ rev), a ++ '}' :: rest, gs⟩
      ⟨a.reverse ++ '{' :: (ws.reverse ++ rev), '}' :: rest, (g, a) :: gs⟩ := by
    have := hd_inner ha rest ('{' :: (ws.reverse ++ rev)) gs (a ++ '}' :: rest).length (by simp)
    unfold Hd
    rw [show (Re.group g (.star innerRe)).run ⟨'{' :: (ws.reverse ++ rev), a ++ '}' :: rest, gs⟩ =
      (iterGreedy innerRe.run (a ++ '}' :: rest).length ⟨'{' :: (ws.reverse ++ rev), a ++ '}' :: rest, gs⟩).map fun st' =>
      { st' with groups := (g, (a ++ '}' :: rest).take ((a ++ '}' :: rest).length - st'.rest.length)) :: st'.groups } from rfl,
      List.head?_map, this]
    simp
  have h4 := hd_lit ['}'] (a.reverse ++ '{' :: (ws.reverse ++ rev)) rest ((g, a) :: gs)
  have := Hd.seq h1 (Hd.left (b := .group (g + 1) (.seq (.chr fun c => c != '}') (.lazyStar (.chr fun c => c != '}')))) (Hd.seq h2 (Hd.seq h3 h4)))
  simpa using this

/-- The arguments of a use of a `\def`: blanks, the argument in braces, and the text that follows the parameter in the definition. -/
def _root_.L2J.Spec.defArgs : List (Str × Str × Str) → Str
  | [] => []
  | (ws, a, p) :: l => ws ++ '{' :: (a ++ '}' :: (p ++ defArgs l))

/-- The parameter text from `#i` on. -/
def _root_.L2J.Spec.paramText (i : Nat) : List (Str × Str × Str) → Str
  | [] => []
  | (_, _, p) :: l => '#' :: (natStr i ++ (p ++ paramText (i + 1) l))

/-- The groups that hold the arguments. -/
def bound (g : Nat) : List (Str × Str × Str) → List (Nat × Str) → List (Nat × Str)
  | [], acc => acc
  | (_, a, _) :: l, acc => bound (g + 2) l ((g, a) :: acc)

theorem hd_params : ∀ (l : List (Str × Str × Str)) (g : Nat) (rest rev : Str) (gs : List (Nat × Str)),
    (∀ e ∈ l, (∀ x ∈ e.1, isSpace x = true) ∧ Shallow e.2.1) →
    Hd (paramsRe g (l.map (·.2.2))) ⟨rev, defArgs l ++ rest, gs⟩ ⟨(defArgs l).reverse ++ rev, rest, bound g l gs⟩
  | [], g, rest, rev, gs, _ => by simp [paramsRe, defArgs, bound, Hd, Re.run]
  | (ws, a, p) :: l, g, rest, rev, gs, h => by
    obtain ⟨h1, h2⟩ := h (ws, a, p) (by simp)
    have e : defArgs ((ws, a, p) :: l) ++ rest = ws ++ '{' :: (a ++ '}' :: (p ++ (defArgs l ++ rest))) := by simp [defArgs]
    have k1 := hd_arg g ws a (p ++ (defArgs l ++ rest)) rev gs h1 h2
    have k2 := hd_lit p ((ws ++ '{' :: (a ++ ['}'])).reverse ++ rev) (defArgs l ++ rest) ((g, a) :: gs)
    have k3 := hd_params l (g + 2) rest (p.reverse ++ ((ws ++ '{' :: (a ++ ['}'])).reverse ++ rev)) ((g, a) :: gs) (fun e he => h e (by simp [he]))
    rw [e]
    have := Hd.seq k1 (Hd.seq k2 k3)
    simpa [paramsRe, bound, defArgs] using this

theorem bound_find : ∀ (l : List (Str × Str × Str)) (g : Nat) (acc : List (Nat × Str)) (j : Nat), (∀ e ∈ acc, e.1 < g) →
    ((bound g l acc).find? (·.1 == j)).map (·.2) =
      if j < g then (acc.find? (·.1 == j)).map (·.2) else if (j - g) % 2 = 0 then (l[(j - g) / 2]?).map (·.2.1) else none
  | [], g, acc, j, h => by
    simp only [bound]
    by_cases hj : j < g
    · rw [if_pos hj]
    · rw [if_neg hj]
      have : acc.find? (·.1 == j) = none := by
        rw [List.find?_eq_none]; intro e he; have := h e he; simp; omega
      rw [this]; simp
  | (ws, a, p) :: l, g, acc, j, h => by
    rw [bound, bound_find l (g + 2) ((g, a) :: acc) j (by
      intro e he
      rcases List.mem_cons.1 he with rfl | he
      · simp
      · have := h e he; omega)]
    by_cases h1 : j < g
    · rw [if_pos h1, if_pos (by omega), List.find?_cons_of_neg (by simp; omega)]
    · rw [if_neg h1]
      by_cases h2 : j < g + 2
      · rw [if_pos h2]
        by_cases h3 : j = g
        · subst h3; simp
        · rw [List.find?_cons_of_neg (by simp; omega), if_neg (by omega)]
          have : acc.find? (·.1 == j) = none := by
            rw [List.find?_eq_none]; intro e he; have := h e he; simp; omega
          rw [this]; rfl
      · rw [if_neg h2]
        by_cases h3 : (j - g) % 2 = 0
        · rw [if_pos (by omega), if_pos h3]
          have : (j - g) / 2 = (j - (g + 2)) / 2 + 1 := by omega
          rw [this, List.getElem?_cons_succ]
        · rw [if_neg (by omega), if_neg h3]

theorem collect : ∀ (as : List Str) (g : Nat) (F : Nat → Option Str),
    (∀ i, i < as.length → F (g + 2 * i) = as[i]? ∧ F (g + 2 * i + 1) = none) → (List.range' g (2 * as.length)).filterMap F = as
  | [], g, F, _ => rfl
  | a :: as, g, F, h => by
    have h0 := h 0 (by simp)
    rw [List.length_cons, show 2 * (as.length + 1) = 2 * as.length + 1 + 1 by omega, List.range'_succ, List.range'_succ]
    rw [List.filterMap_cons, List.filterMap_cons]
    simp only [Nat.mul_zero, Nat.add_zero, List.getElem?_cons_zero] at h0
    rw [h0.1, h0.2]
    simp only
    congr 1
    apply collect as (g + 1 + 1) F
    intro i hi
    have := h (i + 1) (by simp; omega)
    rw [List.getElem?_cons_succ] at this
    rw [show g + 1 + 1 + 2 * i = g + 2 * (i + 1) by omega]
    exact this

theorem cutParam_hit : ∀ (p ds r : Str), '#' ∉ p → ds ≠ [] → (∀ d ∈ ds, isDigit d = true) → (∀ c ∈ r.head?, isDigit c = false) →
    cutParam (p ++ '#' :: (ds ++ r)) = some (p, r)
  | [], ds, r, _, h1, h2, h3 => by
    have hd : (ds ++ r).dropWhile isDigit = r := by
      clear h1
      induction ds with
      | nil =>
        cases r with
        | nil => rfl
        | cons c r => have := h3 c (by simp); simp [this]
      | cons d ds ih => have := h2 d (by simp); simp [this, ih (fun d hd => h2 d (by simp [hd]))]
    cases ds with
    | nil => exact absurd rfl h1
    | cons d ds =>
      have := h2 d (by simp)
      rw [List.nil_append]
      unfold cutParam
      simp only [List.cons_append, List.head?_cons, Option.map_some, this, Option.getD_some, if_true]
      rw [← List.cons_append, hd]
  | c :: p, ds, r, h0, h1, h2, h3 => by
    have hc : c ≠ '#' := fun h => h0 (by simp [h])
    rw [List.cons_append]
    unfold cutParam
    split
    · rename_i h; cases h
    · rename_i h; injection h with h4 h5; exact absurd h4 hc
    · rename_i h
      injection h with h4 h5
      subst h4; subst h5
      rw [cutParam_hit p ds r (fun h => h0 (by simp [h])) h1 h2 h3]; rfl

theorem cutParam_none : ∀ (p : Str), '#' ∉ p → cutParam p = none
  | [], _ => rfl
  | c :: p, h => by
    have hc : c ≠ '#' := fun h' => h (by simp [h'])
    unfold cutParam
    split
    · rfl
    · rename_i h'; injection h' with h4 h5; exact absurd h4 hc
    · rename_i h'
      injection h' with h4 h5
      subst h4; subst h5
      rw [cutParam_none p (fun h' => h (by simp [h']))]; rfl

theorem isDigit_nat {n : Nat} : ∀ d ∈ natStr n, isDigit d = true := by
  intro d hd
  have := natStr_digits n d hd
  simp only [isDigit, Bool.and_eq_true, decide_eq_true_eq, Char.le_def, UInt32.le_iff_toNat_le]
  have h0 : '0'.val.toNat = 48 := rfl
  have h9 : '9'.val.toNat = 57 := rfl
  unfold Char.toNat at this
  omega

theorem pieces_params : ∀ (l : List (Str × Str × Str)) (i fuel : Nat) (p0 : Str), l.length ≤ fuel → '#' ∉ p0 →
    (∀ e ∈ l, '#' ∉ e.2.2 ∧ ∀ c ∈ e.2.2.head?, isDigit c = false) →
    pieces fuel (p0 ++ paramText i l) = p0 :: l.map (·.2.2)
  | [], i, fuel, p0, _, h0, _ => by
    simp only [paramText, List.append_nil, List.map_nil]
    cases fuel with
    | zero => rfl
    | succ n => rw [pieces, cutParam_none p0 h0]
  | (ws, a, p) :: l, i, fuel, p0, hf, h0, h => by
    obtain ⟨h1, h2⟩ := h (ws, a, p) (by simp)
    cases fuel with
    | zero => simp at hf
    | succ n =>
      have hc : cutParam (p0 ++ paramText i ((ws, a, p) :: l)) = some (p0, p ++ paramText (i + 1) l) := by
        apply cutParam_hit p0 (natStr i) (p ++ paramText (i + 1) l) h0 (natStr_ne_nil i) isDigit_nat
        intro c hc
        cases p with
        | cons x p => simp at hc; exact h2 c (by simpa using hc)
        | nil =>
          cases l with
          | nil => simp [paramText] at hc
          | cons e l =>
            obtain ⟨_, _, q⟩ := e
            simp [paramText] at hc; rw [← hc]; decide
      rw [pieces, hc]
      simp only [List.map_cons]
      rw [pieces_params l (i + 1) n p (by simp at hf; omega) h1 (fun e he => h e (by simp [he]))]

/-- C51, `\def`: after any history of plain definitions in which `\def\n p0#1p1#2p2...{content}` is the last for `\n`, a use in which each
argument is in braces (with braces at most one deep inside) is replaced by the content with the parameters standing for the arguments;
exactly the use is consumed. Partial: deeper braces, see `C51_violated_def_nested`. -/
theorem C51_def_partial (cfg : Cfg) (hcfg : Letters cfg) (before after : List (Def × Bool)) (n content p0 : Str) (l : List (Str × Str × Str))
    (hl : l ≠ []) (hp0 : '#' ∉ p0) (hps : ∀ e ∈ l, '#' ∉ e.2.2 ∧ ∀ c ∈ e.2.2.head?, isDigit c = false)
    (hargs : ∀ e ∈ l, (∀ x ∈ e.1, isSpace x = true) ∧ Shallow e.2.1)
    (hpl : ∀ x ∈ before ++ (.def_ n (p0 ++ paramText 1 l) content false none, false) :: after, PlainDef x.1) (q0 p : Proc)
    (h0 : registerAll cfg Proc.empty before = some (.ok q0))
    (h : registerAll cfg Proc.empty (before ++ (.def_ n (p0 ++ paramText 1 l) content false none, false) :: after) = some (.ok p))
    (hw : n ∉ whitelisted)
    (hsame : ∀ x ∈ before, Meant x.1 n → x.1.place = ⟨false, n⟩) (hafter : ∀ x ∈ after, ¬ Meant x.1 n)
    (hn : n ≠ [] ∧ ∀ c ∈ n, isLetter c = true) (rest : Str) :
    ∃ out, Substitutes content (l.map (·.2.1)) out ∧
      (out ≠ '\\' :: (n ++ (p0 ++ defArgs l)) →
        p.handle cfg ('\\' :: (n ++ (p0 ++ defArgs l ++ rest))) = (out, n.length + p0.length + (defArgs l).length + 1)) := by
  refine ⟨_, Envs.substitutes cfg.alpha content (l.map (·.2.1)), fun hout => ?_⟩
  have hnhash : '#' ∉ n := fun hc => by have := hn.2 _ hc; revert this; decide
  have hpieces : pieces (n ++ (p0 ++ paramText 1 l)).length (n ++ (p0 ++ paramText 1 l)) = (n ++ p0) :: l.map (·.2.2) := by
    rw [← List.append_assoc]
    refine pieces_params l 1 _ (n ++ p0) ?_ (by simp [hnhash, hp0]) hps
    have : ∀ (l : List (Str × Str × Str)) i, l.length ≤ (paramText i l).length := by
      intro l
      induction l with
      | nil => intro i; simp
      | cons e l ih => intro i; obtain ⟨_, _, q⟩ := e; have := ih (i + 1); simp [paramText]; omega
    have := this l 1
    simp; omega
  obtain ⟨e1, l1, hel⟩ : ∃ e1 l1, l = e1 :: l1 := by cases l with | nil => exact absurd rfl hl | cons a b => exact ⟨a, b, rfl⟩
  have hbody : defBody cfg 1 (n ++ (p0 ++ paramText 1 l)) =
      (.seq (.lit (n ++ p0)) (.seq (if (((n ++ p0).getLast?.map fun c => cfg.alpha c || c == '@').getD false) then suffixRe else .eps)
        (paramsRe 1 (l.map (·.2.2)))), l.length) := by
    unfold defBody
    rw [hpieces, hel]
    simp
  have hent : entryOf cfg q0 (.def_ n (p0 ++ paramText 1 l) content false none) false =
      some (.ok (some ⟨.seq (.lit ['\\']) (defBody cfg 1 (n ++ (p0 ++ paramText 1 l))).1, .groups (l.length * 2) (.plain content), false⟩)) := by
    unfold entryOf
    have h1 : ((Def.def_ n (p0 ++ paramText 1 l) content false none).name.isEmpty ||
        whitelisted.contains (Def.def_ n (p0 ++ paramText 1 l) content false none).name) = false := by
      simp only [Def.name, Bool.or_eq_false_iff]
      exact ⟨by simpa using hn.1, by simpa using hw⟩
    have hlen : l.length ≠ 0 := by rw [hel]; simp
    simp only [h1, Bool.false_eq_true, if_false, Def.usage, Def.numGroups, hbody, hlen, withCsname, Option.isSome_none]
  -- what follows the name cannot belong to it
  have hfirst : ∀ (rest : Str) c, (defArgs l ++ rest).head? = some c → isNameChar c = false := by
    intro rest c hc
    obtain ⟨ws, a, q⟩ := e1
    have hws := (hargs (ws, a, q) (by rw [hel]; simp)).1
    rw [hel] at hc
    cases ws with
    | nil => simp [defArgs] at hc; rw [← hc]; decide
    | cons w ws =>
      simp [defArgs] at hc
      rw [← hc]
      cases hb : isNameChar w with
      | false => rfl
      | true => have := hws w (by simp); rw [space_not_name w hb] at this; cases this
  have hrest : ∀ c, (p0 ++ defArgs l ++ rest).head? = some c → isNameChar c = false := by
    intro c hc
    cases hp : p0 with
    | nil => rw [hp] at hc; exact hfirst rest c (by simpa using hc)
    | cons x p1 =>
      have := hpl (.def_ n (p0 ++ paramText 1 l) content false none, false) (by simp)
      have h2 := this.2
      rw [hp] at h2 hc
      exact h2 c (by simpa using hc)
  obtain ⟨_, hh⟩ := C34_latest_partial cfg hcfg before after (.def_ n (p0 ++ paramText 1 l) content false none) false n hpl q0 p _ h0 hent h rfl
    hsame hafter (p0 ++ defArgs l ++ rest) (.inl ⟨hn.1, hn.2, hrest⟩)
  have hmat : (Re.seq (.lit ['\\']) (defBody cfg 1 (n ++ (p0 ++ paramText 1 l))).1).matchAt [] ('\\' :: (n ++ (p0 ++ defArgs l ++ rest))) =
      some ⟨[], '\\' :: (n ++ (p0 ++ defArgs l ++ rest)), n.length + p0.length + (defArgs l).length + 1, bound 1 l []⟩ := by
    have k1 := hd_lit ['\\'] [] ((n ++ p0) ++ (defArgs l ++ rest)) []
    have k2 := hd_lit (n ++ p0) ['\\'] (defArgs l ++ rest) []
    have k3 : Hd (if (((n ++ p0).getLast?.map fun c => cfg.alpha c || c == '@').getD false) then suffixRe else .eps)
        ⟨(n ++ p0).reverse ++ ['\\'], defArgs l ++ rest, []⟩ ⟨(n ++ p0).reverse ++ ['\\'], defArgs l ++ rest, []⟩ := by
      split
      · unfold Hd
        cases hx : defArgs l ++ rest with
        | nil => rfl
        | cons x r =>
          have := hfirst rest x (by rw [hx]; rfl)
          simp [suffixRe, Re.run, this]
      · rfl
    have k4 := hd_params l 1 rest ((n ++ p0).reverse ++ ['\\']) [] hargs
    have k := Hd.seq k1 (Hd.seq k2 (Hd.seq k3 k4))
    rw [hbody]
    unfold Hd at k
    have e : ['\\'] ++ ((n ++ p0) ++ (defArgs l ++ rest)) = '\\' :: (n ++ (p0 ++ defArgs l ++ rest)) := by simp
    rw [e] at k
    unfold Re.matchAt
    split
    · rename_i hx; rw [hx] at k; cases k
    · rename_i st r hx
      rw [hx] at k
      simp only [List.head?_cons, Option.some.injEq] at k
      rw [k]
      simp only [Option.some.injEq, Match.mk.injEq, and_true, true_and]
      simp; omega
  rw [hh _ hmat rfl]
  have htext : (⟨[], '\\' :: (n ++ (p0 ++ defArgs l ++ rest)), n.length + p0.length + (defArgs l).length + 1, bound 1 l []⟩ : Match).text =
      '\\' :: (n ++ (p0 ++ defArgs l)) := by
    simp only [Match.text]
    rw [show '\\' :: (n ++ (p0 ++ defArgs l ++ rest)) = ('\\' :: (n ++ (p0 ++ defArgs l))) ++ rest by simp,
      show n.length + p0.length + (defArgs l).length + 1 = ('\\' :: (n ++ (p0 ++ defArgs l))).length by simp; omega, List.take_left]
  have hgroups : (List.range (l.length * 2)).filterMap (fun i =>
      (⟨[], '\\' :: (n ++ (p0 ++ defArgs l ++ rest)), n.length + p0.length + (defArgs l).length + 1, bound 1 l []⟩ : Match).group (i + 1)) =
      l.map (·.2.1) := by
    have hr : ∀ (F : Nat → Option Str) k, (List.range k).filterMap (fun i => F (i + 1)) = (List.range' 1 k).filterMap F := by
      intro F k
      rw [List.range'_eq_map_range, List.filterMap_map]
      congr 1
      funext i
      simp [Nat.add_comm]
    rw [hr]
    have := collect (l.map (·.2.1)) 1 (fun j => (⟨[], '\\' :: (n ++ (p0 ++ defArgs l ++ rest)), n.length + p0.length + (defArgs l).length + 1, bound 1 l []⟩ : Match).group j) (by
      intro i hi
      simp only [Match.group]
      rw [bound_find l 1 [] (1 + 2 * i) (by simp), bound_find l 1 [] (1 + 2 * i + 1) (by simp)]
      rw [if_neg (by omega), if_pos (by omega), if_neg (by omega), if_neg (by omega)]
      refine ⟨?_, rfl⟩
      rw [show (1 + 2 * i - 1) / 2 = i by omega, List.getElem?_map])
    rw [List.length_map] at this
    rw [Nat.mul_comm]
    exact this
  rw [htext]
  simp only [Handler.run, Body.get, hgroups, Match.stop, List.length_nil, Nat.zero_add]
  rw [if_neg (fun hc => hout hc.symm)]

/-- `\newcommand{\n}[num][defaults]{content}` -/
def newcommand1 (n content : String) (num : Nat) (defaults : List String) : Def × Bool :=
  (.newcommand n.toList content.toList num (defaults.map String.toList) false, false)

/-- The hypotheses are met: a command with an optional argument, redefined, used with and without it. -/
example : (registerAll cfg0 Proc.empty ([newcommand0 "foo" "old", newcommand0 "bar" "B"] ++ newcommand1 "foo" "<#2|#1>" 2 ["d"] ::
      [newcommand0 "baz" "C"])).isSome = true ∧
    (after0 [newcommand0 "foo" "old", newcommand0 "bar" "B", newcommand1 "foo" "<#2|#1>" 2 ["d"], newcommand0 "baz" "C"]).handle cfg0
      "\\foo[x] {y{z}} and".toList = ("<y{z}|x>".toList, 14) ∧
    (after0 [newcommand0 "foo" "old", newcommand0 "bar" "B", newcommand1 "foo" "<#2|#1>" 2 ["d"], newcommand0 "baz" "C"]).handle cfg0
      "\\foo{y} and".toList = ("<y|d>".toList, 7) := by
  refine ⟨?_, ?_, ?_⟩ <;> decide +kernel

/-- A use that fits: an optional argument, a required one behind a blank, and text. -/
example : (⟨[([], "x".toList)], [([' '], "y".toList)], " and".toList⟩ : CmdUse).Fits 2 ["d".toList] := by
  have w : ∀ (o c : Char) (x : Char), x ≠ o → x ≠ c → x ≠ '\\' → Wrappable o c [x] := by
    intro o c x h1 h2 h3
    refine ⟨⟨?_, ?_⟩, ?_⟩
    · intro j hj
      match j, hj with
      | 0, _ => simp [level]
      | 1, _ => simp [level, liveAt, h1, h2]
    · simp [level, liveAt, h1, h2]
    · simp [escapedAt, h3]
  refine ⟨?_, ?_, by decide, by decide, by intro h; revert h; decide, by intro h; revert h; decide, by intro h; cases h⟩
  · intro e he; simp at he; subst he
    exact ⟨by simp, w '[' ']' 'x' (by decide) (by decide) (by decide)⟩
  · intro e he; simp at he; subst he
    exact ⟨by simp; decide, w '{' '}' 'y' (by decide) (by decide) (by decide)⟩

/-- `\def\pair#1,#2.{<#2|#1>}`, used with both arguments in braces. -/
example : (after0 [newcommand0 "foo" "old", def0 "pair" "#1,#2." "<#2|#1>"]).handle cfg0 "\\pair {a{b}},{c}. d".toList =
      ("<c|a{b}>".toList, 17) ∧ "#1,#2.".toList = paramText 1 [([' '], "a{b}".toList, ",".toList), ([], "c".toList, ".".toList)] ∧
    Shallow "a{b}".toList := by
  refine ⟨by decide +kernel, by decide, ?_⟩
  exact .chr 'a' _ (by decide) (by decide) (.grp ['b'] [] (by decide) (by decide) .nil)

/-- C51, violated: an argument of a `\newcommand` that is not in braces is not found. In TeX the first letter is the argument of `\foo`
in `\foo x`. -/
theorem C51_violated_unbraced (cfg : Cfg) (hcfg : Letters cfg) (before after : List (Def × Bool)) (n content : Str)
    (hpl : ∀ x ∈ before ++ (.newcommand n content 1 [] false, false) :: after, PlainDef x.1) (p0 p : Proc)
    (h0 : registerAll cfg Proc.empty before = some (.ok p0))
    (h : registerAll cfg Proc.empty (before ++ (.newcommand n content 1 [] false, false) :: after) = some (.ok p))
    (hw : n ∉ whitelisted) (hself : (newcommandUsage cfg n).search content = none)
    (hstar : startsWith (strip content) "\\@ifstar".toList = false)
    (hsame : ∀ x ∈ before, Meant x.1 n → x.1.place = ⟨false, n⟩) (hafter : ∀ x ∈ after, ¬ Meant x.1 n)
    (hn : n ≠ [] ∧ ∀ c ∈ n, isLetter c = true) (x : Char) (hx : isSpace x = false) (hx2 : x ≠ '{') (rest : Str) :
    ∃ out, Substitutes content [[]] out ∧ (out ≠ '\\' :: n → p.handle cfg ('\\' :: (n ++ ' ' :: x :: rest)) = (out, n.length + 1)) := by
  obtain ⟨out, h1, h2⟩ := C51_use_partial cfg hcfg before after n content 1 [] (by simp) hpl p0 p h0 h hw hself hstar hsame hafter hn
    ⟨[], [], ' ' :: x :: rest⟩ ⟨by intro e he; simp at he, by intro e he; simp at he, by simp, by simp, by simp, by
      intro _; have : isSpace ' ' = true := by decide
      simp [this, hx, hx2], by intro _ _ c hc; simp at hc; rw [← hc]; decide⟩
  exact ⟨out, h1, fun ho => h2 ho⟩

/-- C51, violated: an argument of a `\def` with braces two deep. The opening brace alone is taken for the argument, and the rest of it
stays in the text. -/
theorem C51_violated_def_nested : (after0 [def0 "foo" "#1" "<#1>"]).handle cfg0 "\\foo{a{b{c}}}".toList = ("<{>".toList, 5) := by
  decide +kernel

/-! In formulas a replacement may be put in braces. -/

/-- The first and the last character of a text without the blanks at its ends. -/
def _root_.L2J.Spec.firstOf (t : Str) : Option Char := (strip t).head?
def _root_.L2J.Spec.lastOf (t : Str) : Option Char := (strip t).getLast?

/-- The replacement `out` of `text[a:b]` would run together with a letter or digit next to it. -/
def _root_.L2J.Spec.RunsInto (alnum : Char → Bool) (out text : Str) (a b : Nat) : Prop :=
  (∃ c d, firstOf out = some c ∧ alnum c = true ∧ 0 < a ∧ text[a - 1]? = some d ∧ alnum d = true) ∨
  (∃ c d, lastOf out = some c ∧ alnum c = true ∧ text[b]? = some d ∧ alnum d = true)

/-- The replacement in braces: as it is if it has some at both ends. -/
def _root_.L2J.Spec.InBraces (out t : Str) : Prop :=
  t = '{' :: (strip out ++ ['}']) ∨ (t = strip out ∧ firstOf out = some '{' ∧ lastOf out = some '}')

theorem wrap_braces (out : Str) : InBraces out (wrapArg out) := by
  unfold wrapArg
  by_cases h : (startsWith (strip out) ['{'] && endsWith (strip out) ['}']) = true
  · simp only [h, if_true]
    simp only [Bool.and_eq_true, startsWith, endsWith, List.isPrefixOf_iff_prefix, List.isSuffixOf_iff_suffix] at h
    obtain ⟨⟨x, hx⟩, ⟨y, hy⟩⟩ := h
    exact .inr ⟨rfl, by unfold firstOf; rw [← hx]; rfl, by unfold lastOf; rw [← hy]; simp⟩
  · simp only [h]
    exact .inl (by simp)

theorem runs_wrap (cfg : Cfg) (out text : Str) (a b : Nat) (h : RunsInto cfg.alnum out text a b) : shouldWrap cfg out text a b = true := by
  unfold shouldWrap
  simp only
  rcases h with ⟨c, d, h1, h2, h3, h4, h5⟩ | ⟨c, d, h1, h2, h4, h5⟩
  · unfold firstOf at h1
    rw [h1]
    cases hl : (strip out).getLast? with
    | none => rw [List.getLast?_eq_none_iff] at hl; rw [hl] at h1; cases h1
    | some cl => simp [h2, h3, h4, h5]
  · unfold lastOf at h1
    rw [h1]
    cases hl : (strip out).head? with
    | none => rw [List.head?_eq_none_iff] at hl; rw [hl] at h1; cases h1
    | some c0 =>
      simp only [h2, h4, h5, Option.map_some, Option.getD_some, Bool.and_true, if_true]
      generalize (decide (a > 0) && cfg.alnum c0 && _) = b
      cases b <;> rfl

/-- C51, formulas: the same part of the text is replaced, by the same text or by it in braces; and in braces if it would otherwise run
together with a letter or digit next to it. -/
theorem C51_math_apart (cfg : Cfg) (e : Entry) (text : Str) (m : Match) :
    (subFn cfg e true text m).2 = (e.handler.run cfg m text true).2 ∧
    ((subFn cfg e true text m).1 = (e.handler.run cfg m text true).1 ∨
      InBraces (e.handler.run cfg m text true).1 (subFn cfg e true text m).1) ∧
    (RunsInto cfg.alnum (e.handler.run cfg m text true).1 text m.start (e.handler.run cfg m text true).2 →
      InBraces (e.handler.run cfg m text true).1 (subFn cfg e true text m).1) := by
  generalize hr : e.handler.run cfg m text true = r
  have hs : subFn cfg e true text m = if shouldWrap cfg r.1 text m.start r.2 then (wrapArg r.1, r.2) else r := by
    unfold subFn; simp only [hr, Bool.true_and]
  rw [hs]
  refine ⟨by split <;> rfl, ?_, ?_⟩
  · split
    · exact .inr (wrap_braces r.1)
    · exact .inl rfl
  · intro h
    rw [if_pos (runs_wrap cfg r.1 text m.start r.2 h)]
    exact wrap_braces r.1

/-- C51, formulas: nothing is put in braces without a reason: the replacement runs into a neighbour, or it begins with a command that is not
all of it and stands as an index or exponent or ends with a separate word. -/
theorem C51_math_reason (cfg : Cfg) (e : Entry) (text : Str) (m : Match)
    (h1 : ¬ RunsInto cfg.alnum (e.handler.run cfg m text true).1 text m.start (e.handler.run cfg m text true).2)
    (h2 : firstOf (e.handler.run cfg m text true).1 ≠ some '\\' ∨ m.start = 0 ∨
      (∃ w, strip (e.handler.run cfg m text true).1 = '\\' :: w ∧ w ≠ [] ∧ ∀ c ∈ w, cfg.alpha c = true)) :
    subFn cfg e true text m = e.handler.run cfg m text true := by
  generalize hr : e.handler.run cfg m text true = r at h1 h2 ⊢
  have hs : subFn cfg e true text m = if shouldWrap cfg r.1 text m.start r.2 then (wrapArg r.1, r.2) else r := by
    unfold subFn; simp only [hr, Bool.true_and]
  rw [hs, if_neg]
  intro hw
  unfold shouldWrap at hw
  simp only at hw
  generalize hbf : (if m.start > 0 then text[m.start - 1]? else none) = before at hw
  split at hw
  · rename_i c0 cl hc0 hcl
    split at hw
    · rename_i hb
      simp only [Bool.and_eq_true, decide_eq_true_eq] at hb
      obtain ⟨⟨hb1, hb2⟩, hb3⟩ := hb
      rw [← hbf, if_pos hb1] at hb3
      cases hd : text[m.start - 1]? with
      | none => rw [hd] at hb3; cases hb3
      | some d => rw [hd] at hb3; exact h1 (.inl ⟨c0, d, hc0, hb2, hb1, hd, hb3⟩)
    · split at hw
      · rename_i hb
        simp only [Bool.and_eq_true] at hb
        cases hd : text[r.2]? with
        | none => rw [hd] at hb; cases hb.2
        | some d => rw [hd] at hb; exact h1 (.inr ⟨cl, d, hcl, hb.1, hd, hb.2⟩)
      · split at hw
        · rename_i hb
          split at hw
          · rename_i hb4
            simp only [Bool.and_eq_true, Bool.not_eq_true', decide_eq_true_eq] at hb4
            rcases h2 with h2 | h2 | ⟨w, hw1, hw2, hw3⟩
            · apply h2; unfold firstOf; rw [hc0]; simpa using hb
            · omega
            · have : (!((strip r.1).drop 1).isEmpty && ((strip r.1).drop 1).all cfg.alpha) = true := by
                rw [hw1]; simp only [List.drop_succ_cons, List.drop_zero, Bool.and_eq_true, List.all_eq_true]
                exact ⟨by cases w with | nil => exact absurd rfl hw2 | cons _ _ => rfl, hw3⟩
              rw [this] at hb4; simp at hb4
          · cases hw
        · cases hw
  · cases hw

/-- `a\x b` with `\x` defined as `y`, in a formula: the replacement would give `ay b`. -/
example : (subFn cfg0 ⟨newcommandUsage cfg0 "x".toList, .body (.plain "y".toList), false⟩ true "a\\x b".toList ⟨"a".toList, "\\x b".toList, 2, []⟩).1 =
    "{y}".toList ∧ RunsInto cfg0.alnum "y".toList "a\\x b".toList 1 3 :=
  ⟨by decide +kernel, .inl ⟨'y', 'a', by decide +kernel, by decide, by decide, by decide, by decide⟩⟩

end L2J.Cmds
