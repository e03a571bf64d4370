import Verif.Props.C64i
import Verif.Lemmas.EnvBlock
/-! C64: the whole preprocessor: comments, class, definitions and uses, whitespace. -/
namespace L2J.Spec
open Cmds

/-- Reading a document, its comments taken away. `cl` is what the files of a class define. What stands before the class declaration is not read at all (see `C64_violated_before_class`). -/
inductive Document (fm : Formula → Prop) (pk cl : Str → List Defn.Tok) (h : List (Def × Bool)) : Str → List (Def × Bool) → Str → List Defn.Tok → Prop
  /-- No class is declared. -/
  | bare (s : Str) {h' out ts} : ¬ Contains s "\\documentclass".toList → Becomes fm pk h s h' out ts → Document fm pk cl h s h' out ts
  /-- `\documentclass[…]{…}`: what the class defines counts from here on. -/
  | cls (pre : Str) (p : PackageText) (body : Str) {h' out ts} : ¬ Contains pre "\\documentclass".toList → p.word = "\\documentclass" → p.Ok →
      (∀ x ∈ loaded (cl (strip p.names)), PlainDef x.1) → Becomes fm pk (h ++ loaded (cl (strip p.names))) body h' out ts →
      Document fm pk cl h (pre ++ (p.written ++ body)) h' out (cl (strip p.names) ++ ts)

/-- `t` is `s` with its blanks put in order: runs of blanks are replaced by others and those at the ends are gone; program listings and the like are untouched. -/
def Tidied (s t : Str) : Prop :=
  ∃ bs last bs' last', BlockSplit allVerbatimPatterns s bs last ∧ SameBlocks bs bs' ∧ SameButBlanks last last' ∧ t = weaveTrimmed bs' last'

end L2J.Spec
namespace L2J.Pre
open Cmds Defn L2J.Spec

/-- A word without a second backslash begins only where it is written. -/
theorem word_skip {kw u v R : Str} (hkw : '\\' ∉ kw) (hn : ¬ Contains (u ++ v) ('\\' :: kw)) (hv : v ≠ []) : ¬ '\\' :: kw <+: v ++ '\\' :: R := by
  intro hp
  rcases Fmt.prefix_split hp with ⟨t, ht⟩ | ⟨c, t, e, hc⟩
  · exact hn ⟨u, t, by rw [← ht]; simp⟩
  · cases v with
    | nil => exact hv rfl
    | cons a v =>
      rw [List.cons_append] at e
      obtain ⟨r, hr⟩ := hc
      simp only [List.cons_append, List.cons.injEq] at hr e
      refine hkw ?_
      rw [e.2, hr.1]; simp

theorem class_none {s : Str} (h : ¬ Contains s "\\documentclass".toList) : documentclassRe.search s = none := by
  unfold Re.search
  rcases Re.searchFrom_spec documentclassRe s [] with ⟨h1, _⟩ | ⟨k, m, hk, h1, h2, _⟩
  · exact h1
  · exfalso
    have hd : ¬ "\\documentclass".toList <+: s.drop k := by
      rintro ⟨t, ht⟩
      refine h ⟨s.take k, t, ?_⟩
      rw [List.append_assoc, ht, List.take_append_drop]
    have := (show Dead documentclassRe (s.drop k) from Dead.seq (Dead.lit hd)).matchAt ((s.take k).reverse ++ [])
    rw [this] at h2; cases h2

theorem class_found {pre body : Str} {p : PackageText} (hpre : ¬ Contains pre "\\documentclass".toList) (hw : p.word = "\\documentclass") (hp : p.Ok) :
    ∃ m, documentclassRe.search (pre ++ (p.written ++ body)) = some m ∧ m.group 1 = some p.names ∧ m.stop = (pre ++ p.written).length := by
  have hwr : p.written = "\\documentclass".toList ++ (p.ws ++ (bracketed p.options ++ (p.ws2 ++ '{' :: (p.names ++ ['}'])))) := by
    unfold PackageText.written; rw [hw]
  unfold Re.search
  rw [searchFrom_skip documentclassRe pre [] (p.written ++ body)]
  · have he := packTail_eats hp body []
    have := (Eats.seq (g1 := []) (Eats.lit "\\documentclass".toList _ _) he).matchAt (pre.reverse ++ [])
    rw [← hwr] at this
    refine ⟨⟨pre.reverse ++ [], p.written ++ body, p.written.length, [(1, p.names)]⟩, ?_, rfl, ?_⟩
    · have hne : p.written ++ body = '\\' :: (p.written ++ body).tail := by rw [hwr]; rfl
      rw [hne] at this ⊢
      unfold Re.searchFrom
      rw [show documentclassRe.matchAt (pre.reverse ++ []) ('\\' :: (p.written ++ body).tail) = _ from this]
    · simp [Match.stop]
  · intro u v e hv
    refine (show Dead documentclassRe (v ++ (p.written ++ body)) from Dead.seq (Dead.lit ?_)).matchAt _
    have hne : p.written ++ body = '\\' :: (p.written ++ body).tail := by rw [hwr]; rfl
    rw [hne]
    exact word_skip (kw := "documentclass".toList) (u := u) (by decide) (by rw [← e]; exact hpre) hv

theorem documentclass_done {V} {cfg : Cfg V} (hl : Letters cfg.cmds) {h h'} {st : St V} {s out : Str} {ts} (k : Known cfg h st) {fm}
    (hd : Document fm cfg.packages cfg.classes h s h' out ts) :
    ∃ st1 h1 body ts1 ts2, documentclass cfg st s = some (.ok (st1, body)) ∧ Known cfg h1 st1 ∧ Becomes fm cfg.packages h1 body h' out ts2 ∧ st1.toks = st.toks ++ ts1 ∧ ts = ts1 ++ ts2 := by
  cases hd with
  | bare _ hn hb =>
    refine ⟨st, h, s, [], ts, ?_, k, hb, by simp, rfl⟩
    unfold documentclass; rw [class_none hn]
  | cls pre p body hpre hw hp hpl hb =>
    obtain ⟨m, h1, h2, h3⟩ := class_found (body := body) hpre hw hp
    obtain ⟨st1, a1, a2, a3, a4, a5⟩ := addAll_known hl _ k hpl
    refine ⟨{ st1 with toks := st1.toks ++ cfg.classes (strip p.names) }, _, body, _, _, ?_, ⟨a2.reg, a2.plain, a2.ifs⟩, hb, by simp [a5], rfl⟩
    unfold documentclass
    rw [h1]
    simp only [h2, Option.getD_some, a1, h3]
    rw [← List.append_assoc, List.drop_left]

/-- C64: preprocessing a document: its comments are taken away, it is read, and the blanks of the result are put in order. The markers that the code itself writes into the text
must not occur in it. -/
theorem C64_preprocess {V} (cfg : Cfg V) (ho : SomeOrder cfg.order) (hl : Letters cfg.cmds) (st : St V) (h h' : List (Def × Bool)) (s out : Str) (ts : List Defn.Tok) (k : Known cfg h st)
    (hd : Document (fun w => Accepts cfg w.render) cfg.packages cfg.classes h (stripLatexComments s) h' out ts)
    (hm : ¬ Contains out "MATH_BLOCK".toList) (hv : ¬ Contains out "VERBATIM_BLOCK".toList) (hpb : ¬ Contains out "<PARA_BREAK>".toList) :
    ∃ st' N t, Known cfg h' st' ∧ st'.toks = st.toks ++ ts ∧ Tidied out t ∧ ∀ fuel, N ≤ fuel → preprocess cfg fuel st s = .done st' t := by
  obtain ⟨st1, h1, body, ts1, ts2, d1, k1, hb, t1, rfl⟩ := documentclass_done hl k hd
  obtain ⟨st', N, k2, t2, hN⟩ := C64_process cfg ho hl st1 h1 h' body out ts2 k1 hb hm
  obtain ⟨bs, last, bs', last', b1, b2, b3, b4⟩ := C32_normalize_partial allVerbatimPatterns C32_patterns_wf out hv hpb
  refine ⟨st', N, _, k2, by rw [t2, t1, List.append_assoc], ⟨bs, last, bs', last', b1, b2, b3, b4⟩, fun fuel hf => ?_⟩
  unfold preprocess
  rw [d1]
  simp only [hN fuel hf]

/-- The state at the start. -/
def fresh {V} (e : Eqn.State V) : St V := { proc := Proc.empty, keys := [], ifs := [], eqn := e, blocks := [], toks := [] }

/-- C64: the same for a document of its own: nothing is defined at the start. -/
theorem C64_fresh {V} (cfg : Cfg V) (ho : SomeOrder cfg.order) (hl : Letters cfg.cmds) (e : Eqn.State V) (h' : List (Def × Bool)) (s out : Str) (ts : List Defn.Tok)
    (hd : Document (fun w => Accepts cfg w.render) cfg.packages cfg.classes [] (stripLatexComments s) h' out ts)
    (hm : ¬ Contains out "MATH_BLOCK".toList) (hv : ¬ Contains out "VERBATIM_BLOCK".toList) (hpb : ¬ Contains out "<PARA_BREAK>".toList) :
    ∃ st' N t, st'.toks = ts ∧ Tidied out t ∧ ∀ fuel, N ≤ fuel → preprocess cfg fuel (fresh e) s = .done st' t := by
  obtain ⟨st', N, t, _, t1, t2, t3⟩ := C64_preprocess cfg ho hl (fresh e) [] h' s out ts ⟨rfl, by simp, rfl⟩ hd hm hv hpb
  exact ⟨st', N, t, by simpa [fresh] using t1, t2, t3⟩

end L2J.Pre
