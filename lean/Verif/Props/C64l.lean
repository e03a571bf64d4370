import Verif.Props.C64k
/-! C64: where the preprocessor goes wrong, and a document it reads. -/
namespace L2J.Pre
open Cmds Defn L2J.Spec

/-! Definitions that go round in a circle. -/

theorem Res.prepend_nil {V} (r : Res V) : r.prepend [] = r := by cases r <;> rfl

theorem process_running {V} {cfg : Cfg V} {fuel : Nat} {st : St V} {s : Str} (h : loop cfg fuel { st with blocks := [] } s = .running) : process cfg fuel st s = .running := by
  unfold process; rw [h]

/-- C64 is violated: where `\n` stands for `\m` and `\m` for `\n`, one use of `\n` and the preprocessor never ends. -/
theorem C64_violated_cycle {V} (cfg : Cfg V) (ho : SomeOrder cfg.order) (hl : Letters cfg.cmds) (st : St V) (h : List (Def × Bool)) (k : Known cfg h st) (n m rest : Str)
    (hn : n ≠ [] ∧ ∀ c ∈ n, isLetter c = true) (hm : m ≠ [] ∧ ∀ c ∈ m, isLetter c = true) (wn : n ∉ whitelisted) (wm : m ∉ whitelisted) (un : Unmeant [] n rest) (um : Unmeant [] m rest)
    (sn : StandsFor h n ('\\' :: m)) (sm : StandsFor h m ('\\' :: n)) (fuel : Nat) : process cfg fuel st ('\\' :: (n ++ rest)) = .running := by
  have key : ∀ fuel (st : St V), Known cfg h st → loop cfg fuel st ('\\' :: (n ++ rest)) = .running ∧ loop cfg fuel st ('\\' :: (m ++ rest)) = .running := by
    intro fuel
    induction fuel with
    | zero => intro st _; exact ⟨rfl, rfl⟩
    | succ f ih =>
      intro st k
      obtain ⟨i1, i2⟩ := ih st k
      constructor
      · rw [loop_eq, ends_hit un.name un.plain]
        simp only [act_use ho hl k un wn hn sn]
        rw [List.cons_append, i2, Res.prepend_nil]
      · rw [loop_eq, ends_hit um.name um.plain]
        simp only [act_use ho hl k um wm hm sm]
        rw [List.cons_append, i1, Res.prepend_nil]
  exact process_running (key fuel { st with blocks := [] } ⟨k.reg, k.plain, k.ifs⟩).1

/-! Single documents. -/

/-- A configuration to try things out: no numbers are formatted, no packages or classes are found. -/
def exCfg : Cfg Unit where
  cmds := cfg0
  fmt x _ := x
  order := formulaEnvs.map String.toList
  eqFmt := Fmt.mathFormatter fun x _ => x
  env := ⟨.none, fun _ => false, fun _ => (.none, 0)⟩
  packages _ := []
  classes _ := []

/-- The text that comes out. -/
def Res.text {V} : Res V → Option Str
  | .done _ t => some t
  | _ => none

/-- What is made of a document. -/
def made (s : String) : Option Str := (preprocess exCfg 60 (fresh ⟨Boxes.empty, []⟩) s.toList).text

/-! A document that is read. -/

instance (ws : List String) (s : Str) : Decidable (Without ws s) := inferInstanceAs (Decidable (∀ w ∈ ws, ¬ w.toList <+: s))

instance (c : Char) : Decidable (Harmless c) := inferInstanceAs (Decidable (_ ∧ _))

instance (s sub : Str) : Decidable (Contains s sub) :=
  if h : sub = [] then isTrue ⟨[], s, by simp [h]⟩ else decidable_of_iff _ (findSub_contains sub h s)

instance (w rest : Str) : Decidable (NotLayoutMath w rest) := inferInstanceAs (Decidable (_ ∧ _))

instance (w rest : Str) : Decidable (NotLayout w rest) := inferInstanceAs (Decidable (_ ∧ _))

theorem Becomes.chars {fm pk} : ∀ (t : Str) {h rest h' out ts}, (∀ c ∈ t, Harmless c) → Becomes fm pk h rest h' out ts → Becomes fm pk h (t ++ rest) h' (t ++ out) ts
  | [], _, _, _, _, _, _, hr => hr
  | c :: t, _, _, _, _, _, ht, hr => .char c (ht c (by simp)) (Becomes.chars t (fun d hd => ht d (by simp [hd])) hr)

theorem noFormula_name {w rest : Str} (h : ∀ c ∈ w.head?, c ≠ 'b' ∧ c ≠ '[' ∧ c ≠ '(') (hw : w ≠ []) : NoFormula ('\\' :: (w ++ rest)) := by
  left
  cases w with
  | nil => exact absurd rfl hw
  | cons c w =>
    obtain ⟨h1, h2, h3⟩ := h c (by simp)
    rintro (⟨t, h⟩ | ⟨t, h⟩ | ⟨t, h⟩ | ⟨n, _, u, star, _, t, h⟩)
    · simp at h
    · simp at h; exact h2 h.1.symm
    · simp at h; exact h3 h.1.symm
    · unfold tag at h; simp at h; exact h1 h.1.symm

/-- `\documentclass[12pt]{article}`. -/
def exClass : PackageText := ⟨"\\documentclass", [], some "12pt".toList, [], "article".toList⟩

/-- `\newcommand{\R}{real}`. -/
def exDef : NewCommandText := ⟨"\\newcommand", false, [], true, "R".toList, none, [], [], "real".toList⟩

/-- The document. -/
def exDoc : Str := "% a comment\n\\documentclass[12pt]{article}\\newcommand{\\R}{real}A \\R{} ``number'' $x+y$, \\emph{not}\\par z 50\\%".toList

/-- What is made of it, and the definition met. -/
theorem ex_document : Document (fun w => Accepts exCfg w.render) exCfg.packages exCfg.classes [] (stripLatexComments exDoc) [(.newcommand "R".toList "real".toList 0 [] false, false)]
    "A real{} \"number\" $x+y$, \\emph{not} z 50\\%".toList [exDef.meaning] := by
  have hs : stripLatexComments exDoc = "\n".toList ++ (exClass.written ++ (exDef.written ++ ("A ".toList ++ ('\\' :: ("R".toList ++ ("{} ".toList ++ (['`', '`'] ++ ("number".toList ++
    (['\'', '\''] ++ (" ".toList ++ ((Formula.inline "x+y".toList).render ++ (", ".toList ++ ('\\' :: ("emph".toList ++ ("{not}".toList ++ ("\\par".toList ++ " z 50\\%".toList)))))))))))))))) := by
    decide +kernel
  rw [hs]
  have ho : SomeOrder exCfg.order := fun n => by
    show n ∈ formulaEnvs.map String.toList ↔ _
    rw [List.mem_map]
    constructor
    · rintro ⟨x, hx, rfl⟩; exact ⟨x, hx, rfl⟩
    · rintro ⟨x, hx, rfl⟩; exact ⟨x, hx, rfl⟩
  have hen : entered exDef.meaning false = [(.newcommand "R".toList "real".toList 0 [] false, false)] := by decide +kernel
  refine .cls _ exClass _ (by decide +kernel) rfl ?_ (by simp [exCfg, loaded]) ?_
  · unfold PackageText.Ok Blank; decide +kernel
  rw [show [] ++ loaded (exCfg.classes (strip exClass.names)) = [] from rfl]
  refine .define exDef.written exDef.meaning (.newcommand exDef _ ?_) ?_ ?_ ?_
  · refine ⟨by decide, by unfold Blank; decide, ⟨by decide, by decide⟩, by simp [exDef], by simp [exDef], by simp [exDef], by unfold Blank; decide, EnvT.wrappable_plain _ _ _ (by decide +kernel) (by decide +kernel)⟩
  · rintro (h | ⟨a, d, b, h, _⟩)
    · exact absurd h (by decide)
    · have : '#' ∈ exDef.body := by rw [h]; simp
      revert this; decide
  · rw [hen]
    intro x hx
    rw [List.mem_singleton.1 hx]
    exact ⟨.inl ⟨by decide, by decide⟩, trivial⟩
  rw [hen]
  refine Becomes.chars "A ".toList (by decide +kernel) ?_
  refine .use "R".toList "real".toList ⟨.inl ⟨by decide, by decide, by decide⟩, by decide, by decide +kernel, by decide +kernel, by decide +kernel, noFormula_name (by decide) (by decide), by simp⟩
    (by decide) ⟨by decide, by decide⟩ ⟨[], [], _, rfl, .inl rfl, by simp, by simp, by decide +kernel, by decide +kernel⟩ ?_
  refine Becomes.chars "real".toList (by decide +kernel) (Becomes.chars "{} ".toList (by decide +kernel) ?_)
  refine .double "number".toList (by decide +kernel) ?_
  refine Becomes.chars "number".toList (by decide +kernel) (.char '"' (by decide +kernel) (Becomes.chars " ".toList (by decide +kernel) ?_))
  refine .formula (.inline "x+y".toList) (C64_formula_plain exCfg ho _ (show '$' ∉ "x+y".toList by decide) (by decide) (by decide)
    ⟨rfl, (EnvT.wrappable_plain _ _ _ (by decide +kernel) (by decide +kernel)).1⟩) ?_
  refine Becomes.chars ", ".toList (by decide +kernel) ?_
  refine .command "emph".toList ⟨.inl ⟨by decide, by decide, by decide⟩, by decide, by decide +kernel, by decide +kernel, by decide +kernel, noFormula_name (by decide) (by decide), ?_⟩ ?_
  · intro x hx
    rw [List.mem_singleton.1 hx]
    show ¬ "emph".toList = "R".toList
    decide
  refine Becomes.chars "emph".toList (by decide +kernel) (Becomes.chars "{not}".toList (by decide +kernel) ?_)
  refine .layout "\\par".toList [] (.silent "\\par" _ (by decide) (by unfold WordEnds; decide)) ?_
  refine Becomes.chars " z 50".toList (by decide +kernel) (.escaped '%' (by decide) (.nil _))

/-- The theorem about it. -/
example : ∃ st' N t, st'.toks = [exDef.meaning] ∧ Tidied "A real{} \"number\" $x+y$, \\emph{not} z 50\\%".toList t ∧
    ∀ fuel, N ≤ fuel → preprocess exCfg fuel (fresh ⟨Boxes.empty, []⟩) exDoc = .done st' t :=
  C64_fresh exCfg (fun n => by
    show n ∈ formulaEnvs.map String.toList ↔ _
    rw [List.mem_map]
    constructor
    · rintro ⟨x, hx, rfl⟩; exact ⟨x, hx, rfl⟩
    · rintro ⟨x, hx, rfl⟩; exact ⟨x, hx, rfl⟩) cfg0_letters _ _ _ _ _ ex_document (by decide +kernel) (by decide +kernel) (by decide +kernel)

/-- Definitions that go round in a circle. -/
def exCircle : List (Def × Bool) := [(.def_ "a".toList [] "\\b".toList false none, false), (.def_ "b".toList [] "\\a".toList false none, false)]

/-- The definition of a circle. -/
example : StandsFor exCircle "a".toList "\\b".toList ∧ StandsFor exCircle "b".toList "\\a".toList ∧ Unmeant [] "a".toList " x".toList ∧ Unmeant [] "b".toList " x".toList := by
  refine ⟨⟨[], _, _, rfl, .inr (.inl rfl), by simp, ?_, by decide +kernel, by decide +kernel⟩, ⟨[_], [], _, rfl, .inr (.inl rfl), ?_, by simp, by decide +kernel, by decide +kernel⟩,
    ⟨.inl ⟨by decide, by decide, by decide⟩, by decide, by decide +kernel, by decide +kernel, by decide +kernel, noFormula_name (by decide) (by decide), by simp⟩,
    ⟨.inl ⟨by decide, by decide, by decide⟩, by decide, by decide +kernel, by decide +kernel, by decide +kernel, ?_, by simp⟩⟩
  · intro x hx
    rw [List.mem_singleton.1 hx]
    rintro (h | ⟨h, _⟩)
    · exact absurd h (by decide)
    · exact h rfl
  · intro x hx
    rw [List.mem_singleton.1 hx]
    rintro (h | ⟨h, _⟩)
    · exact absurd h (by decide)
    · exact absurd rfl h
  · left
    rintro (⟨t, h⟩ | ⟨t, h⟩ | ⟨t, h⟩ | ⟨n, _, u, star, _, t, h⟩)
    · simp at h
    · simp at h
    · simp at h
    · unfold tag at h; simp at h

end L2J.Pre
