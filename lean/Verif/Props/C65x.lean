import Verif.Props.C65v
import Verif.Props.C69
/-! C65: the parser as a whole; pictures, and the commands of the packages for graphics and titles. -/
namespace L2J.Psr
open Cmds Defn L2J.Spec

/-- The names of the commands. -/
def _root_.L2J.Spec.graphicsNames : List Str :=
  ["begin", "usetikzlibrary", "usepgflibrary", "usepgfplotslibrary", "pgfplotsset", "titleformat", "titlespacing", "titlelabel", "titlecontents", "titleline"].map String.toList

/-- The token of a picture. -/
def _root_.L2J.Spec.drawn (id : Nat) : Option Pkg.Tok → List Tok
  | none => []
  | some (.diagram n c) => [.mk id "diagram".toList (.str c) [("name".toList, .str n)] none]
  | some (.graphic f) => [.mk id "includegraphics".toList (.str f) [] none]

theorem graphics_pass : ∀ w ∈ graphicsNames, passes w = true := by decide +kernel

theorem args_form {p t : Str} (h : ArgsText p t) : p ≠ [] → (∀ c, p.getLast? = some c → c = '{') → (∀ r, NameEnds (t ++ r)) ∧ t.getLast? = some '}' := by
  have : (∀ r, p ≠ [] → NameEnds (t ++ r)) ∧ ((∀ c, p.getLast? = some c → c = '{') → p ≠ [] → t.getLast? = some '}') := by
    induction h with
    | nil => exact ⟨fun r hr => absurd rfl hr, fun _ hr => absurd rfl hr⟩
    | braces ws x p t hw hx h ih =>
      refine ⟨fun r _ => ?_, fun hl _ => ?_⟩
      · rw [List.append_assoc]; exact (blank_head (s := x ++ '}' :: t ++ r) hw (by decide)).1
      · by_cases hp : p = []
        · subst hp; cases h; simp [List.getLast?_append, List.getLast?_cons]
        · have := ih.2 (fun c hc => hl c (by simp [List.getLast?_cons, hc])) hp
          rw [show ws ++ '{' :: (x ++ '}' :: t) = (ws ++ '{' :: (x ++ ['}'])) ++ t by simp, List.getLast?_append, this]; rfl
    | brackets ws x p t hw hx h ih =>
      refine ⟨fun r _ => ?_, fun hl _ => ?_⟩
      · rw [List.append_assoc]; exact (blank_head (s := x ++ ']' :: t ++ r) hw (by decide)).1
      · by_cases hp : p = []
        · subst hp; exact absurd (hl '[' rfl) (by decide)
        · have := ih.2 (fun c hc => hl c (by simp [List.getLast?_cons, hc])) hp
          rw [show ws ++ '[' :: (x ++ ']' :: t) = (ws ++ '[' :: (x ++ [']'])) ++ t by simp, List.getLast?_append, this]; rfl
    | without p t h ih => exact ⟨fun r _ => ih.1 r (by simp), fun hl _ => ih.2 (fun c hc => hl c (by simpa [List.getLast?_cons] using hc)) (by simp)⟩
  exact fun h1 h2 => ⟨fun r => this.1 r h1, this.2 h2 h1⟩

theorem graphics_form {t : Str} {o : Option Pkg.Tok} (h : GraphicsText t o) : (∃ w ∈ graphicsNames, ∃ x, t = '\\' :: (w ++ x) ∧ ∀ r, NameEnds (x ++ r)) ∧ t.getLast? = some '}' := by
  have pic : ∀ {n p body}, PictureText n p body → (∃ w ∈ graphicsNames, ∃ x, p = '\\' :: (w ++ x) ∧ ∀ r, NameEnds (x ++ r)) ∧ p.getLast? = some '}' := by
    rintro n _ body ⟨b, _, e, ⟨ws, hw, rfl⟩, _, ⟨ws', _, rfl⟩⟩
    refine ⟨⟨"begin".toList, by decide, ws ++ '{' :: (n ++ ['}']) ++ body ++ ("\\end".toList ++ ws' ++ '{' :: (n ++ ['}'])), ?_, fun r => ?_⟩, ?_⟩
    · rw [show "\\begin".toList = '\\' :: "begin".toList by decide]; simp only [List.append_assoc, List.cons_append]
    · simp only [List.append_assoc, List.cons_append]; exact (blank_head hw (by decide)).1
    · simp [List.getLast?_append, List.getLast?_cons]
  have cmd : ∀ (w : String) {p x : Str}, w.toList ∈ graphicsNames → ArgsText p x → p ≠ [] → (∀ c, p.getLast? = some c → c = '{') →
      (∃ v ∈ graphicsNames, ∃ y, '\\' :: (w.toList ++ x) = '\\' :: (v ++ y) ∧ ∀ r, NameEnds (y ++ r)) ∧ ('\\' :: (w.toList ++ x)).getLast? = some '}' := by
    intro w p x hw hx hp hl
    obtain ⟨h1, h2⟩ := args_form hx hp hl
    exact ⟨⟨_, hw, x, rfl, h1⟩, by rw [← List.cons_append, List.getLast?_append, h2]; rfl⟩
  cases h with
  | picture name p body hn h => exact pic h
  | overpic p body file h _ => exact pic h
  | setting t h =>
    cases h with
    | library w ws x hw hws hx =>
      simp only [List.mem_cons, List.not_mem_nil, or_false] at hw
      have hx' : ArgsText ['{'] (ws ++ '{' :: (x ++ ['}'])) := .braces ws x _ _ hws hx .nil
      rcases hw with rfl | rfl | rfl
      · exact cmd "usetikzlibrary" (by decide) hx' (by simp) (by simp)
      · exact cmd "usepgflibrary" (by decide) hx' (by simp) (by simp)
      · exact cmd "usepgfplotslibrary" (by decide) hx' (by simp) (by simp)
    | plots ws x hws hx => exact cmd "pgfplotsset" (by decide) (.braces ws x _ _ hws hx .nil : ArgsText ['{'] _) (by simp) (by simp)
  | title t h =>
    cases h with
    | format t h => exact cmd "titleformat" (by decide) h (by decide) (by decide)
    | spacing star t h =>
      cases star with
      | false => exact cmd "titlespacing" (by decide) h (by decide) (by decide)
      | true =>
        obtain ⟨_, h2⟩ := args_form h (by decide) (by decide)
        refine ⟨⟨"titlespacing".toList, by decide, '*' :: t, rfl, fun r c hc => ?_⟩, ?_⟩
        · simp at hc; subst hc; decide
        · rw [if_pos rfl, List.getLast?_append, List.getLast?_append, h2]; rfl
    | label t h => exact cmd "titlelabel" (by decide) h (by decide) (by decide)
    | contents t h => exact cmd "titlecontents" (by decide) h (by decide) (by decide)
    | line t h => exact cmd "titleline" (by decide) h (by decide) (by decide)
    | lineAt ws x t hw hx h =>
      obtain ⟨_, h2⟩ := args_form h (by decide) (by decide)
      refine ⟨⟨"titleline".toList, by decide, _, rfl, fun r => ?_⟩, ?_⟩
      · rw [List.append_assoc]; exact (blank_head hw (by decide)).1
      · rw [show "\\titleline".toList ++ (ws ++ '[' :: (x ++ ']' :: t)) = ("\\titleline".toList ++ (ws ++ '[' :: (x ++ [']']))) ++ t by simp, List.getLast?_append, h2]; rfl

/-- A picture becomes a token; settings and commands for titles leave nothing. -/
theorem Acts.package {V X} {cfg : Cfg V X} (hl : Letters cfg.cmds) {h} {st : St V X} (k : Known cfg h st) (toks : List Tok) (space : Bool) {t : Str} {o : Option Pkg.Tok} (ht : GraphicsText t o)
    (hu : ∀ m ∈ graphicsNames, ∀ x ∈ h, ¬ Meant x.1 m) (rest : Str) :
    Acts cfg st toks space (t ++ rest) { st with next := st.next + o.toList.length } ⟨toks ++ drawn st.next o, false, rest⟩ := by
  refine ⟨0, fun n _ => ?_⟩
  obtain ⟨⟨w, hw, x, e, hx⟩, hz⟩ := graphics_form ht
  have hpass := actAt_passed hl (parse cfg n) n .default k toks space (passes_spec (graphics_pass w hw) (hx rest) (hu w hw))
  have e' : '\\' :: (w ++ (x ++ rest)) = t ++ rest := by rw [e]; simp
  rw [e'] at hpass
  rw [hpass]
  unfold actHandlers handlers
  rw [if_pos (Pkg.package_accepts ht rest)]
  simp only [orElse]
  unfold Psr.package
  rw [Pkg.C69_package ht rest]
  have done : ∀ {ty : Str} (v : Val) (fs : List (Str × Val)), ty ∉ ["group", "environment", "list", "text"].map String.toList → ty ∉ ownTypes →
      processTok cfg (parse cfg n) false st.fresh (newTok st ty v fs) toks = .ok st.fresh (toks ++ [.mk st.next ty v fs none]) := by
    intro ty v fs h1 h2
    show processTok cfg (parse cfg n) false _ (.mk st.next ty v fs none) toks = _
    rw [process_plain cfg _ _ (.mk st.next ty v fs none) toks (show ty ∉ ownTypes from h2)]
    unfold add
    rw [adds_spec (adds_plain toks h1)]
  cases o with
  | none =>
    simp only [Res.bind]
    rw [move_ok _ _ _ _ _ rfl, endsBlank_last' _ hz]
    simp [drawn]
    decide
  | some d =>
    cases d with
    | diagram nm c =>
      simp only
      rw [done _ _ (by decide +kernel) (by decide +kernel)]
      simp only [Res.bind]
      rw [move_ok _ _ _ _ _ rfl, endsBlank_last' _ hz]
      rfl
    | graphic f =>
      simp only
      rw [done _ _ (by decide +kernel) (by decide +kernel)]
      simp only [Res.bind]
      rw [move_ok _ _ _ _ _ rfl, endsBlank_last' _ hz]
      rfl

/-! ### Loops -/

/-- A loop as it is written, without the backslash: its name, and what follows. The body of a `\foreach` opens with the last brace of its line. -/
inductive _root_.L2J.Spec.LoopText (rest : Str) : Str → Str → Prop
  | forloop (l : List (Str × Str)) : l.length = 4 → WellWrapped '{' '}' l → LoopText rest "forloop".toList (wrapAll '{' '}' l)
  | foreach (ws : Str) (c0 : Char) (range ws2 body : Str) : ws ≠ [] ∧ Blank ws → isSpace c0 = false → '\n' ∉ range → Blank ws2 → Wrappable '{' '}' body → LastBrace (body ++ '}' :: rest) →
      (rest.dropWhile isSpace).head? ≠ some '{' → LoopText rest "foreach".toList (ws ++ (c0 :: range ++ (ws2 ++ '{' :: (body ++ ['}']))))

def loopHeads : List String := ["\\tabular", "\\bgroup", "\\newenvironment", "\\renewenvironment", "\\provideenvironment", "\\begin"]

def loopName (w : Str) : Bool := passes w && notFirsts w && notContents w && clearOf loopHeads w && w.all isLetter

theorem loop_names : loopName "forloop".toList = true ∧ loopName "foreach".toList = true := by constructor <;> decide +kernel

theorem new_loop : ∀ k ∈ Envs.newKeywords, k ∈ loopHeads.map String.toList := by decide +kernel

theorem environment_loop {V X} (cfg : Cfg V X) (p : Parse V X) (st : St V X) (toks : List Tok) {s : Str} (h : Without loopHeads s) (hp : Eqn.matchPair s = none) : environment cfg p st toks s = none := by
  unfold environment envAccepts
  have hb : ¬ "\\begin".toList <+: s := Pre.not_word h (by decide +kernel)
  rw [EnvT.envMatch_none s hb hp, EnvT.groupMatch_none s hb (Pre.not_word h (by decide +kernel))]
  have : Envs.matchNew s = none := by
    unfold Envs.matchNew
    rw [show Envs.newKeywords.find? (fun k => startsWith s k) = none from ?_]
    rw [List.find?_eq_none]
    intro k hk
    rw [EnvT.startsWith_false (Pre.not_word h (new_loop k hk))]; simp
  rw [this]; rfl

theorem loop_form {rest w x : Str} (h : LoopText rest w x) : loopName w = true ∧ (NameEnds (x ++ rest) ∧ ∀ c ∈ (x ++ rest).head?, oddLetter c = false) ∧ ('\\' :: (w ++ x)).getLast? = some '}' := by
  cases h with
  | forloop l hl hw =>
    obtain ⟨h1, _⟩ := loop_names
    match l, hl with
    | [(a, x), (b, y), (c, z), (d, u)], _ =>
      refine ⟨h1, ?_, by simp [wrapAll, List.getLast?_append, List.getLast?_cons]⟩
      have := (hw (a, x) (by simp)).1
      simp only [wrapAll, List.append_assoc, List.cons_append]
      exact blank_head this (by decide)
  | foreach ws c0 range ws2 body hws _ _ _ _ _ _ =>
    refine ⟨loop_names.2, ?_, by simp [List.getLast?_append, List.getLast?_cons]⟩
    obtain ⟨hne, hb⟩ := hws
    cases ws with
    | nil => exact absurd rfl hne
    | cons a ws => exact (blank_head (ws := a :: ws) (s := []) (c := '{') hb (by decide) :)

/-- A loop leaves nothing. -/
theorem Acts.loop {V X} {cfg : Cfg V X} (ho : SomeOrder cfg.order) (hl : Letters cfg.cmds) {h} {st : St V X} (k : Known cfg h st) (toks : List Tok) (space : Bool) {w x rest : Str} (ht : LoopText rest w x)
    (hu : ∀ y ∈ h, ¬ Meant y.1 w) (hp : ¬ Contains (x ++ rest) ("\\end".toList ++ w)) :
    Acts cfg st toks space ('\\' :: (w ++ (x ++ rest))) st ⟨toks, false, rest⟩ := by
  refine ⟨0, fun n _ => ?_⟩
  obtain ⟨hn, ⟨hne, hod⟩, hz⟩ := loop_form ht
  unfold loopName at hn
  simp only [Bool.and_eq_true, List.all_eq_true] at hn
  obtain ⟨⟨⟨⟨t1, t2⟩, t3⟩, t4⟩, t5⟩ := hn
  have hw := clear_spec t4 hne
  have he : Ends w (x ++ rest) := by
    refine .inl ⟨?_, t5, hne⟩
    rintro rfl
    simp [passes] at t1
  have hf : forLoop st toks ('\\' :: (w ++ (x ++ rest))) = some (.ok st (toks, (('\\' :: (w ++ x)).length : Int))) := by
    have e : '\\' :: (w ++ (x ++ rest)) = '\\' :: (w ++ x) ++ rest := by simp
    rw [e]
    cases ht with
    | forloop l h1 h2 => exact Pkg.C69_forloop st toks l h1 h2 rest
    | foreach ws c0 range ws2 body h1 h2 h3 h4 h5 h6 h7 => exact Pkg.C69_foreach_partial st toks ws c0 range ws2 body rest h1 h2 h3 h4 h5 h6 h7
  rw [actAt_passed hl (parse cfg n) n .default k toks space (passes_spec t1 hne hu)]
  unfold actHandlers
  rw [handlers_first cfg ho (parse cfg n) n st toks (notFirsts_spec t2 hne hod), content_none cfg (parse cfg n) st toks he (notContents_spec t3 hod), orElse_none,
    table_none (Pre.not_word hw (by decide +kernel)) (Pre.not_word hw (by decide +kernel)), environment_loop cfg (parse cfg n) st toks hw (EnvT.matchPair_none w _ (fun c hc => letter_word c (t5 c hc)) hp), hf]
  simp only [orElse, Res.bind, Option.isSome_none, Bool.false_eq_true, if_false]
  rw [show '\\' :: (w ++ (x ++ rest)) = '\\' :: (w ++ x) ++ rest by simp, move_ok _ _ _ _ _ rfl, endsBlank_last' _ hz]
  rfl

end L2J.Psr
