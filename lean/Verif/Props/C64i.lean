import Verif.Props.C64h
import Verif.Props.C32
/-! C64: whole documents. -/
namespace L2J.Spec
open Cmds

/-- Reading a document. `h` are the definitions so far, in the order of the document (the flag says whether they come from a package or class); `out` is the text that is made of `s`,
`h'` are the definitions at its end and `ts` those that were met. `fm` says which formulas are readable, `pk` what the files of a package define. -/
inductive Becomes (fm : Formula → Prop) (pk : Str → List Defn.Tok) : List (Def × Bool) → Str → List (Def × Bool) → Str → List Defn.Tok → Prop
  /-- The end. -/
  | nil (h) : Becomes fm pk h [] h [] []
  /-- Ordinary characters, braces included, are kept. -/
  | char (c : Char) {h rest h' out ts} : Harmless c → Becomes fm pk h rest h' out ts → Becomes fm pk h (c :: rest) h' (c :: out) ts
  /-- Escaped characters are kept. -/
  | escaped (c : Char) {h rest h' out ts} : c ∈ "$%&_#{}~".toList → Becomes fm pk h rest h' out ts → Becomes fm pk h ('\\' :: c :: rest) h' ('\\' :: c :: out) ts
  /-- A command that is not known is kept; what follows the backslash is read on. -/
  | command (w : Str) {h rest h' out ts} : Ordinary h w rest → Becomes fm pk h (w ++ rest) h' out ts → Becomes fm pk h ('\\' :: (w ++ rest)) h' ('\\' :: out) ts
  /-- A formula is kept as it is written. -/
  | formula (w : Formula) {h rest h' out ts} : fm w → Becomes fm pk h rest h' out ts → Becomes fm pk h (w.render ++ rest) h' (w.render ++ out) ts
  /-- A layout command is replaced by what it leaves. -/
  | layout (t o : Str) {h rest h' out ts} : Layout t rest o → Becomes fm pk h (o ++ rest) h' out ts → Becomes fm pk h (t ++ rest) h' out ts
  /-- Double quotes. What is between them is read on. -/
  | double (x : Str) {h rest h' out ts} : ¬ Contains (x ++ ['\'']) ['\'', '\''] → Becomes fm pk h (x ++ '"' :: rest) h' out ts →
      Becomes fm pk h (['`', '`'] ++ (x ++ (['\'', '\''] ++ rest))) h' ('"' :: out) ts
  /-- Single quotes. -/
  | single (x : Str) {h rest h' out ts} : '\'' ∉ x → x.head? ≠ some '`' → Becomes fm pk h (x ++ '\'' :: rest) h' out ts →
      Becomes fm pk h ('`' :: (x ++ '\'' :: rest)) h' ('\'' :: out) ts
  /-- A quotation mark that is not closed. -/
  | unclosed {h rest h' out ts} : '\'' ∉ rest → Becomes fm pk h rest h' out ts → Becomes fm pk h ('`' :: rest) h' ('`' :: out) ts
  /-- A definition without arguments disappears, and counts from here on. -/
  | define (t : Str) (tok : Defn.Tok) {h rest h' out ts} : Defines t rest tok → ¬ TakesArgs tok → (∀ x ∈ entered tok false, PlainDef x.1 ∧ Settled x.1 false) →
      Becomes fm pk (h ++ entered tok false) rest h' out ts → Becomes fm pk h (t ++ rest) h' out (tok :: ts)
  /-- A definition with arguments is left to the parser. -/
  | defineArgs (t : Str) (tok : Defn.Tok) {h rest h' out ts} : Defines t rest tok → TakesArgs tok → Becomes fm pk h rest h' out ts → Becomes fm pk h (t ++ rest) h' (t ++ out) ts
  /-- A use of a command without arguments is replaced by what it stands for, and this is read on. -/
  | use (n content : Str) {h rest h' out ts} : Unmeant [] n rest → n ∉ whitelisted → (n ≠ [] ∧ ∀ c ∈ n, isLetter c = true) → StandsFor h n content →
      Becomes fm pk h (content ++ rest) h' out ts → Becomes fm pk h ('\\' :: (n ++ rest)) h' out ts
  /-- Setting a switch and showing a counter or a length have no text. -/
  | idle (w : Str) {h rest h' out ts} : Unmeant [] w rest → Idle h w → (∀ c ∈ rest.head?, isWord c = false) → Becomes fm pk h rest h' out ts →
      Becomes fm pk h ('\\' :: (w ++ rest)) h' out ts
  /-- A pair of delimiters is written out, and this is read on. -/
  | pair (n l r star ws x : Str) {h rest h' out ts} : Unmeant [] n (star ++ (ws ++ '{' :: (x ++ '}' :: rest))) → n ∉ whitelisted → (n ≠ [] ∧ ∀ c ∈ n, isLetter c = true) →
      Pairs h n l r → star = [] ∨ star = ['*'] → Blank ws → Wrappable '{' '}' x → ¬ '\\' :: n <+: l ++ (x ++ r) → Becomes fm pk h (l ++ x ++ r ++ rest) h' out ts →
      Becomes fm pk h ('\\' :: (n ++ (star ++ (ws ++ '{' :: (x ++ '}' :: rest))))) h' out ts
  /-- `\if… … \fi`: the text is kept unless it is `\iffalse`. -/
  | fi (n x : Str) {h rest h' out ts} : Unmeant h ("if".toList ++ n) (x ++ ("\\fi".toList ++ rest)) → (∀ c ∈ n, isLetter c = true) → Opens (switches h) n (x ++ "\\fi".toList) →
      n ≠ "ifthenelse".toList → CondText (switches h) true x → (∀ c ∈ rest.head?, isWord c = false) →
      Becomes fm pk h ((if n = "false".toList then [] else strip x) ++ rest) h' out ts → Becomes fm pk h ("\\if".toList ++ n ++ (x ++ ("\\fi".toList ++ rest))) h' out ts
  /-- `\if… … \else … \fi`: the first text is kept, with `\iffalse` the second. -/
  | else_ (n x y : Str) {h rest h' out ts} : Unmeant h ("if".toList ++ n) (x ++ ("\\else".toList ++ (y ++ ("\\fi".toList ++ rest)))) → (∀ c ∈ n, isLetter c = true) →
      Opens (switches h) n (x ++ "\\else".toList) → n ≠ "ifthenelse".toList → CondText (switches h) true x → CondText (switches h) true y → (∀ c ∈ y.head?, isWord c = false) →
      (∀ c ∈ rest.head?, isWord c = false) → Becomes fm pk h ((if n = "false".toList then strip y else strip x) ++ rest) h' out ts →
      Becomes fm pk h ("\\if".toList ++ n ++ (x ++ ("\\else".toList ++ (y ++ ("\\fi".toList ++ rest))))) h' out ts
  /-- `\ifthenelse{…}{…}{…}`: the first text is kept. -/
  | ifthenelse (w1 c w2 a w3 b : Str) {h rest h' out ts} : Unmeant h "ifthenelse".toList (wrapAll '{' '}' [(w1, c), (w2, a), (w3, b)] ++ rest) →
      (∀ m ∈ switches h, ¬ m <+: "thenelse".toList) → WellWrapped '{' '}' [(w1, c), (w2, a), (w3, b)] → Becomes fm pk h (a ++ rest) h' out ts →
      Becomes fm pk h ("\\ifthenelse".toList ++ (wrapAll '{' '}' [(w1, c), (w2, a), (w3, b)] ++ rest)) h' out ts
  /-- `\addto\name{…}` leaves its group. Without braces around the name a blank must follow it (see `C64_violated_addto`). -/
  | addto (b : Bool) (ws n ws2 : Str) {h rest h' out ts} : Blank ws → NameWord n → Blank ws2 → (b = false → ws2 ≠ []) → Becomes fm pk h ('{' :: rest) h' out ts →
      Becomes fm pk h ("\\addto".toList ++ (ws ++ (asArg b n ++ (ws2 ++ '{' :: rest)))) h' out ts
  /-- A package: what its files define counts from here on. -/
  | package (p : PackageText) {h rest h' out ts} : p.word ∈ packageWords → p.Ok → (∀ x ∈ loaded (pk (strip p.names)), PlainDef x.1) →
      Becomes fm pk (h ++ loaded (pk (strip p.names))) rest h' out ts → Becomes fm pk h (p.written ++ rest) h' out (pk (strip p.names) ++ ts)

end L2J.Spec
namespace L2J.Pre
open Cmds Defn L2J.Spec

/-- The protected formulas, by number. -/
def number (F : List Str) : List (Str × Str) := (List.range F.length).map fun i => (mathPlaceholder i, F.getD i [])

theorem number_length (F : List Str) : (number F).length = F.length := by simp [number]

theorem number_snoc (F : List Str) (f : Str) : number (F ++ [f]) = number F ++ [(mathPlaceholder F.length, f)] := by
  unfold number
  rw [List.length_append, List.length_singleton, List.range_succ, List.map_append]
  congr 1
  · refine List.map_congr_left fun i hi => ?_
    have : i < F.length := by simpa using hi
    simp [List.getD, List.getElem?_append_left this]
  · simp [List.getD]

/-- What the loop does to a text. -/
def Done {V} (cfg : Cfg V) (st : St V) (F : List Str) (s : Str) (h' : List (Def × Bool)) (out : Str) (ts : List Defn.Tok) : Prop :=
  ∃ st' G segs, Runs cfg st s st' (render mathPlaceholder segs) ∧ Known cfg h' st' ∧ st'.blocks = number (F ++ G) ∧ render (fun i => (F ++ G).getD i []) segs = out ∧
    (∀ i, .block i ∈ segs → i < (F ++ G).length) ∧ st'.toks = st.toks ++ ts

theorem Done.text {V} {cfg : Cfg V} {st : St V} {F : List Str} {s s' : Str} {h' out ts} (x : Str) (h : Done cfg st F s h' out ts)
    (hr : ∀ st' o, Runs cfg st s st' o → Runs cfg st s' st' (x ++ o)) : Done cfg st F s' h' (x ++ out) ts := by
  obtain ⟨st', G, segs, h1, h2, h3, h4, h5, h6⟩ := h
  refine ⟨st', G, .text x :: segs, hr _ _ h1, h2, h3, ?_, ?_, h6⟩
  · show x ++ _ = _; rw [h4]
  · intro i hi; simp at hi; exact h5 i hi

theorem Done.same {V} {cfg : Cfg V} {st : St V} {F : List Str} {s s' : Str} {h' out ts} (h : Done cfg st F s h' out ts)
    (hr : ∀ st' o, Runs cfg st s st' o → Runs cfg st s' st' o) : Done cfg st F s' h' out ts := by
  obtain ⟨st', G, segs, h1, h2, h3, h4, h5, h6⟩ := h
  exact ⟨st', G, segs, hr _ _ h1, h2, h3, h4, h5, h6⟩

theorem reads_done {V} {cfg : Cfg V} (ho : SomeOrder cfg.order) (hl : Letters cfg.cmds) {h s h' out ts}
    (hr : Becomes (fun w => Accepts cfg w.render) cfg.packages h s h' out ts) : ∀ (st : St V) (F : List Str), Known cfg h st → st.blocks = number F → Done cfg st F s h' out ts := by
  induction hr with
  | nil h => intro st F k hb; exact ⟨st, [], [], Runs.stop rfl, k, by simpa using hb, rfl, by simp, by simp⟩
  | char c hc _ ih => intro st F k hb; exact (ih st F k hb).text [c] fun st' o h => Runs.char (inert ho k) hc h
  | escaped c hc _ ih =>
    intro st F k hb
    exact (ih st F k hb).text ['\\', c] fun st' o h => Runs.escaped (inert ho k) (by unfold escapable; rw [List.contains_iff_mem]; exact hc) h
  | command w hw _ ih => intro st F k hb; exact (ih st F k hb).text ['\\'] fun st' o h => Runs.command ho hl k hw h
  | formula w hw _ ih =>
    intro st F k hb
    rename_i h rest h' out ts _
    obtain ⟨e', he⟩ := Runs.formula ho k w hw rest
    rw [hb, number_length] at he
    obtain ⟨st', G, segs, h1, h2, h3, h4, h5, h6⟩ := ih { st with eqn := e', blocks := number F ++ [(mathPlaceholder F.length, w.render)] } (F ++ [w.render])
      ⟨k.reg, k.plain, k.ifs⟩ (number_snoc _ _).symm
    refine ⟨st', w.render :: G, .block F.length :: segs, he _ _ h1, h2, ?_, ?_, ?_, h6⟩
    · rw [h3, List.append_assoc]; rfl
    · show (F ++ w.render :: G).getD F.length [] ++ _ = _
      rw [List.append_assoc] at h4
      rw [show ([w.render] ++ G) = w.render :: G from rfl] at h4
      rw [h4]; simp [List.getD]
    · intro i hi
      simp only [List.mem_cons, Seg.block.injEq] at hi
      rcases hi with rfl | hi
      · simp
      · have := h5 i hi; simpa [Nat.add_assoc, Nat.add_comm 1] using this
  | layout t o hl' _ ih => intro st F k hb; exact (ih st F k hb).same fun st' o h => Runs.layout ho hl' h
  | double x hx _ ih => intro st F k hb; exact (ih st F k hb).text ['"'] fun st' o h => Runs.quote ho k (quotes_double hx) (by decide) (by decide) h
  | single x hx h0 _ ih => intro st F k hb; exact (ih st F k hb).text ['\''] fun st' o h => Runs.quote ho k (quotes_single hx h0) (by decide) (by decide) h
  | unclosed hx _ ih => intro st F k hb; exact (ih st F k hb).text ['`'] fun st' o h => Runs.quote ho k (quotes_open hx) (by decide) (by decide) h
  | define t tok hd ha hp _ ih =>
    intro st F k hb
    obtain ⟨st1, a1, a2, a3, a4, a5, a6⟩ := Known.add hl k hp
    obtain ⟨st', G, segs, h1, h2, h3, h4, h5, h6⟩ := ih { st1 with toks := st1.toks ++ [tok] } F ⟨a2.reg, a2.plain, a2.ifs⟩ (a5.trans hb)
    refine ⟨st', G, segs, Runs.define ho hd ha a1 h1, h2, h3, h4, h5, ?_⟩
    rw [h6, a6]; simp
  | defineArgs t tok hd ha _ ih => intro st F k hb; exact (ih st F k hb).text t fun st' o h => Runs.defineArgs ho hd ha h
  | use n content hw hwl hn hs _ ih => intro st F k hb; exact (ih st F k hb).same fun st' o h => Runs.use ho hl k hw hwl hn hs h
  | idle w hw hi hre _ ih => intro st F k hb; exact (ih st F k hb).same fun st' o h => Runs.idle ho hl k hw hi hre h
  | pair n l r star ws x hw hwl hn hs hst hws hx hne _ ih => intro st F k hb; exact (ih st F k hb).same fun st' o h => Runs.pair ho hl k hw hwl hn hs hst hws hx hne h
  | fi n x hw hn hop hown hx hre _ ih => intro st F k hb; exact (ih st F k hb).same fun st' o h => Runs.fi ho hl k hw hn hop hown hx hre h
  | else_ n x y hw hn hop hown hx hy hy0 hre _ ih => intro st F k hb; exact (ih st F k hb).same fun st' o h => Runs.else_ ho hl k hw hn hop hown hx hy hy0 hre h
  | ifthenelse w1 c w2 a w3 b hw hns hwr _ ih => intro st F k hb; exact (ih st F k hb).same fun st' o h => Runs.ifthenelse ho hl k hw hns hwr h
  | addto b ws n ws2 hws hn hws2 hb _ ih => intro st F k hb'; exact (ih st F k hb').same fun st' o h => Runs.addto b hws hn hws2 hb h
  | package p hw hp hpl _ ih =>
    intro st F k hb
    obtain ⟨st1, a1, a2, a3, a4, a5⟩ := addAll_known hl _ k hpl
    obtain ⟨st', G, segs, h1, h2, h3, h4, h5, h6⟩ := ih { st1 with toks := st1.toks ++ cfg.packages (strip p.names) } F ⟨a2.reg, a2.plain, a2.ifs⟩ (a4.trans hb)
    refine ⟨st', G, segs, Runs.package ho hw hp a1 h1, h2, h3, h4, h5, ?_⟩
    rw [h6, a5]; simp

/-- C64: what the preprocessor makes of a text is what reading it gives: formulas come back as they were written, definitions count from where they stand, and the
definitions met are reported in their order. -/
theorem C64_process {V} (cfg : Cfg V) (ho : SomeOrder cfg.order) (hl : Letters cfg.cmds) (st : St V) (h h' : List (Def × Bool)) (s out : Str) (ts : List Defn.Tok) (k : Known cfg h st)
    (hr : Becomes (fun w => Accepts cfg w.render) cfg.packages h s h' out ts) (hm : ¬ Contains out "MATH_BLOCK".toList) :
    ∃ st' N, Known cfg h' st' ∧ st'.toks = st.toks ++ ts ∧ ∀ fuel, N ≤ fuel → process cfg fuel st s = .done st' out := by
  obtain ⟨st', G, segs, ⟨N, h1⟩, h2, h3, h4, h5, h6⟩ := reads_done ho hl hr { st with blocks := [] } [] ⟨k.reg, k.plain, k.ifs⟩ rfl
  refine ⟨st', N, h2, h6, fun fuel hf => ?_⟩
  unfold process
  rw [h1 fuel hf]
  simp only [h3]
  have := (C32_restore_partial (fun i => ([] ++ G).getD i []) ([] ++ G).length segs h5).2 (by rw [h4]; exact hm)
  unfold number
  rw [this, h4]

end L2J.Pre
